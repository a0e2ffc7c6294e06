import Verif.Spec.Time
import Verif.Model.Time
/-
The calendar of the model is the Gregorian one.
-/
namespace Wot

open Rfc3339

theorem isLeap_iff (y : Int) : isLeap y = true ↔ LeapYear y := by
  unfold isLeap LeapYear
  simp only [Bool.and_eq_true, Bool.or_eq_true, decide_eq_true_eq]
  constructor
  · rintro ⟨h1, h2 | h2⟩
    · exact ⟨h1, fun h => absurd h h2⟩
    · exact ⟨h1, fun _ => h2⟩
  · rintro ⟨h1, h2⟩
    refine ⟨h1, ?_⟩
    by_cases h : y % 100 = 0
    · exact .inr (h2 h)
    · exact .inl h

theorem months_length (b : Bool) : (months b).length = 12 := rfl

/-- The lengths of the months, from the first. -/
theorem months_get (y : Int) {i : Nat} (h : i < 12) : (months (isLeap y))[i]? = some (monthDays y (i + 1)) := by
  unfold monthDays
  by_cases hl : LeapYear y
  · have hb := (isLeap_iff y).2 hl
    simp only [hb, hl, months]
    match i, h with
    | 0, _ | 1, _ | 2, _ | 3, _ | 4, _ | 5, _ | 6, _ | 7, _ | 8, _ | 9, _ | 10, _ | 11, _ => rfl
  · have hb : isLeap y = false := Bool.eq_false_iff.2 fun h => hl ((isLeap_iff y).1 h)
    simp only [hb, hl, months]
    match i, h with
    | 0, _ | 1, _ | 2, _ | 3, _ | 4, _ | 5, _ | 6, _ | 7, _ | 8, _ | 9, _ | 10, _ | 11, _ => rfl

/-- The days of the year before a month. -/
def before (y : Int) (m : Nat) : Nat := ((months (isLeap y)).take (m - 1)).sum

theorem before_next (y : Int) {m : Nat} (h1 : 1 ≤ m) (h2 : m ≤ 12) : before y (m + 1) = before y m + monthDays y m := by
  obtain ⟨i, rfl⟩ : ∃ i, m = i + 1 := ⟨m - 1, by omega⟩
  unfold before
  simp only [Nat.add_sub_cancel]
  rw [List.take_add_one, months_get y (by omega), List.sum_append]
  simp

theorem before_all (y : Int) : before y 13 = if LeapYear y then 366 else 365 := by
  unfold before
  by_cases hl : LeapYear y
  · have hb := (isLeap_iff y).2 hl
    simp only [hb, hl]; rfl
  · have hb : isLeap y = false := Bool.eq_false_iff.2 fun h => hl ((isLeap_iff y).1 h)
    simp only [hb, hl]; rfl

theorem daysTo_next (y : Int) : daysTo (y + 1) = daysTo y + if LeapYear y then 366 else 365 := by
  unfold daysTo
  by_cases h : LeapYear y
  · rw [if_pos h]; unfold LeapYear at h; omega
  · rw [if_neg h]; unfold LeapYear at h; omega

/-- The number of a date. -/
def Date.count (d : Date) : Int := daysTo d.year + (before d.year d.month + (d.day - 1) : Nat) - epochDay

theorem dayNumber_iff {y : Int} {m d : Nat} {n : Int} :
    dayNumber y m d = some n ↔ (Date.mk y m d).Valid ∧ n = (Date.mk y m d).count := by
  unfold dayNumber Date.Valid Date.count before
  by_cases hm : 1 ≤ m ∧ m ≤ 12
  · obtain ⟨h1, h2⟩ := hm
    have := months_get y (i := m - 1) (by omega)
    rw [Nat.sub_add_cancel h1] at this
    rw [this]
    simp only
    split
    · rename_i h
      simp only [Option.some.injEq]
      exact ⟨fun e => ⟨⟨h1, h2, h.2⟩, e.symm⟩, fun e => e.2.symm⟩
    · rename_i h
      simp only [reduceCtorEq, false_iff]
      rintro ⟨⟨-, -, h3⟩, -⟩
      exact h ⟨h1, h3⟩
  · constructor
    · intro h
      split at h
      · cases h
      · rename_i l hl
        split at h
        · rename_i h'
          have : m - 1 < 12 := by
            have := List.getElem?_eq_some_iff.1 hl
            obtain ⟨hlt, -⟩ := this
            exact hlt
          omega
        · cases h
    · rintro ⟨⟨h1, h2, -⟩, -⟩
      exact absurd ⟨h1, h2⟩ hm

theorem monthDays_pos (y : Int) (m : Nat) : 28 ≤ monthDays y m ∧ monthDays y m ≤ 31 := by
  unfold monthDays; repeat' split
  all_goals omega

theorem Date.Valid.next {d : Date} (h : d.Valid) : d.next.Valid := by
  obtain ⟨h1, h2, h3, h4⟩ := h
  unfold Date.next
  split
  · exact ⟨h1, h2, Nat.le_add_left .., by assumption⟩
  · split
    · exact ⟨Nat.le_add_left .., by assumption, Nat.le_refl _, Nat.le_trans (by decide : 1 ≤ 28) (monthDays_pos _ _).1⟩
    · exact ⟨Nat.le_refl _, (by decide : 1 ≤ 12), Nat.le_refl _, Nat.le_trans (by decide : 1 ≤ 28) (monthDays_pos _ _).1⟩

theorem Date.count_next {d : Date} (h : d.Valid) : d.next.count = d.count + 1 := by
  obtain ⟨y, m, d⟩ := d
  obtain ⟨h1, h2, h3, h4⟩ := h
  simp only at h1 h2 h3 h4
  unfold Date.next Date.count
  simp only
  split
  · simp only; omega
  · split
    · have := before_next y h1 h2
      simp only [this]; omega
    · have e : m = 12 := by omega
      subst e
      have := before_next y (m := 12) (by decide) (by decide)
      have h13 := before_all y
      have h0 : before (y + 1) 1 = 0 := rfl
      simp only [h0, daysTo_next]
      rw [h13] at this
      split at this <;> rename_i hl <;> simp only [hl, if_true, if_false] <;> omega

/-! ### From numbers to dates -/

theorem monthDay_at (l : List Nat) (m : Nat) {i d len : Nat} (hi : l[i]? = some len) (hd : d < len) :
    monthDay l m ((l.take i).sum + d) = (m + i, d + 1) := by
  induction l generalizing m i with
  | nil => cases hi
  | cons a l ih =>
    cases i with
    | zero =>
      cases hi
      simp [monthDay, hd]
    | succ i =>
      rw [show ((a :: l).take (i + 1)).sum + d = a + ((l.take i).sum + d) by
        rw [List.take_succ_cons, List.sum_cons, Nat.add_assoc]]
      unfold monthDay
      rw [if_neg (by omega), Nat.add_sub_cancel_left, ih (m + 1) (by simpa using hi)]
      simp only [Prod.mk.injEq, and_true]; omega

theorem monthDay_split (l : List Nat) {o : Nat} (h : o < l.sum) :
    ∃ i len d, l[i]? = some len ∧ d < len ∧ o = (l.take i).sum + d := by
  induction l generalizing o with
  | nil => cases h
  | cons a l ih =>
    by_cases ho : o < a
    · exact ⟨0, a, o, rfl, ho, by simp⟩
    · obtain ⟨i, len, d, h1, h2, h3⟩ := ih (o := o - a) (by rw [List.sum_cons] at h; omega)
      exact ⟨i + 1, len, d, by simpa using h1, h2, by rw [List.take_succ_cons, List.sum_cons]; omega⟩

theorem daysTo_lt {y y' : Int} (h : y < y') : daysTo y + 365 ≤ daysTo y' := by
  unfold daysTo; omega

theorem yearOf_spec (n : Int) : daysTo (yearOf n) ≤ n ∧ n < daysTo (yearOf n + 1) := by
  unfold yearOf
  simp only
  split
  · rename_i h
    unfold daysTo at *; omega
  · split
    · unfold daysTo at *; omega
    · omega

theorem yearOf_eq {n y : Int} (h1 : daysTo y ≤ n) (h2 : n < daysTo (y + 1)) : yearOf n = y := by
  obtain ⟨h3, h4⟩ := yearOf_spec n
  by_cases h : y < yearOf n
  · have := @daysTo_lt (y + 1) (yearOf n)
    by_cases e : y + 1 = yearOf n
    · rw [e] at h2; omega
    · have := this (by omega); omega
  · by_cases h' : yearOf n < y
    · by_cases e : yearOf n + 1 = y
      · rw [e] at h4; omega
      · have := @daysTo_lt (yearOf n + 1) y (by omega); omega
    · omega

theorem before_lt {d : Date} (h : d.Valid) :
    before d.year d.month + (d.day - 1) < if LeapYear d.year then 366 else 365 := by
  obtain ⟨y, m, d⟩ := d
  obtain ⟨h1, h2, h3, h4⟩ := h
  simp only at *
  rw [← before_all]
  have := before_next y h1 h2
  have mono : ∀ k, m + 1 + k ≤ 13 → before y (m + 1) ≤ before y (m + 1 + k) := by
    intro k
    induction k with
    | zero => exact fun _ => Nat.le_refl _
    | succ k ih =>
      intro hk
      have := before_next y (m := m + 1 + k) (by omega) (by omega)
      have := ih (by omega)
      rw [show m + 1 + (k + 1) = m + 1 + k + 1 by omega]
      omega
  have := mono (12 - m) (by omega)
  rw [show m + 1 + (12 - m) = 13 by omega] at this
  omega

/-- The date of a number. -/
def Date.of (n : Int) : Date := ⟨(civil n).1, (civil n).2.1, (civil n).2.2⟩

theorem Date.of_count {d : Date} (h : d.Valid) : Date.of d.count = d := by
  have hlt := before_lt h
  obtain ⟨y, m, d⟩ := d
  obtain ⟨h1, h2, h3, h4⟩ := h
  simp only at h1 h2 h3 h4 hlt
  have hy : yearOf ((Date.mk y m d).count + epochDay) = y := by
    refine yearOf_eq ?_ ?_
    · unfold Date.count; simp only; omega
    · rw [daysTo_next]; unfold Date.count; simp only; split <;> simp_all <;> omega
  have ho : ((Date.mk y m d).count + epochDay - daysTo y).toNat = before y m + (d - 1) := by
    unfold Date.count; simp only; omega
  have hm := months_get y (i := m - 1) (by omega)
  rw [Nat.sub_add_cancel h1] at hm
  have := monthDay_at (months (isLeap y)) 1 hm (d := d - 1) (by omega)
  unfold Date.of civil
  simp only [hy, ho, before, this]
  rw [Date.mk.injEq]
  exact ⟨rfl, by omega, by omega⟩

theorem months_sum (y : Int) : (months (isLeap y)).sum = if LeapYear y then 366 else 365 := by
  rw [← before_all]; rfl

theorem Date.of_valid (n : Int) : (Date.of n).Valid ∧ (Date.of n).count = n := by
  obtain ⟨h1, h2⟩ := yearOf_spec (n + epochDay)
  rw [daysTo_next] at h2
  generalize hy : yearOf (n + epochDay) = y at *
  have hlt : (n + epochDay - daysTo y).toNat < (months (isLeap y)).sum := by
    rw [months_sum]; split <;> simp_all <;> omega
  obtain ⟨i, len, d, e1, e2, e3⟩ := monthDay_split _ hlt
  have hi : i < 12 := by
    obtain ⟨h, -⟩ := List.getElem?_eq_some_iff.1 e1
    exact h
  have hlen := months_get y hi
  rw [e1, Option.some.injEq] at hlen
  have hmd := monthDay_at (months (isLeap y)) 1 e1 e2
  have hof : Date.of n = ⟨y, i + 1, d + 1⟩ := by
    unfold Date.of civil
    simp only [hy, e3, hmd]
    rw [Date.mk.injEq]
    exact ⟨rfl, by omega, rfl⟩
  rw [hof]
  refine ⟨⟨by simp only; omega, by simp only; omega, by simp only; omega, by simp only; omega⟩, ?_⟩
  unfold Date.count before
  simp only [Nat.add_sub_cancel]
  omega

theorem Date.number_of (n : Int) : Date.Number (Date.of n) n := by
  have step : ∀ n, (Date.of n).next = Date.of (n + 1) := fun n => by
    obtain ⟨h1, h2⟩ := Date.of_valid n
    have := Date.of_count h1.next
    rw [Date.count_next h1, h2] at this
    exact this.symm
  have up : ∀ k : Nat, Date.Number (Date.of k) k := by
    intro k
    induction k with
    | zero => exact .epoch
    | succ k ih =>
      have := ih.after
      rw [step] at this
      exact this
  have down : ∀ k : Nat, Date.Number (Date.of (-k)) (-k) := by
    intro k
    induction k with
    | zero => exact .epoch
    | succ k ih =>
      refine .before (Date.of_valid _).1 ?_
      rw [step]
      have e : (-((k + 1 : Nat) : Int)) + 1 = -k := by omega
      rw [e]
      exact ih
  rcases Int.le_total 0 n with h | h
  · have := up n.toNat
    rwa [Int.toNat_of_nonneg h] at this
  · have := down (-n).toNat
    rwa [Int.toNat_of_nonneg (by omega), Int.neg_neg] at this

/-- The number of a date counts the days. -/
theorem Date.number_iff {d : Date} {n : Int} : d.Number n ↔ d.Valid ∧ n = d.count := by
  constructor
  · intro h
    induction h with
    | epoch => exact ⟨⟨by decide, by decide, by decide, by decide⟩, rfl⟩
    | after _ ih => exact ⟨ih.1.next, by rw [Date.count_next ih.1, ih.2]⟩
    | before hv _ ih =>
      refine ⟨hv, ?_⟩
      have := ih.2
      rw [Date.count_next hv] at this
      omega
  · rintro ⟨h, rfl⟩
    have := Date.number_of d.count
    rwa [Date.of_count h] at this

theorem Date.number_civil {d : Date} {n : Int} : d.Number n ↔ d = Date.of n := by
  rw [Date.number_iff]
  constructor
  · rintro ⟨h, rfl⟩; exact (Date.of_count h).symm
  · rintro rfl
    obtain ⟨h1, h2⟩ := Date.of_valid n
    exact ⟨h1, h2.symm⟩

end Wot
