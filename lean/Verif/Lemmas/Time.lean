import Verif.Lemmas.Calendar
import Verif.Lemmas.Shortest
/-
Reading and writing the parts of the texts of instants.
-/
namespace Wot

open Rfc3339

/-! ### Digits -/

theorem digits_iff {k n : Nat} {cs rest : List Char} :
    digits k cs = some (n, rest) ↔ ∃ ds, cs = ds ++ rest ∧ Digits k n ds := by
  induction k generalizing n rest with
  | zero =>
    simp only [digits, Option.some.injEq, Prod.mk.injEq]
    constructor
    · rintro ⟨rfl, rfl⟩; exact ⟨[], rfl, rfl, .nil⟩
    · rintro ⟨ds, rfl, h1, h2⟩
      cases List.length_eq_zero_iff.1 h1
      exact ⟨denote_value h2, rfl⟩
  | succ k ih =>
    rw [digits, Option.bind_eq_some_iff]
    constructor
    · rintro ⟨⟨n', cs'⟩, h1, h2⟩
      obtain ⟨ds, rfl, h3, h4⟩ := ih.1 h1
      cases cs' with
      | nil => cases h2
      | cons c cs' =>
        simp only at h2
        split at h2
        · rename_i hc
          obtain ⟨d, hd, rfl⟩ := isDigit_iff.1 hc
          rw [digit_toNat hd] at h2
          cases h2
          exact ⟨ds ++ [Char.ofNat ('0'.toNat + d)], by simp, by simp [h3], .snoc hd h4⟩
        · cases h2
    · rintro ⟨ds, rfl, h1, h2⟩
      cases h2 with
      | nil => cases h1
      | @snoc ds' n' d hd hds =>
        refine ⟨(n', Char.ofNat ('0'.toNat + d) :: rest), ih.2 ⟨ds', by simp, by simpa using h1, hds⟩, ?_⟩
        simp only
        rw [if_pos (isDigit_iff.2 ⟨d, hd, rfl⟩), digit_toNat hd]

theorem digits_read {k n : Nat} {ds : List Char} (rest : List Char) (h : Digits k n ds) :
    digits k (ds ++ rest) = some (n, rest) := digits_iff.2 ⟨ds, rfl, h⟩

theorem digitChar_eq {d : Nat} (h : d < 10) : digitChar d = Char.ofNat ('0'.toNat + d) := by
  have : ∀ d < 10, digitChar d = Char.ofNat ('0'.toNat + d) := by decide
  exact this d h

theorem pad_digits (k : Nat) {n : Nat} (h : n < 10 ^ k) : Digits k n (pad k n) := by
  induction k generalizing n with
  | zero =>
    have : n = 0 := by simpa using h
    subst this
    exact ⟨rfl, .nil⟩
  | succ k ih =>
    rw [Nat.pow_succ] at h
    obtain ⟨h1, h2⟩ := ih (n := n / 10) (by omega)
    refine ⟨by simp [pad, h1], ?_⟩
    have := DigitsDenote.snoc (d := n % 10) (by omega) h2
    rw [← digitChar_eq (by omega), Nat.div_add_mod] at this
    exact this

theorem Digits.unique {k n : Nat} {ds : List Char} (h : Digits k n ds) : ds = pad k n := by
  induction k generalizing n ds with
  | zero => exact List.length_eq_zero_iff.1 h.1
  | succ k ih =>
    obtain ⟨h1, h2⟩ := h
    cases h2 with
    | nil => cases h1
    | @snoc ds' n' d hd hds =>
      rw [ih ⟨by simpa using h1, hds⟩, pad, show (10 * n' + d) / 10 = n' by omega, show (10 * n' + d) % 10 = d by omega,
        digitChar_eq hd]

theorem Digits.lt {k n : Nat} {ds : List Char} (h : Digits k n ds) : n < 10 ^ k := by
  have := denote_lt h.2
  rwa [h.1] at this

theorem literal_iff {l cs rest : List Char} : literal l cs = some rest ↔ ∃ c ∈ l, cs = c :: rest := by
  cases cs with
  | nil => simp [literal]
  | cons c cs =>
    simp only [literal]
    split
    · rename_i h
      rw [List.contains_iff_mem] at h
      constructor
      · intro e; cases e; exact ⟨c, h, rfl⟩
      · rintro ⟨c, -, e⟩; cases e; rfl
    · rename_i h
      rw [List.contains_iff_mem] at h
      constructor
      · intro e; cases e
      · rintro ⟨c, h', e⟩; cases e; exact absurd h' h

theorem literal_read {l : List Char} {c : Char} (rest : List Char) (h : c ∈ l) : literal l (c :: rest) = some rest :=
  literal_iff.2 ⟨c, h, rfl⟩

/-! ### Fractions -/

theorem digitsValue_from (cs : List Char) (a : Nat) :
    cs.foldl (fun n c => 10 * n + (c.toNat - 48)) a = a * 10 ^ cs.length + digitsValue cs := by
  induction cs generalizing a with
  | nil => simp [digitsValue]
  | cons c cs ih =>
    simp only [digitsValue, List.foldl_cons, List.length_cons]
    rw [ih (10 * a + _), ih (10 * 0 + _), Nat.pow_succ, Nat.add_mul, Nat.add_mul, Nat.mul_zero, Nat.zero_mul, Nat.zero_add,
      Nat.add_assoc, Nat.mul_comm 10 a, Nat.mul_assoc, Nat.mul_comm 10]

theorem digitsValue_cons (c : Char) (cs : List Char) :
    digitsValue (c :: cs) = (c.toNat - 48) * 10 ^ cs.length + digitsValue cs := by
  have := digitsValue_from cs (10 * 0 + (c.toNat - 48))
  rw [Nat.mul_zero, Nat.zero_add] at this
  rw [← this]; simp [digitsValue]

theorem subsecond_zero (cs : List Char) : subsecond 0 cs = 0 := by
  induction cs with
  | nil => rfl
  | cons c cs ih => simp [subsecond, ih]

theorem subsecond_eq (j : Nat) {cs : List Char} (h : ∀ c ∈ cs, c.isDigit = true) :
    subsecond (10 ^ j) cs = digitsValue cs * 10 ^ (j + 1) / 10 ^ cs.length := by
  induction cs generalizing j with
  | nil => simp [subsecond, digitsValue]
  | cons c cs ih =>
    have hcs : ∀ c ∈ cs, c.isDigit = true := fun c hc => h c (List.mem_cons_of_mem _ hc)
    have hlt := denote_lt (denote_of_digits cs hcs)
    have hp : 0 < 10 ^ cs.length := Nat.pow_pos (by decide)
    have e : digitsValue (c :: cs) * 10 ^ (j + 1) / 10 ^ (c :: cs).length =
        (c.toNat - 48) * 10 ^ j + digitsValue cs * 10 ^ j / 10 ^ cs.length := by
      rw [digitsValue_cons, List.length_cons, Nat.pow_succ, Nat.pow_succ, ← Nat.mul_assoc,
        Nat.mul_div_mul_right _ _ (by decide : 0 < 10), Nat.add_mul, Nat.mul_right_comm, Nat.add_comm,
        Nat.add_mul_div_right _ _ hp, Nat.add_comm]
    rw [e, subsecond]
    cases j with
    | zero =>
      rw [show (10 : Nat) ^ 0 / 10 = 0 by decide, subsecond_zero, Nat.pow_zero, Nat.mul_one, Nat.mul_one,
        Nat.div_eq_of_lt hlt]
    | succ j =>
      rw [show (10 : Nat) ^ (j + 1) / 10 = 10 ^ j by rw [Nat.pow_succ, Nat.mul_div_cancel _ (by decide)], ih j hcs]

theorem denote_digits {cs : List Char} {n : Nat} (h : DigitsDenote cs n) : ∀ c ∈ cs, c.isDigit = true := by
  induction h with
  | nil => intro c hc; cases hc
  | snoc hd _ ih =>
    intro c hc
    rcases List.mem_append.1 hc with hc | hc
    · exact ih c hc
    · rw [List.mem_singleton.1 hc]; exact isDigit_iff.2 ⟨_, hd, rfl⟩

theorem fraction_parts {cs rest : List Char} {N : Nat} (h : fraction cs = some (N, rest)) :
    ∃ fs, cs = fs ++ rest ∧ FractionText N fs := by
  unfold fraction at h
  split at h
  · rename_i cs
    split at h
    · cases h
    · rename_i hne
      obtain ⟨h1, h2, -⟩ := scanDigits_split cs
      have hd := denote_of_digits _ h2
      have e := subsecond_eq 8 h2
      simp only [Option.some.injEq, Prod.mk.injEq] at h
      obtain ⟨rfl, rfl⟩ := h
      refine ⟨'.' :: (scanDigits cs).1, by rw [List.cons_append, ← h1], ?_⟩
      rw [show 100000000 = 10 ^ 8 from rfl, e]
      exact .some hne hd
  · simp only [Option.some.injEq, Prod.mk.injEq] at h
    obtain ⟨rfl, rfl⟩ := h
    exact ⟨[], rfl, .none⟩

theorem fraction_read {fs rest : List Char} {N : Nat} (h : FractionText N fs) (hr : NoDigit rest) (hp : rest.head? ≠ some '.') :
    fraction (fs ++ rest) = some (N, rest) := by
  cases h with
  | none =>
    rw [List.nil_append]
    unfold fraction
    split
    · exact absurd rfl hp
    · rfl
  | @some v ds hne hd =>
    have h2 := denote_digits hd
    rw [List.cons_append]
    unfold fraction
    simp only
    rw [scanDigits_append h2 hr]
    simp only [hne, if_false]
    rw [show 100000000 = 10 ^ 8 from rfl, subsecond_eq 8 h2, denote_value hd]

/-! ### Offsets -/

theorem offset_parts {cs rest : List Char} {o : Int} (h : offset cs = some (o, rest)) :
    ∃ zs, cs = zs ++ rest ∧ ZoneText o zs := by
  unfold offset at h
  split at h
  · cases h
  · rename_i c cs
    split at h
    · rename_i hc
      cases h
      exact ⟨[c], rfl, .utc (by simpa using hc)⟩
    · split at h
      · rename_i hc
        simp only [bind, Option.bind_eq_some_iff] at h
        obtain ⟨⟨h', cs1⟩, e1, cs2, e2, ⟨m, cs3⟩, e3, h⟩ := h
        obtain ⟨hs, rfl, d1⟩ := digits_iff.1 e1
        obtain ⟨c', hc', rfl⟩ := literal_iff.1 e2
        obtain ⟨ms, rfl, d2⟩ := digits_iff.1 e3
        cases List.mem_singleton.1 hc'
        simp only at h
        split at h
        · rename_i hb
          simp only [Option.some.injEq, Prod.mk.injEq] at h
          obtain ⟨rfl, rfl⟩ := h
          rcases hc with rfl | rfl
          · refine ⟨'+' :: hs ++ ':' :: ms, by simp, ?_⟩
            have := ZoneText.east d1 d2 hb.1 hb.2
            have e : (if '+' = '-' then -1 else 1 : Int) * ((h' * 3600 + m * 60 : Nat) : Int) = (60 * h' + m) * 60 := by
              rw [if_neg (by decide)]; omega
            rw [e]; exact this
          · refine ⟨'-' :: hs ++ ':' :: ms, by simp, ?_⟩
            have := ZoneText.west d1 d2 hb.1 hb.2
            have e : (if '-' = '-' then -1 else 1 : Int) * ((h' * 3600 + m * 60 : Nat) : Int) = -((60 * h' + m) * 60) := by
              rw [if_pos rfl]; omega
            rw [e]; exact this
        · cases h
      · cases h

theorem offset_read {zs : List Char} (rest : List Char) {o : Int} (h : ZoneText o zs) :
    offset (zs ++ rest) = some (o, rest) := by
  cases h with
  | utc hc =>
    rw [List.singleton_append, offset, if_pos (by simpa using hc)]
  | @east h m hs ms d1 d2 b1 b2 =>
    simp only [List.cons_append, List.append_assoc, offset]
    rw [if_neg (by decide), if_pos (by decide)]
    simp only [bind, digits_read _ d1, Option.bind_some, literal_read _ (List.mem_singleton.2 rfl), digits_read _ d2]
    rw [if_pos ⟨b1, b2⟩, if_neg (by decide)]
    simp only [Option.some.injEq, Prod.mk.injEq, and_true]; omega
  | @west h m hs ms d1 d2 b1 b2 =>
    simp only [List.cons_append, List.append_assoc, offset]
    rw [if_neg (by decide), if_pos (by decide)]
    simp only [bind, digits_read _ d1, Option.bind_some, literal_read _ (List.mem_singleton.2 rfl), digits_read _ d2]
    rw [if_pos ⟨b1, b2⟩, if_pos trivial]
    simp only [Option.some.injEq, Prod.mk.injEq, and_true]; omega

theorem ZoneText.head {o : Int} {zs : List Char} (h : ZoneText o zs) : NoDigit zs ∧ zs.head? ≠ some '.' := by
  cases h with
  | @utc c hc =>
    have : ∀ c ∈ ['Z', 'z'], c.isDigit = false ∧ c ≠ '.' := by decide
    obtain ⟨h1, h2⟩ := this c hc
    exact ⟨fun c' e => by cases e; exact h1, fun e => h2 (by cases e; rfl)⟩
  | east => exact ⟨fun c' e => by cases e; decide, fun e => by cases e⟩
  | west => exact ⟨fun c' e => by cases e; decide, fun e => by cases e⟩

/-! ### Ends of months -/

theorem second_eq : second = 10 ^ 9 := rfl
theorem nanosPerDay_eq : nanosPerDay = 86400 * 10 ^ 9 := rfl

theorem Date.of_next (n : Int) : (Date.of n).next = Date.of (n + 1) := by
  obtain ⟨h1, h2⟩ := Date.of_valid n
  have := Date.of_count h1.next
  rw [Date.count_next h1, h2] at this
  exact this.symm

theorem endsMonth_iff {n : Int} : endsMonth n = true ↔ EndsMonth n := by
  have hof : civil (n / nanosPerDay) = ((Date.of (n / nanosPerDay)).year, (Date.of (n / nanosPerDay)).month,
    (Date.of (n / nanosPerDay)).day) := rfl
  have hnext := Date.of_next (n / nanosPerDay)
  obtain ⟨⟨v1, v2, v3, v4⟩, -⟩ := Date.of_valid (n / nanosPerDay)
  unfold endsMonth EndsMonth
  rw [hof]
  have hm := months_get (Date.of (n / nanosPerDay)).year (i := (Date.of (n / nanosPerDay)).month - 1) (by omega)
  rw [Nat.sub_add_cancel v1] at hm
  simp only [hm, Bool.and_eq_true, decide_eq_true_eq, Option.some.injEq]
  have key : (Date.of (n / nanosPerDay + 1)).day = 1 ↔
      monthDays (Date.of (n / nanosPerDay)).year (Date.of (n / nanosPerDay)).month = (Date.of (n / nanosPerDay)).day := by
    rw [← hnext]
    unfold Date.next
    split
    · simp only; omega
    · split <;> exact ⟨fun _ => by omega, fun _ => rfl⟩
  rw [← key]
  constructor
  · rintro ⟨h1, h2⟩
    refine ⟨_, n / nanosPerDay + 1, Date.number_of _, h2, ?_⟩
    rw [nanosPerDay_eq] at *; omega
  · rintro ⟨first, k, h1, h2, h3⟩
    rw [Date.number_civil.1 h1] at h2
    have e : n / nanosPerDay + 1 = k := by rw [nanosPerDay_eq]; omega
    rw [e]
    refine ⟨?_, h2⟩
    rw [nanosPerDay_eq]; omega

/-! ### Texts -/

theorem time_parse_iff {text : String} {t : OffsetDateTime} : parse text = some t ↔ InstantText text t := by
  constructor
  · intro h
    unfold parse at h
    simp only [bind, Option.bind_eq_some_iff] at h
    obtain ⟨⟨y, c0⟩, e0, c1, e1, ⟨m, c2⟩, e2, c3, e3, ⟨d, c4⟩, e4, c5, e5, ⟨h', c6⟩, e6, c7, e7, ⟨mi, c8⟩, e8, c9, e9,
      ⟨s, c10⟩, e10, ⟨N, c11⟩, e11, ⟨o, c12⟩, e12, h⟩ := h
    simp only at e1 e2 e3 e4 e5 e6 e7 e8 e9 e10 e11 e12 h
    obtain ⟨ys, l0, dy⟩ := digits_iff.1 e0
    obtain ⟨_, hl, rfl⟩ := literal_iff.1 e1
    cases List.mem_singleton.1 hl
    obtain ⟨ms, rfl, dm⟩ := digits_iff.1 e2
    obtain ⟨_, hl, rfl⟩ := literal_iff.1 e3
    cases List.mem_singleton.1 hl
    obtain ⟨ds, rfl, dd⟩ := digits_iff.1 e4
    obtain ⟨T, hT, rfl⟩ := literal_iff.1 e5
    obtain ⟨hs, rfl, dh⟩ := digits_iff.1 e6
    obtain ⟨_, hl, rfl⟩ := literal_iff.1 e7
    cases List.mem_singleton.1 hl
    obtain ⟨mis, rfl, dmi⟩ := digits_iff.1 e8
    obtain ⟨_, hl, rfl⟩ := literal_iff.1 e9
    cases List.mem_singleton.1 hl
    obtain ⟨ss, rfl, dss⟩ := digits_iff.1 e10
    obtain ⟨fs, rfl, df⟩ := fraction_parts e11
    obtain ⟨zs, rfl, dz⟩ := offset_parts e12
    split at h
    · cases h
    rename_i hc
    have hc : c12 = [] := Decidable.not_not.1 hc
    subst hc
    obtain ⟨day, hday, hi⟩ := Option.bind_eq_some_iff.1 h
    clear h
    obtain ⟨hv, rfl⟩ := dayNumber_iff.1 hday
    have hnum : Date.Number ⟨y, m, d⟩ _ := Date.number_iff.2 ⟨hv, rfl⟩
    have text : ClockText FractionText ZoneText ['T', 't'] text ⟨y, m, d⟩ h' mi s N o :=
      ⟨ys, ms, ds, T, hs, mis, ss, fs, zs, by simp [l0], ⟨y, rfl, dy⟩, dm, dd, hT, dh, dmi, dss, df, dz⟩
    by_cases h60 : s = 60
    · subst h60
      rw [if_pos rfl] at hi
      obtain ⟨t', ht, hl⟩ := Option.bind_eq_some_iff.1 hi
      split at hl
      · rename_i hm
        cases hl
        unfold instant at ht
        split at ht
        · rename_i hb
          cases ht
          refine ⟨_, _, _, _, _, _, text, hnum, hb.1, hb.2.1, .inr ⟨rfl, ?_, endsMonth_iff.1 hm⟩⟩
          simp only [nanosAt, second_eq]; omega
        · cases ht
      · cases hl
    · rw [if_neg h60] at hi
      unfold instant at hi
      split at hi
      · rename_i hb
        cases hi
        refine ⟨_, _, _, _, _, _, text, hnum, hb.1, hb.2.1, .inl ⟨hb.2.2, ?_⟩⟩
        simp only [nanosAt, second_eq]; omega
      · cases hi
  · rintro ⟨⟨y, m, d⟩, h, mi, s, N, n, ⟨ys, ms, ds, T, hs, mis, ss, fs, zs, l0, ⟨y, rfl, dy⟩, dm, dd, hT, dh, dmi, dss, df, dz⟩,
      hnum, b1, b2, ht⟩
    obtain ⟨hv, rfl⟩ := Date.number_iff.1 hnum
    have hday := dayNumber_iff.2 ⟨hv, rfl⟩
    have hz := offset_read [] dz
    rw [List.append_nil] at hz
    unfold parse
    rw [l0]
    simp only [List.append_assoc, List.cons_append, bind, digits_read _ dy, digits_read _ dm, digits_read _ dd,
      digits_read _ dh, digits_read _ dmi, digits_read _ dss, Option.bind_some, literal_read _ (List.mem_singleton.2 rfl),
      literal_read _ hT, fraction_read df dz.head.1 dz.head.2, hz, hday]
    obtain ⟨e, o⟩ := t
    simp only at ht
    rw [if_neg (by simp)]
    rcases ht with ⟨hs, ht⟩ | ⟨rfl, ht, hm⟩
    · rw [if_neg (by omega), instant, if_pos ⟨b1, b2, hs⟩]
      simp only [Option.some.injEq, OffsetDateTime.mk.injEq, and_true]
      rw [ht]; simp only [nanosAt, second_eq]; omega
    · rw [if_pos rfl, instant, if_pos ⟨b1, b2, by decide⟩]
      have e' : ((Date.mk y m d).count * 86400 + ((h * 3600 + mi * 60 + 59 : Nat) : Int) - o) * (second : Nat) + (999999999 : Nat) = e := by
        rw [ht]; simp only [nanosAt, second_eq]; omega
      rw [e', Option.bind_some, if_pos (endsMonth_iff.2 hm)]

theorem trimmed_spec (k : Nat) {n : Nat} (h0 : n ≠ 0) (h : n < 10 ^ k) :
    ∃ v, DigitsDenote (trimmed k n) v ∧ (trimmed k n).length ≤ k ∧ trimmed k n ≠ [] ∧ (trimmed k n).getLast? ≠ some '0' ∧
      n = v * 10 ^ (k - (trimmed k n).length) := by
  induction k generalizing n with
  | zero => simp at h; exact absurd h h0
  | succ k ih =>
    unfold trimmed
    split
    · rename_i hd
      have hp := pad_digits (k + 1) h
      refine ⟨n, hp.2, Nat.le_of_eq hp.1, fun e => ?_, ?_, ?_⟩
      · rw [e] at hp; cases hp.1
      · rw [pad, List.getLast?_append, List.getLast?_singleton]
        have : ∀ d < 10, d ≠ 0 → digitChar d ≠ '0' := by decide
        simpa using this (n % 10) (by omega) hd
      · rw [hp.1]; simp
    · rename_i hd
      rw [Nat.pow_succ] at h
      obtain ⟨v, i1, i2, i3, i4, i5⟩ := ih (n := n / 10) (by omega) (by omega)
      refine ⟨v, i1, by omega, i3, i4, ?_⟩
      rw [Nat.succ_sub i2, Nat.pow_succ, ← Nat.mul_assoc, ← i5]; omega

theorem trimmed_unique (k : Nat) {v : Nat} {ds : List Char} (hne : ds ≠ []) (hl : ds.length ≤ k)
    (hz : ds.getLast? ≠ some '0') (hd : DigitsDenote ds v) :
    v ≠ 0 ∧ trimmed k (v * 10 ^ (k - ds.length)) = ds := by
  have hv : v % 10 ≠ 0 := by
    cases hd with
    | nil => exact absurd rfl hne
    | @snoc ds n d h _ =>
      intro e
      have : d = 0 := by omega
      subst this
      exact hz (by rw [List.getLast?_append, List.getLast?_singleton]; rfl)
  refine ⟨fun e => hv (by rw [e]), ?_⟩
  obtain ⟨j, rfl⟩ : ∃ j, k = ds.length + j := ⟨k - ds.length, by omega⟩
  rw [Nat.add_sub_cancel_left]
  clear hl
  induction j with
  | zero =>
    cases hk : ds.length with
    | zero => exact absurd (List.length_eq_zero_iff.1 hk) hne
    | succ k =>
      rw [Nat.add_zero, trimmed, if_pos (by simpa using hv)]
      simp only [Nat.pow_zero, Nat.mul_one]
      exact (Digits.unique ⟨hk, hd⟩).symm
  | succ j ih =>
    rw [← Nat.add_assoc, trimmed, Nat.pow_succ, ← Nat.mul_assoc, if_neg (by simp), Nat.mul_div_cancel _ (by decide)]
    exact ih

theorem TidyFraction.text {N : Nat} {fs : List Char} (h : TidyFraction N fs) : FractionText N fs ∧ N < 10 ^ 9 := by
  cases h with
  | none => exact ⟨.none, by decide⟩
  | @some v ds hne hl hz hd =>
    have hlt := denote_lt hd
    have e : 10 ^ 9 = 10 ^ (9 - ds.length) * 10 ^ ds.length := by rw [← Nat.pow_add, Nat.sub_add_cancel hl]
    have := FractionText.some hne hd
    rw [e, ← Nat.mul_assoc, Nat.mul_div_cancel _ (Nat.pow_pos (by decide))] at this
    refine ⟨this, ?_⟩
    rw [e, Nat.mul_comm]
    exact Nat.mul_lt_mul_of_pos_left hlt (Nat.pow_pos (by decide))

theorem TidyFraction.unique {N : Nat} {fs : List Char} (h : TidyFraction N fs) :
    fs = if N = 0 then [] else '.' :: trimmed 9 N := by
  cases h with
  | none => rfl
  | @some v ds hne hl hz hd =>
    obtain ⟨h1, h2⟩ := trimmed_unique 9 hne hl hz hd
    rw [if_neg, h2]
    exact Nat.mul_ne_zero h1 (Nat.pos_iff_ne_zero.1 (Nat.pow_pos (by decide)))

theorem tidyFraction {N : Nat} (h : N < 10 ^ 9) : TidyFraction N (if N = 0 then [] else '.' :: trimmed 9 N) := by
  split
  · rename_i h0; subst h0; exact .none
  · rename_i h0
    obtain ⟨v, i1, i2, i3, i4, i5⟩ := trimmed_spec 9 h0 h
    have := TidyFraction.some i3 i2 i4 i1
    rwa [← i5] at this

theorem tidyZone {m : Int} (h1 : -1440 < m) (h2 : m < 1440) : TidyZone (60 * m) (zone (60 * m)) := by
  unfold zone
  split
  · rename_i h0
    rw [h0]; exact ⟨.utc (by decide), fun _ => rfl⟩
  · rename_i h0
    refine ⟨?_, fun e => absurd e h0⟩
    have d1 := pad_digits 2 (n := (60 * m).natAbs / 3600) (by omega)
    have d2 := pad_digits 2 (n := (60 * m).natAbs / 60 % 60) (by omega)
    split
    · have := ZoneText.west d1 d2 (by omega) (by omega)
      have e : -((60 * (((60 * m).natAbs / 3600 : Nat) : Int) + (((60 * m).natAbs / 60 % 60 : Nat) : Int)) * 60) = 60 * m := by
        omega
      rwa [e] at this
    · have := ZoneText.east d1 d2 (by omega) (by omega)
      have e : (60 * (((60 * m).natAbs / 3600 : Nat) : Int) + (((60 * m).natAbs / 60 % 60 : Nat) : Int)) * 60 = 60 * m := by
        omega
      rwa [e] at this

theorem ZoneText.minutes {o : Int} {zs : List Char} (h : ZoneText o zs) : ∃ m, o = 60 * m ∧ -1440 < m ∧ m < 1440 := by
  cases h with
  | utc => exact ⟨0, rfl, by decide, by decide⟩
  | @east h m _ _ _ _ b1 b2 => exact ⟨60 * h + m, by omega, by omega, by omega⟩
  | @west h m _ _ _ _ b1 b2 => exact ⟨-(60 * h + m), by omega, by omega, by omega⟩

theorem TidyZone.unique {o : Int} {zs : List Char} (h : TidyZone o zs) : zs = zone o := by
  unfold zone
  obtain ⟨h, hz⟩ := h
  split
  · rename_i h0; exact hz h0
  · rename_i h0
    cases h with
    | utc => exact absurd rfl h0
    | @east h m hs ms d1 d2 b1 b2 =>
      rw [if_neg (by omega), d1.unique, d2.unique,
        show ((60 * (h : Int) + m) * 60).natAbs / 3600 = h by omega, show ((60 * (h : Int) + m) * 60).natAbs / 60 % 60 = m by omega]
    | @west h m hs ms d1 d2 b1 b2 =>
      rw [if_pos (by omega), d1.unique, d2.unique,
        show (-((60 * (h : Int) + m) * 60)).natAbs / 3600 = h by omega,
        show (-((60 * (h : Int) + m) * 60)).natAbs / 60 % 60 = m by omega]

/-- The date and the time of day of an instant, at its offset. -/
theorem format_eq (t : OffsetDateTime) {date : Date} {h mi s N : Nat} {n : Int} (hn : Date.Number date n) (b1 : h ≤ 23)
    (b2 : mi ≤ 59) (b3 : s ≤ 59) (b4 : N < 10 ^ 9) (ht : t.epochNanos = nanosAt n h mi s t.offsetSeconds N) :
    format t = if 0 ≤ date.year ∧ date.year ≤ 9999 ∧ t.offsetSeconds % 60 = 0 ∧ t.offsetSeconds.natAbs < 86400 then
      some (String.ofList (pad 4 date.year.toNat ++ '-' :: pad 2 date.month ++ '-' :: pad 2 date.day ++ 'T' :: pad 2 h ++
        ':' :: pad 2 mi ++ ':' :: pad 2 s ++ (if N = 0 then [] else '.' :: trimmed 9 N) ++ zone t.offsetSeconds)) else none := by
  have e1 : (t.epochNanos + t.offsetSeconds * second) / nanosPerDay = n := by
    rw [ht, second_eq, nanosPerDay_eq, nanosAt]; omega
  have e2 : ((t.epochNanos + t.offsetSeconds * second) % nanosPerDay).toNat = (h * 3600 + mi * 60 + s) * 10 ^ 9 + N := by
    rw [ht, second_eq, nanosPerDay_eq, nanosAt]; omega
  have hof : civil n = (date.year, date.month, date.day) := by rw [Date.number_civil.1 hn]; rfl
  unfold format
  simp only [e1, e2, hof]
  rw [second_eq, show ((h * 3600 + mi * 60 + s) * 10 ^ 9 + N) / 10 ^ 9 = h * 3600 + mi * 60 + s by omega,
    show ((h * 3600 + mi * 60 + s) * 10 ^ 9 + N) % 10 ^ 9 = N by omega, show (h * 3600 + mi * 60 + s) / 3600 = h by omega,
    show (h * 3600 + mi * 60 + s) / 60 % 60 = mi by omega, show (h * 3600 + mi * 60 + s) % 60 = s by omega]

theorem instant_parts (t : OffsetDateTime) : ∃ date h mi s, ∃ N : Nat, ∃ n, Date.Number date n ∧ h ≤ 23 ∧ mi ≤ 59 ∧ s ≤ 59 ∧ N < 10 ^ 9 ∧
    t.epochNanos = nanosAt n h mi s t.offsetSeconds N ∧ t.ShowsDate date := by
  let clock := t.epochNanos + t.offsetSeconds * 10 ^ 9
  refine ⟨_, (clock / 10 ^ 9 / 3600 % 24).toNat, (clock / 10 ^ 9 / 60 % 60).toNat, (clock / 10 ^ 9 % 60).toNat,
    (clock % 10 ^ 9).toNat, clock / (86400 * 10 ^ 9), Date.number_of _, ?_, ?_, ?_, ?_, ?_, _, Date.number_of _, ?_⟩
  all_goals simp only [nanosAt, clock]; omega

theorem time_format_iff {t : OffsetDateTime} {text : String} : format t = some text ↔ TidyText text t := by
  constructor
  · intro hf
    obtain ⟨date, h, mi, s, N, n, hn, b1, b2, b3, b4, ht, -⟩ := instant_parts t
    rw [format_eq t hn b1 b2 b3 b4 ht] at hf
    split at hf
    · rename_i hc
      simp only [Option.some.injEq] at hf
      obtain ⟨c1, c2, c3, c4⟩ := hc
      obtain ⟨v1, v2, v3, v4⟩ := (Date.number_iff.1 hn).1
      have := (monthDays_pos date.year date.month).2
      have hz : TidyZone t.offsetSeconds (zone t.offsetSeconds) := by
        have := tidyZone (m := t.offsetSeconds / 60) (by omega) (by omega)
        rwa [show 60 * (t.offsetSeconds / 60) = t.offsetSeconds by omega] at this
      refine ⟨date, h, mi, s, N, n, ⟨_, _, _, _, _, _, _, _, _, by rw [← hf, String.toList_ofList],
        ⟨date.year.toNat, by omega, pad_digits 4 (by omega)⟩, pad_digits 2 (by omega), pad_digits 2 (by omega),
        List.mem_singleton.2 rfl, pad_digits 2 (by omega), pad_digits 2 (by omega), pad_digits 2 (by omega),
        tidyFraction b4, hz⟩, hn, b1, b2, b3, ht⟩
    · cases hf
  · rintro ⟨date, h, mi, s, N, n, ⟨ys, ms, ds, T, hs, mis, ss, fs, zs, l0, ⟨y, hy, dy⟩, dm, dd, hT, dh, dmi, dss, df, dz⟩,
      hn, b1, b2, b3, ht⟩
    obtain ⟨m, hm, m1, m2⟩ := dz.1.minutes
    have := dy.lt
    rw [format_eq t hn b1 b2 b3 df.text.2 ht, if_pos ⟨by omega, by omega, by omega, by omega⟩]
    rw [dy.unique, dm.unique, dd.unique, dh.unique, dmi.unique, dss.unique, df.unique, dz.unique, List.mem_singleton.1 hT] at l0
    rw [Option.some.injEq, ← String.toList_inj, String.toList_ofList, l0, hy, Int.toNat_natCast]

theorem TidyText.instant {t : OffsetDateTime} {text : String} (h : TidyText text t) : InstantText text t := by
  obtain ⟨date, h, mi, s, N, n, ⟨ys, ms, ds, T, hs, mis, ss, fs, zs, l0, dy, dm, dd, hT, dh, dmi, dss, df, dz⟩,
      hn, b1, b2, b3, ht⟩ := h
  exact ⟨date, h, mi, s, N, n, ⟨ys, ms, ds, T, hs, mis, ss, fs, zs, l0, dy, dm, dd, by rw [List.mem_singleton.1 hT]; decide, dh,
    dmi, dss, df.text.1, dz.1⟩, hn, b1, b2, .inl ⟨b3, ht⟩⟩

theorem ShowsDate.of {t : OffsetDateTime} {date : Date} {n : Int} {h mi s N : Nat} (hn : Date.Number date n) (b1 : h ≤ 23)
    (b2 : mi ≤ 59) (b3 : s ≤ 59) (b4 : N < 10 ^ 9) (ht : t.epochNanos = nanosAt n h mi s t.offsetSeconds N) :
    t.ShowsDate date := by
  refine ⟨n, hn, ?_⟩
  rw [ht, nanosAt]; omega

theorem ShowsDate.unique {t : OffsetDateTime} {d d' : Date} (h : t.ShowsDate d) (h' : t.ShowsDate d') : d = d' := by
  obtain ⟨n, h1, h2, h3⟩ := h
  obtain ⟨n', h1', h2', h3'⟩ := h'
  have : n = n' := by omega
  subst this
  rw [Date.number_civil.1 h1, Date.number_civil.1 h1']

theorem format_isSome {t : OffsetDateTime} : (∃ text, format t = some text) ↔ t.Expressible := by
  obtain ⟨date, h, mi, s, N, n, hn, b1, b2, b3, b4, ht, hd⟩ := instant_parts t
  rw [format_eq t hn b1 b2 b3 b4 ht]
  constructor
  · rintro ⟨text, h⟩
    split at h
    · rename_i hc
      obtain ⟨c1, c2, c3, c4⟩ := hc
      exact ⟨⟨date, hd, c1, c2⟩, t.offsetSeconds / 60, by omega, by omega, by omega⟩
    · cases h
  · rintro ⟨⟨date', hd', c1, c2⟩, m, hm, m1, m2⟩
    cases ShowsDate.unique hd hd'
    rw [if_pos ⟨c1, c2, by omega, by omega⟩]
    exact ⟨_, rfl⟩

theorem FractionText.lt {N : Nat} {fs : List Char} (h : FractionText N fs) : N < 10 ^ 9 := by
  cases h with
  | none => decide
  | some _ hd =>
    rw [Nat.div_lt_iff_lt_mul (Nat.pow_pos (by decide)), Nat.mul_comm]
    exact Nat.mul_lt_mul_of_pos_left (denote_lt hd) (by decide)

theorem InstantText.expressible {t : OffsetDateTime} {text : String} (h : InstantText text t) : t.Expressible := by
  obtain ⟨date, h, mi, s, N, n, ⟨ys, ms, ds, T, hs, mis, ss, fs, zs, l0, ⟨y, hy, dy⟩, dm, dd, hT, dh, dmi, dss, df, dz⟩,
      hn, b1, b2, ht⟩ := h
  have hlt := dy.lt
  refine ⟨⟨date, ?_, by omega, by omega⟩, dz.minutes⟩
  rcases ht with ⟨b3, ht⟩ | ⟨-, ht, -⟩
  · exact ShowsDate.of hn b1 b2 b3 df.lt ht
  · refine ShowsDate.of (s := 59) (N := 999999999) hn b1 b2 (by decide) (by decide) ?_
    rw [ht, nanosAt, nanosAt]; omega

end Wot
