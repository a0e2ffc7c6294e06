import Verif.Lemmas.FloatRead
/-
The shortest decimal numbers of floats, and their texts.
-/
namespace Wot

open FloatText F64

/-- The decimal number `c * 10^k` is rounded to `m`. -/
abbrev RoundsTo (m c : Nat) (k : Int) : Prop := Rounds (Decimal.mk c k).num (Decimal.mk c k).den m

theorem twice_num (c : Nat) (k : Int) : c * 10^k.toNat * 2^1075 = 2 * (Decimal.mk c k).num := by
  have : ∀ a t : Nat, a * (t * 2) = 2 * (a * t) := fun a t => by ac_rfl
  show _ = 2 * (c * 10^k.toNat * 2^1074)
  rw [Nat.pow_succ, this]

theorem within_core {m n d : Nat} :
    (if m % 2 = 0 then decide ((magUnits m + magUnits (m - 1)) * d ≤ 2 * n) && decide (2 * n ≤ (magUnits m + magUnits (m + 1)) * d)
      else decide ((magUnits m + magUnits (m - 1)) * d < 2 * n) && decide (2 * n < (magUnits m + magUnits (m + 1)) * d)) = true ↔
      Rounds n d m := by
  rw [Nat.add_comm (magUnits m) (magUnits (m - 1))]
  split
  · next he =>
    rw [Bool.and_eq_true, decide_eq_true_eq, decide_eq_true_eq]
    exact ⟨fun h => ⟨h.1, h.2, fun ho => by omega⟩, fun h => ⟨h.low, h.high⟩⟩
  · next he =>
    rw [Bool.and_eq_true, decide_eq_true_eq, decide_eq_true_eq]
    exact ⟨fun h => ⟨Nat.le_of_lt h.1, Nat.le_of_lt h.2, fun _ => h⟩, fun h => h.odd (by omega)⟩

theorem roundsTo_iff {m c : Nat} {k : Int} : within m c k = true ↔ RoundsTo m c k := by
  refine Iff.trans ?_ within_core
  unfold within
  simp only [twice_num]
  exact Iff.rfl

/-- Between two numbers rounded to `m` are only such numbers. -/
theorem Rounds.between {n1 d1 n2 d2 n d m : Nat} (hd1 : 0 < d1) (hd2 : 0 < d2) (hd : 0 < d) (h1 : Rounds n1 d1 m)
    (h2 : Rounds n2 d2 m) (hl : n1 * d ≤ n * d1) (hh : n * d2 ≤ n2 * d) : Rounds n d m := by
  have low : ∀ L : Nat, L * d1 ≤ 2 * n1 → L * d ≤ 2 * n := by
    intro L h
    refine Nat.le_of_mul_le_mul_right ?_ hd1
    calc L * d * d1 = L * d1 * d := by ac_rfl
      _ ≤ 2 * n1 * d := Nat.mul_le_mul_right d h
      _ = 2 * (n1 * d) := by ac_rfl
      _ ≤ 2 * (n * d1) := Nat.mul_le_mul_left 2 hl
      _ = 2 * n * d1 := by ac_rfl
  have low' : ∀ L : Nat, L * d1 < 2 * n1 → L * d < 2 * n := by
    intro L h
    refine Nat.lt_of_mul_lt_mul_right (a := d1) ?_
    calc L * d * d1 = L * d1 * d := by ac_rfl
      _ < 2 * n1 * d := Nat.mul_lt_mul_of_pos_right h hd
      _ = 2 * (n1 * d) := by ac_rfl
      _ ≤ 2 * (n * d1) := Nat.mul_le_mul_left 2 hl
      _ = 2 * n * d1 := by ac_rfl
  have high : ∀ L : Nat, 2 * n2 ≤ L * d2 → 2 * n ≤ L * d := by
    intro L h
    refine Nat.le_of_mul_le_mul_right ?_ hd2
    calc 2 * n * d2 = 2 * (n * d2) := by ac_rfl
      _ ≤ 2 * (n2 * d) := Nat.mul_le_mul_left 2 hh
      _ = 2 * n2 * d := by ac_rfl
      _ ≤ L * d2 * d := Nat.mul_le_mul_right d h
      _ = L * d * d2 := by ac_rfl
  have high' : ∀ L : Nat, 2 * n2 < L * d2 → 2 * n < L * d := by
    intro L h
    refine Nat.lt_of_mul_lt_mul_right (a := d2) ?_
    calc 2 * n * d2 = 2 * (n * d2) := by ac_rfl
      _ ≤ 2 * (n2 * d) := Nat.mul_le_mul_left 2 hh
      _ = 2 * n2 * d := by ac_rfl
      _ < L * d2 * d := Nat.mul_lt_mul_of_pos_right h hd
      _ = L * d * d2 := by ac_rfl
  exact ⟨low _ h1.low, high _ h2.high, fun ho => ⟨low' _ (h1.odd ho).1, high' _ (h2.odd ho).2⟩⟩

/-- The number itself is rounded to `m`. -/
theorem Rounds.self (m d : Nat) (hm : 0 < m) (hd : 0 < d) : Rounds (magUnits m * d) d m := by
  have h1 := Nat.mul_lt_mul_of_pos_right (magUnits_lt (show m - 1 < m by omega)) hd
  have h2 := Nat.mul_lt_mul_of_pos_right (magUnits_succ m) hd
  refine ⟨?_, ?_, fun _ => ⟨?_, ?_⟩⟩ <;> rw [Nat.add_mul] <;> omega

theorem mul_right_swap (a b c : Nat) : a * b * c = a * c * b := by ac_rfl

theorem num_mono {c c' : Nat} {k : Int} (h : c ≤ c') : (Decimal.mk c k).num ≤ (Decimal.mk c' k).num :=
  Nat.mul_le_mul_right _ (Nat.mul_le_mul_right _ h)

/-- `candidate` with its numbers as parameters. -/
def candidateOf (m : Nat) (k : Int) (t v : Nat) : Option Nat :=
  if within m (2 * v / t) k then
    if within m (2 * v / t + 1) k = true ∧ ((2 * (2 * v / t) + 1) * t < 4 * v ∨ ((2 * (2 * v / t) + 1) * t = 4 * v ∧ 2 * v / t % 2 = 1))
    then some (2 * v / t + 1) else some (2 * v / t)
  else if within m (2 * v / t + 1) k then some (2 * v / t + 1) else none

section
variable {m : Nat} {k : Int} (hm : 0 < m)
include hm

/-- The multiples of `10^k` below and above a number, in units of half the denominator. -/
theorem candidate_cases : ∃ c0, (Decimal.mk c0 k).num ≤ magUnits m * (Decimal.mk c0 k).den ∧
    magUnits m * (Decimal.mk c0 k).den < (Decimal.mk (c0 + 1) k).num ∧
    (∀ c, RoundsTo m c k → c ≤ c0 → RoundsTo m c0 k) ∧ (∀ c, RoundsTo m c k → c0 < c → RoundsTo m (c0 + 1) k) ∧
    candidate m k = if within m c0 k then
      if within m (c0 + 1) k = true ∧ ((Decimal.mk (2 * c0 + 1) k).num < 2 * (magUnits m * (Decimal.mk c0 k).den) ∨
        ((Decimal.mk (2 * c0 + 1) k).num = 2 * (magUnits m * (Decimal.mk c0 k).den) ∧ c0 % 2 = 1)) then some (c0 + 1) else some c0
    else if within m (c0 + 1) k then some (c0 + 1) else none := by
  have hd : 0 < 10^(-k).toNat := Nat.pow_pos (by decide)
  have ht : 0 < 10^k.toNat * 2^1075 := Nat.mul_pos (Nat.pow_pos (by decide)) (Nat.two_pow_pos _)
  have hnum : ∀ c, c * (10^k.toNat * 2^1075) = 2 * (Decimal.mk c k).num := fun c => by
    rw [← Nat.mul_assoc]; exact twice_num c k
  have hden : ∀ c, (Decimal.mk c k).den = 10^(-k).toNat := fun _ => rfl
  refine ⟨2 * (magUnits m * 10^(-k).toNat) / (10^k.toNat * 2^1075), ?_⟩
  have h1 := Nat.div_mul_le_self (2 * (magUnits m * 10^(-k).toNat)) (10^k.toNat * 2^1075)
  have h2 := Nat.lt_mul_div_succ (2 * (magUnits m * 10^(-k).toNat)) ht
  rw [Nat.mul_comm (10^k.toNat * 2^1075)] at h2
  generalize hq : 2 * (magUnits m * 10^(-k).toNat) / (10^k.toNat * 2^1075) = c0 at *
  rw [hnum] at h1 h2
  have b1 : (Decimal.mk c0 k).num ≤ magUnits m * (Decimal.mk c0 k).den := by rw [hden]; omega
  have b2 : magUnits m * (Decimal.mk c0 k).den < (Decimal.mk (c0 + 1) k).num := by rw [hden]; omega
  refine ⟨b1, b2, fun c h hle => ?_, fun c h hle => ?_, ?_⟩
  · refine Rounds.between hd hd hd h (Rounds.self m _ hm hd) ?_ ?_
    · exact Nat.mul_le_mul_right _ (num_mono hle)
    · exact Nat.mul_le_mul_right _ b1
  · refine Rounds.between hd hd hd (Rounds.self m _ hm hd) h ?_ ?_
    · exact Nat.mul_le_mul_right _ (Nat.le_of_lt b2)
    · exact Nat.mul_le_mul_right _ (num_mono hle)
  · have hu : candidate m k = candidateOf m k (10^k.toNat * 2^1075) (magUnits m * 10^(-k).toNat) := rfl
    rw [hu]
    unfold candidateOf
    simp only [hq, hnum, hden]
    generalize (Decimal.mk (2 * c0 + 1) k).num = N
    generalize magUnits m * 10^(-k).toNat = V
    have e1 : (2 * N < 4 * V) = (N < 2 * V) := by apply propext; omega
    have e2 : (2 * N = 4 * V) = (N = 2 * V) := by apply propext; omega
    simp only [e1, e2]

theorem candidate_some {c : Nat} (h : candidate m k = some c) : RoundsTo m c k := by
  obtain ⟨c0, -, -, -, -, he⟩ := candidate_cases (k := k) hm
  rw [he] at h
  split at h
  · next w =>
    split at h
    · next w' => cases h; exact roundsTo_iff.1 w'.1
    · cases h; exact roundsTo_iff.1 w
  · split at h
    · next w => cases h; exact roundsTo_iff.1 w
    · cases h

theorem candidate_none (h : candidate m k = none) (c : Nat) : ¬ RoundsTo m c k := by
  obtain ⟨c0, -, -, h1, h2, he⟩ := candidate_cases (k := k) hm
  rw [he] at h
  intro hr
  by_cases hle : c ≤ c0
  · have := roundsTo_iff.2 (h1 c hr hle)
    rw [if_pos this] at h
    split at h <;> cases h
  · have := roundsTo_iff.2 (h2 c hr (by omega))
    rw [if_pos this] at h
    split at h
    · split at h <;> cases h
    · cases h

end

section
variable {m : Nat} (hm : 0 < m)
include hm

omit hm in
theorem gap_mk (m c c0 : Nat) (k : Int) : (Decimal.mk c k).gap m =
    (((magUnits m * (Decimal.mk c0 k).den : Nat) : Int) - ((Decimal.mk c k).num : Nat)).natAbs := rfl

omit hm in
theorem num_add (a b : Nat) (k : Int) : (Decimal.mk (a + b) k).num = (Decimal.mk a k).num + (Decimal.mk b k).num := by
  unfold Decimal.num
  rw [← Nat.add_mul, ← Nat.add_mul]

omit hm in
theorem num_zero (k : Int) : (Decimal.mk 0 k).num = 0 := by
  unfold Decimal.num
  rw [Nat.zero_mul, Nat.zero_mul]

/-- Of the multiples of `10^k` that are rounded to `m`, the candidate is the closest. -/
theorem candidate_closest {k : Int} {c c' : Nat} (h : candidate m k = some c) (hr : RoundsTo m c' k) :
    (Decimal.mk c k).gap m ≤ (Decimal.mk c' k).gap m := by
  obtain ⟨c0, b1, b2, h1, h2, he⟩ := candidate_cases (k := k) hm
  have hg := fun c => gap_mk m c c0 k
  have hs : (Decimal.mk (2 * c0 + 1) k).num = (Decimal.mk c0 k).num + (Decimal.mk (c0 + 1) k).num := by
    rw [← num_add, show c0 + (c0 + 1) = 2 * c0 + 1 by omega]
  have hc : c' ≤ c0 ∨ c0 + 1 ≤ c' := by omega
  have m1 : c' ≤ c0 → (Decimal.mk c' k).num ≤ (Decimal.mk c0 k).num := num_mono
  have m2 : c0 + 1 ≤ c' → (Decimal.mk (c0 + 1) k).num ≤ (Decimal.mk c' k).num := num_mono
  rw [he] at h
  rw [hg, hg]
  have no1 : within m c0 k ≠ true → ¬ c' ≤ c0 := fun w hle => w (roundsTo_iff.2 (h1 c' hr hle))
  have no2 : within m (c0 + 1) k ≠ true → ¬ c0 + 1 ≤ c' := fun w hle => w (roundsTo_iff.2 (h2 c' hr hle))
  rw [hs] at h
  generalize magUnits m * (Decimal.mk c0 k).den = V at *
  generalize hN : (Decimal.mk c' k).num = N at *
  split at h
  · split at h
    · next w w' =>
      have e := Option.some.inj h; subst e
      generalize (Decimal.mk (c0 + 1) k).num = B at *
      generalize (Decimal.mk c0 k).num = A at *
      rcases hc with hc | hc
      · have := m1 hc; omega
      · have := m2 hc; omega
    · next w w' =>
      have e := Option.some.inj h; subst e
      by_cases ww : within m (c0 + 1) k = true
      · have : ¬ ((Decimal.mk c0 k).num + (Decimal.mk (c0 + 1) k).num < 2 * V) := fun h => w' ⟨ww, .inl h⟩
        generalize (Decimal.mk (c0 + 1) k).num = B at *
        generalize (Decimal.mk c0 k).num = A at *
        rcases hc with hc | hc
        · have := m1 hc; omega
        · have := m2 hc; omega
      · have := m1 (by have := no2 ww; omega)
        generalize (Decimal.mk c0 k).num = A at *
        omega
  · next w =>
    have := m2 (by have := no1 w; omega)
    split at h
    · have e := Option.some.inj h; subst e
      generalize (Decimal.mk (c0 + 1) k).num = B at *
      omega
    · cases h

theorem shortest_spec : ∀ (fuel : Nat) (k0 : Int), (∃ c, RoundsTo m c (k0 - fuel)) →
    candidate m (shortest m fuel k0).2 = some (shortest m fuel k0).1 ∧
      (k0 - fuel ≤ (shortest m fuel k0).2 ∧ (shortest m fuel k0).2 ≤ k0) ∧
      ∀ k', (shortest m fuel k0).2 < k' → k' ≤ k0 → ∀ c, ¬ RoundsTo m c k' := by
  intro fuel
  induction fuel with
  | zero =>
    rintro k0 ⟨c, hc⟩
    rw [show k0 - ((0 : Nat) : Int) = k0 by omega] at hc
    cases h : candidate m k0 with
    | none => exact absurd hc (candidate_none hm h c)
    | some c' =>
      have : shortest m 0 k0 = (c', k0) := by unfold shortest; rw [h]; rfl
      rw [this]
      exact ⟨h, ⟨by dsimp only; omega, Int.le_refl _⟩, fun k' h1 h2 => by dsimp only at h1; omega⟩
  | succ n ih =>
    rintro k0 hc
    cases h : candidate m k0 with
    | some c' =>
      have : shortest m (n + 1) k0 = (c', k0) := by unfold shortest; rw [h]
      rw [this]
      exact ⟨h, ⟨by dsimp only; omega, Int.le_refl _⟩, fun k' h1 h2 => by dsimp only at h1; omega⟩
    | none =>
      have : shortest m (n + 1) k0 = shortest m n (k0 - 1) := by rw [shortest]; rw [h]
      rw [this]
      obtain ⟨h1, h2, h3⟩ := ih (k0 - 1) (by rwa [show k0 - 1 - (n : Int) = k0 - ((n + 1 : Nat) : Int) by omega])
      refine ⟨h1, ⟨by omega, by omega⟩, fun k' a b => ?_⟩
      by_cases e : k' = k0
      · rw [e]; exact candidate_none hm h
      · exact h3 k' a (by omega)

theorem exists_multiple : ∃ c, RoundsTo m c (310 - (640 : Nat)) := by
  obtain ⟨c0, b1, b2, -, -, -⟩ := candidate_cases (m := m) (k := 310 - (640 : Nat)) hm
  refine ⟨c0, ?_⟩
  have hd : ∀ c, (Decimal.mk c (310 - (640 : Nat))).den = 10^330 := fun _ => rfl
  have hn : (Decimal.mk (c0 + 1) (310 - (640 : Nat))).num = (Decimal.mk c0 (310 - (640 : Nat))).num + 2^1074 := by
    show (c0 + 1) * 1 * 2^1074 = c0 * 1 * 2^1074 + 2^1074
    rw [Nat.mul_one, Nat.mul_one, Nat.add_mul, Nat.one_mul]
  have hlt : 2 * 2^1074 < 10^330 := by decide +kernel
  have s1 := Nat.mul_le_mul_right (10^330) (magUnits_lt (show m - 1 < m by omega))
  have s2 := Nat.mul_lt_mul_of_pos_right (magUnits_succ m) (Nat.pow_pos (by decide) : 0 < 10^330)
  rw [Nat.succ_eq_add_one, Nat.add_mul, Nat.one_mul] at s1
  have := num_mono (k := 310 - (640 : Nat)) (Nat.zero_le c0)
  unfold RoundsTo
  rw [hn] at b2
  rw [hd] at *
  generalize (Decimal.mk c0 (310 - (640 : Nat))).num = N at *
  generalize 10^330 = E at *
  generalize 2^1074 = T at *
  refine ⟨?_, ?_, fun _ => ⟨?_, ?_⟩⟩ <;> rw [Nat.add_mul] <;> omega

/-- No multiple of a large power of ten is rounded to a finite number other than zero. -/
theorem no_large (hf : m < infMag) {k : Int} (hk : 310 < k) (c : Nat) : ¬ RoundsTo m c k := by
  intro h
  have h1 := h.low
  have h2 := h.high
  have hd : (Decimal.mk c k).den = 1 := by
    show 10^(-k).toNat = 1
    rw [show (-k).toNat = 0 by omega]
  rw [hd, Nat.mul_one] at h1 h2
  have hc : c ≠ 0 := by
    rintro rfl
    have := num_zero k
    have := magUnits_lt hm
    omega
  have h3 : 10^311 * 2^1074 ≤ (Decimal.mk c k).num := by
    show _ ≤ c * 10^k.toNat * 2^1074
    refine Nat.mul_le_mul_right _ ?_
    exact Nat.le_trans (Nat.pow_le_pow_right (by decide) (by omega)) (Nat.le_mul_of_pos_left _ (by omega))
  have h4 : magUnits infMag < 10^311 * 2^1074 := by decide +kernel
  have h5 := magUnits_le_iff.2 (show m ≤ infMag by omega)
  have h6 := magUnits_le_iff.2 (show m + 1 ≤ infMag by omega)
  omega

theorem shortest_range : -330 ≤ (shortest m 640 310).2 ∧ (shortest m 640 310).2 ≤ 310 :=
  (shortest_spec hm 640 310 (exists_multiple hm)).2.1

/-- The decimal number of a float. -/
theorem shortest_facts (hf : m < infMag) {c : Nat} {k : Int} (h : shortest m 640 310 = (c, k)) :
    RoundsTo m c k ∧ 0 < c ∧ (∀ c', RoundsTo m c' k → (Decimal.mk c k).gap m ≤ (Decimal.mk c' k).gap m) ∧
      ∀ k', k < k' → ∀ c', ¬ RoundsTo m c' k' := by
  obtain ⟨h1, h2, h3⟩ := shortest_spec hm 640 310 (exists_multiple hm)
  rw [h] at h1 h2 h3
  dsimp only at h1 h2 h3
  have hr := candidate_some hm h1
  refine ⟨hr, ?_, fun c' => candidate_closest hm h1, fun k' hk c' => ?_⟩
  · rcases Nat.eq_zero_or_pos c with rfl | hc
    · have := hr.low
      have hz := num_zero k
      have h4 := Nat.mul_le_mul (magUnits_lt hm) (Decimal.mk 0 k).den_pos
      rw [hz, Nat.add_mul] at this
      simp only [Nat.succ_eq_add_one] at h4
      omega
    · exact hc
  · by_cases hle : k' ≤ 310
    · exact h3 k' hk hle c'
    · exact no_large hm hf (by omega) c'

end

end Wot
