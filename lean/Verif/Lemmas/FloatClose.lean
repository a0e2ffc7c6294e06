import Verif.Lemmas.FloatFinite
/-
How far a float is from what is read from its text.
-/
namespace Wot

open FloatText F64

/-! ### Relative errors -/

/-- The two differ by a factor of at most `1 + 2^-53`. -/
def Near (a b : Nat) : Prop := a * 2^53 ≤ b * (2^53 + 1) ∧ b * 2^53 ≤ a * (2^53 + 1)

theorem magUnits_jump (j : Nat) : magUnits j * (2^53 + 1) < magUnits (j + 1) * 2^53 := by
  by_cases h : j < 2^52
  · rw [magUnits_small (by omega), magUnits_small (by omega)]
    omega
  · have he : 0 < j / 2^52 := Nat.div_pos (by omega) (by decide)
    have hf : j % 2^52 < 2^52 := Nat.mod_lt _ (by decide)
    have hm : j / 2^52 * 2^52 + j % 2^52 = j := by have := Nat.div_add_mod j (2^52); rw [Nat.mul_comm]; exact this
    have h1 := magUnits_pattern (f := j % 2^52) he (by omega)
    have h2 := magUnits_pattern (f := j % 2^52 + 1) he (by omega)
    rw [hm] at h1
    rw [← Nat.add_assoc, hm] at h2
    rw [h1, h2, mul_right_swap, mul_right_swap _ _ (2^53)]
    refine Nat.mul_lt_mul_of_pos_right ?_ (Nat.two_pow_pos _)
    omega

theorem step_le {a b c P Q k : Nat} (ih : a * Q^k ≤ b * P^k) (h : b * Q ≤ c * P) : a * Q^(k + 1) ≤ c * P^(k + 1) := by
  rw [Nat.pow_succ, Nat.pow_succ, ← Nat.mul_assoc, ← Nat.mul_assoc]
  refine Nat.le_trans (Nat.mul_le_mul_right _ ih) ?_
  rw [mul_right_swap, mul_right_swap c]
  exact Nat.mul_le_mul_right _ h

theorem step_lt {a b c P Q k : Nat} (hP : 0 < P) (ih : a * Q^k ≤ b * P^k) (h : b * Q < c * P) : a * Q^(k + 1) < c * P^(k + 1) := by
  rw [Nat.pow_succ, Nat.pow_succ, ← Nat.mul_assoc, ← Nat.mul_assoc]
  refine Nat.lt_of_le_of_lt (Nat.mul_le_mul_right _ ih) ?_
  rw [mul_right_swap, mul_right_swap c]
  exact Nat.mul_lt_mul_of_pos_right h (Nat.pow_pos hP)

theorem middle_jump (j : Nat) : (magUnits j + magUnits (j + 1)) * (2^53 + 1) < (magUnits (j + 1) + magUnits (j + 1 + 1)) * 2^53 := by
  have h1 := magUnits_jump j
  have h2 := magUnits_jump (j + 1)
  generalize magUnits (j + 1 + 1) = c at *
  generalize magUnits (j + 1) = b at *
  generalize magUnits j = a at *
  generalize 2^53 + 1 = Q at *
  generalize 2^53 = P at *
  rw [Nat.add_mul, Nat.add_mul]
  omega

/-- Middles between neighbours, `k` steps apart. -/
theorem middles (j : Nat) : ∀ k, (magUnits j + magUnits (j + 1)) * (2^53 + 1)^k ≤ (magUnits (j + k) + magUnits (j + k + 1)) * (2^53)^k := by
  intro k
  induction k with
  | zero => exact Nat.le_refl _
  | succ k ih => exact step_le (P := 2^53) (Q := 2^53 + 1) ih (Nat.le_of_lt (middle_jump (j + k)))

theorem middles_lt (j k : Nat) : (magUnits j + magUnits (j + 1)) * (2^53 + 1)^(k + 1) <
    (magUnits (j + (k + 1)) + magUnits (j + (k + 1) + 1)) * (2^53)^(k + 1) :=
  step_lt (P := 2^53) (Q := 2^53 + 1) (Nat.two_pow_pos _) (middles j k) (middle_jump (j + k))

theorem close_core {a b N N' d d' P Q : Nat} (hd : 0 < d) (hd' : 0 < d') (h1 : 2 * N ≤ a * d) (h2 : b * d' ≤ 2 * N')
    (h3 : N' * d * P ≤ N * d' * Q) (h4 : a * Q < b * P) : False := by
  have e1 : 2 * (N' * d * P) ≤ a * Q * (d * d') :=
    calc 2 * (N' * d * P) ≤ 2 * (N * d' * Q) := Nat.mul_le_mul_left 2 h3
      _ = 2 * N * (d' * Q) := by ac_rfl
      _ ≤ a * d * (d' * Q) := Nat.mul_le_mul_right _ h1
      _ = a * Q * (d * d') := by ac_rfl
  have e2 : b * P * (d * d') ≤ 2 * (N' * d * P) :=
    calc b * P * (d * d') = b * d' * (d * P) := by ac_rfl
      _ ≤ 2 * N' * (d * P) := Nat.mul_le_mul_right _ h2
      _ = 2 * (N' * d * P) := by ac_rfl
  have e3 := Nat.mul_lt_mul_of_pos_right h4 (Nat.mul_pos hd hd')
  omega

/-- Two fractions that differ by a factor of at most `(1 + 2^-53)^k` are rounded to magnitudes at most `k` steps apart. -/
theorem Rounds.le_add {N d m N' d' y k : Nat} (hd : 0 < d) (hd' : 0 < d') (h : Rounds N d m) (h' : Rounds N' d' y)
    (hle : N' * d * (2^53)^(k + 1) ≤ N * d' * (2^53 + 1)^(k + 1)) : y ≤ m + (k + 1) := by
  by_cases hy : y ≤ m + (k + 1)
  · exact hy
  · exfalso
    have h2 : (magUnits (m + (k + 1)) + magUnits (m + (k + 1) + 1)) * d' ≤ 2 * N' := by
      refine Nat.le_trans (Nat.mul_le_mul_right _ ?_) h'.low
      have := magUnits_le_iff.2 (show m + (k + 1) ≤ y - 1 by omega)
      have := magUnits_le_iff.2 (show m + (k + 1) + 1 ≤ y by omega)
      omega
    exact close_core hd hd' h.high h2 hle (middles_lt m k)

theorem low_core {a b d N P : Nat} (hb : b ≤ a) (g : (a - b) * (P + 1) ≤ 2 * a) (low : (b + a) * d ≤ 2 * N) :
    a * d * P ≤ N * (P + 1) := by
  obtain ⟨s, rfl⟩ : ∃ s, a = b + s := ⟨a - b, by omega⟩
  rw [Nat.add_sub_cancel_left, Nat.mul_add, Nat.mul_one] at g
  have k : 2 * ((b + s) * P) ≤ (b + (b + s)) * (P + 1) := by
    simp only [Nat.add_mul, Nat.mul_add, Nat.mul_one]
    omega
  have h1 := Nat.mul_le_mul_right d k
  have h2 := Nat.mul_le_mul_right (P + 1) low
  have e1 : 2 * ((b + s) * P) * d = 2 * ((b + s) * d * P) := by ac_rfl
  have e2 : (b + (b + s)) * (P + 1) * d = (b + (b + s)) * d * (P + 1) := by ac_rfl
  rw [e1, e2] at h1
  rw [Nat.mul_assoc 2] at h2
  omega

theorem high_core {a b d N P : Nat} (hb : a ≤ b) (g : (b - a) * P ≤ 2 * a) (high : 2 * N ≤ (a + b) * d) :
    N * P ≤ a * d * (P + 1) := by
  obtain ⟨s, rfl⟩ : ∃ s, b = a + s := ⟨b - a, by omega⟩
  rw [Nat.add_sub_cancel_left] at g
  have k : (a + (a + s)) * P ≤ 2 * (a * (P + 1)) := by
    simp only [Nat.add_mul, Nat.mul_add, Nat.mul_one]
    omega
  have h1 := Nat.mul_le_mul_right d k
  have h2 := Nat.mul_le_mul_right P high
  have e1 : 2 * (a * (P + 1)) * d = 2 * (a * d * (P + 1)) := by ac_rfl
  have e2 : (a + (a + s)) * P * d = (a + (a + s)) * d * P := by ac_rfl
  rw [e1, e2] at h1
  rw [Nat.mul_assoc 2] at h2
  omega

/-- Rounding to a number above the smallest normal one. -/
theorem near_core {N d y : Nat} (hy : 2^52 < y) (low : (magUnits (y - 1) + magUnits y) * d ≤ 2 * N)
    (high : 2 * N ≤ (magUnits y + magUnits (y + 1)) * d) : Near (magUnits y * d) N := by
  have g1 := magUnits_next (m := y) (by omega)
  have g2 : (magUnits y - magUnits (y - 1)) * (2^53 + 1) ≤ 2 * magUnits y := by
    have he : 0 < (y - 1) / 2^52 := Nat.div_pos (by omega) (by decide)
    have hf : (y - 1) % 2^52 < 2^52 := Nat.mod_lt _ (by decide)
    have hm : (y - 1) / 2^52 * 2^52 + (y - 1) % 2^52 = y - 1 := by
      have := Nat.div_add_mod (y - 1) (2^52); rw [Nat.mul_comm]; exact this
    have h1 := magUnits_pattern (f := (y - 1) % 2^52) he (by omega)
    have h2 := magUnits_pattern (f := (y - 1) % 2^52 + 1) he (by omega)
    rw [hm] at h1
    rw [← Nat.add_assoc, hm, show y - 1 + 1 = y by omega] at h2
    rw [h1, h2, ← Nat.sub_mul, show 2^52 + ((y - 1) % 2^52 + 1) - (2^52 + (y - 1) % 2^52) = 1 by omega, Nat.one_mul,
      Nat.mul_comm (2 ^ _), ← Nat.mul_assoc]
    refine Nat.mul_le_mul_right _ ?_
    omega
  refine ⟨low_core (P := 2^53) (Nat.le_of_lt (magUnits_lt (by omega))) g2 low,
    high_core (P := 2^53) (Nat.le_of_lt (magUnits_succ y)) ?_ high⟩
  generalize magUnits (y + 1) - magUnits y = s at *
  generalize magUnits y = a at *
  rw [show 2^53 = 2^52 * 2 from rfl, ← Nat.mul_assoc]
  rw [Nat.mul_comm]
  exact Nat.mul_le_mul_left 2 g1

/-- Fractions above the smallest normal number are rounded to such numbers. -/
theorem Rounds.above {N d y : Nat} (h : Rounds N d y) (hn : (2^53 + 1) * d < 2 * N) : 2^52 < y := by
  by_cases hy : 2^52 < y
  · exact hy
  · exfalso
    have h1 := h.high
    rw [magUnits_small (by omega), magUnits_small (by omega)] at h1
    have : (y + (y + 1)) * d ≤ (2^53 + 1) * d := Nat.mul_le_mul_right _ (by omega)
    omega

theorem pow10_near {i : Nat} : Near (magUnits (pow10 i)) (10^i * 2^1074) := by
  have hr := roundQ_rounds (10^i * 2^1074) (d := 1) (by decide)
  have := near_core (hr.above ?_) hr.low hr.high
  · rwa [Nat.mul_one] at this
  · have h1 : 1 ≤ 10^i := Nat.pow_pos (by decide)
    have h2 : (2^53 + 1) * 1 < 2 * 2^1074 := by decide +kernel
    have h3 := Nat.mul_le_mul_right (2^1074) h1
    generalize 2^1074 = T at *
    omega

theorem RoundTo.bounds {N m : Nat} (h : RoundTo N m) :
    magUnits (m - 1) + magUnits m ≤ 2 * N ∧ 2 * N ≤ magUnits m + magUnits (m + 1) := by
  obtain ⟨lo, hi, h1, h2, h3, h4, h5, h6, -⟩ := h
  have s1 := magUnits_succ m
  have s2 := magUnits_le_iff.2 (show m - 1 ≤ m by omega)
  rcases h1 with rfl | rfl
  · rcases h4 with rfl | rfl <;> omega
  · rcases h4 with rfl | rfl
    · have := h5 rfl
      omega
    · have := h6 rfl
      rw [Nat.add_sub_cancel] at *
      omega

theorem roundMag_near (n : Nat) : Near (magUnits (roundMag n)) (n * 2^1074) := by
  by_cases h : n < 2^53
  · rw [roundMag_exact h]
    generalize n * 2^1074 = N
    exact ⟨by omega, by omega⟩
  · obtain ⟨b1, b2⟩ := (roundMag_spec n).bounds
    have hy : 2^52 < roundMag n := by
      by_cases hy : 2^52 < roundMag n
      · exact hy
      · exfalso
        rw [magUnits_small (q := roundMag n) (by omega), magUnits_small (q := roundMag n + 1) (by omega)] at b2
        have : n * 1 ≤ n * 2^1074 := Nat.mul_le_mul_left n (Nat.two_pow_pos _)
        omega
    generalize n * 2^1074 = N at *
    have := near_core (d := 1) hy (by rwa [Nat.mul_one]) (by rwa [Nat.mul_one])
    rwa [Nat.mul_one] at this

/-! ### Reading -/

theorem mul_near_core {a b n t p P Q : Nat} (h1 : a * P ≤ n * t * Q) (h2 : b * P ≤ p * t * Q) :
    a * b * P^2 ≤ n * p * t * t * Q^2 := by
  calc a * b * P^2 = a * P * (b * P) := by rw [Nat.pow_two]; ac_rfl
    _ ≤ n * t * Q * (p * t * Q) := Nat.mul_le_mul h1 h2
    _ = n * p * t * t * Q^2 := by rw [Nat.pow_two]; ac_rfl

theorem mul_near_core' {a b n t p P Q : Nat} (h1 : n * t * P ≤ a * Q) (h2 : p * t * P ≤ b * Q) :
    n * p * t * t * P^2 ≤ a * b * Q^2 := by
  calc n * p * t * t * P^2 = n * t * P * (p * t * P) := by rw [Nat.pow_two]; ac_rfl
    _ ≤ a * Q * (b * Q) := Nat.mul_le_mul h1 h2
    _ = a * b * Q^2 := by rw [Nat.pow_two]; ac_rfl

theorem div_near_core {a b n t p P Q : Nat} (h1 : a * P ≤ n * t * Q) (h2 : p * t * P ≤ b * Q) :
    a * t * p * P^2 ≤ n * t * b * Q^2 := by
  calc a * t * p * P^2 = a * P * (p * t * P) := by rw [Nat.pow_two]; ac_rfl
    _ ≤ n * t * Q * (b * Q) := Nat.mul_le_mul h1 h2
    _ = n * t * b * Q^2 := by rw [Nat.pow_two]; ac_rfl

theorem div_near_core' {a b n t p P Q : Nat} (h1 : n * t * P ≤ a * Q) (h2 : b * P ≤ p * t * Q) :
    n * t * b * P^2 ≤ a * t * p * Q^2 := by
  calc n * t * b * P^2 = n * t * P * (b * P) := by rw [Nat.pow_two]; ac_rfl
    _ ≤ a * Q * (p * t * Q) := Nat.mul_le_mul h1 h2
    _ = a * t * p * Q^2 := by rw [Nat.pow_two]; ac_rfl

/-- One multiplication. -/
theorem mul_close {n i m : Nat} (hm : Rounds (n * 10^i * 2^1074) 1 m) :
    roundQ (magUnits (roundMag n) * magUnits (pow10 i)) (2^1074) ≤ m + 2 ∧
    m ≤ roundQ (magUnits (roundMag n) * magUnits (pow10 i)) (2^1074) + 2 := by
  have ht : 0 < 2^1074 := Nat.two_pow_pos _
  have hy := roundQ_rounds (magUnits (roundMag n) * magUnits (pow10 i)) ht
  obtain ⟨a1, a2⟩ := roundMag_near n
  obtain ⟨b1, b2⟩ := pow10_near (i := i)
  generalize magUnits (roundMag n) = a at *
  generalize magUnits (pow10 i) = b at *
  generalize roundQ (a * b) (2^1074) = y at *
  generalize 2^1074 = t at *
  refine ⟨Rounds.le_add (k := 1) (by decide) ht hm hy ?_, Rounds.le_add (k := 1) ht (by decide) hy hm ?_⟩
  · rw [Nat.mul_one]; exact mul_near_core a1 b1
  · rw [Nat.mul_one]; exact mul_near_core' a2 b2

/-- One division. -/
theorem div_close {n i m : Nat} (hm : Rounds (n * 2^1074) (10^i) m) :
    roundQ (magUnits (roundMag n) * 2^1074) (magUnits (pow10 i)) ≤ m + 2 ∧
    m ≤ roundQ (magUnits (roundMag n) * 2^1074) (magUnits (pow10 i)) + 2 := by
  have ht : 0 < 2^1074 := Nat.two_pow_pos _
  obtain ⟨a1, a2⟩ := roundMag_near n
  obtain ⟨b1, b2⟩ := pow10_near (i := i)
  have hp : 0 < 10^i := Nat.pow_pos (by decide)
  have hb : 0 < magUnits (pow10 i) := by
    rcases Nat.eq_zero_or_pos (magUnits (pow10 i)) with h | h
    · exfalso
      rw [h, Nat.zero_mul] at b2
      have := Nat.mul_pos (Nat.mul_pos hp ht) (Nat.two_pow_pos 53)
      exact absurd b2 (Nat.not_le_of_lt this)
    · exact h
  have hy := roundQ_rounds (magUnits (roundMag n) * 2^1074) hb
  generalize magUnits (roundMag n) = a at *
  generalize magUnits (pow10 i) = b at *
  generalize 2^1074 = t at *
  generalize roundQ (a * t) b = y at *
  exact ⟨Rounds.le_add (k := 1) hp hb hm hy (div_near_core a1 b2), Rounds.le_add (k := 1) hb hp hy hm (div_near_core' a2 b1)⟩

theorem two_near_core {a g n t p q J P Q : Nat} (h1 : a * P ≤ n * t * Q) (h2 : p * t * P ≤ q * Q) (h3 : g * q * P ≤ a * t * Q) :
    g * t * (p * J) * P^3 ≤ n * t * (J * t) * Q^3 := by
  calc g * t * (p * J) * P^3 = g * J * P * P * (p * t * P) := by rw [Nat.pow_succ, Nat.pow_two]; ac_rfl
    _ ≤ g * J * P * P * (q * Q) := Nat.mul_le_mul_left _ h2
    _ = J * P * Q * (g * q * P) := by ac_rfl
    _ ≤ J * P * Q * (a * t * Q) := Nat.mul_le_mul_left _ h3
    _ = J * t * Q * Q * (a * P) := by ac_rfl
    _ ≤ J * t * Q * Q * (n * t * Q) := Nat.mul_le_mul_left _ h1
    _ = n * t * (J * t) * Q^3 := by rw [Nat.pow_succ, Nat.pow_two]; ac_rfl

theorem two_near_core' {a g n t p q J P Q : Nat} (h1 : n * t * P ≤ a * Q) (h2 : q * P ≤ p * t * Q) (h3 : a * t * P ≤ g * q * Q) :
    n * t * (J * t) * P^3 ≤ g * t * (p * J) * Q^3 := by
  calc n * t * (J * t) * P^3 = J * t * P * P * (n * t * P) := by rw [Nat.pow_succ, Nat.pow_two]; ac_rfl
    _ ≤ J * t * P * P * (a * Q) := Nat.mul_le_mul_left _ h1
    _ = J * P * Q * (a * t * P) := by ac_rfl
    _ ≤ J * P * Q * (g * q * Q) := Nat.mul_le_mul_left _ h3
    _ = J * g * Q * Q * (q * P) := by ac_rfl
    _ ≤ J * g * Q * Q * (p * t * Q) := Nat.mul_le_mul_left _ h2
    _ = g * t * (p * J) * Q^3 := by rw [Nat.pow_succ, Nat.pow_two]; ac_rfl

/-- The magnitude of `10^308`. -/
def top : Nat := pow10 308

theorem top_facts : 0 < magUnits top ∧ (2^53 + 1) * magUnits top < 2 * (3 * 2^1074 * 2^1074) := by decide +kernel

theorem top_near : Near (magUnits top) (10^308 * 2^1074) := pow10_near

/-- Two divisions. -/
theorem two_close {n j m : Nat} (hn : 3 ≤ n) (hj : j ≤ 22) (hm : Rounds (n * 2^1074) (10^(308 + j)) m) :
    roundQ (magUnits (roundQ (magUnits (roundMag n) * 2^1074) (magUnits top)) * 2^1074) (magUnits (pow10 j)) ≤ m + 3 ∧
    m ≤ roundQ (magUnits (roundQ (magUnits (roundMag n) * 2^1074) (magUnits top)) * 2^1074) (magUnits (pow10 j)) + 3 := by
  have ht : 0 < 2^1074 := Nat.two_pow_pos _
  have hJ : 0 < 10^j := Nat.pow_pos (by decide)
  have hd : 0 < 10^308 * 10^j := Nat.mul_pos (Nat.pow_pos (by decide)) hJ
  obtain ⟨a1, a2⟩ := roundMag_near n
  obtain ⟨b1, b2⟩ := top_near
  obtain ⟨hq, hq'⟩ := top_facts
  have ha : 3 * 2^1074 ≤ magUnits (roundMag n) := by
    by_cases h : n < 2^53
    · rw [roundMag_exact h]
      exact Nat.mul_le_mul_right _ hn
    · have : n * 2^1074 * 2^53 ≤ magUnits (roundMag n) * (2^53 + 1) := a2
      have h6 : 6 ≤ n := Nat.le_trans (by decide : 6 ≤ 2^53) (Nat.le_of_not_lt h)
      have h6 : ∀ t, 6 * t ≤ n * t := fun t => Nat.mul_le_mul_right t h6
      have h6 := h6 (2^1074)
      generalize magUnits (roundMag n) = a at *
      generalize 2^1074 = t at *
      generalize n * t = N at *
      by_cases hle : 3 * t ≤ a
      · exact hle
      · exfalso
        have k1 := Nat.mul_le_mul_right (2^53 + 1) (Nat.le_of_lt (Nat.lt_of_not_le hle))
        have k2 := Nat.mul_le_mul_right (2^53) h6
        have k3 : 3 * t * (2^53 + 1) < 6 * t * 2^53 := by
          rw [mul_right_swap 3, mul_right_swap 6]
          exact Nat.mul_lt_mul_of_pos_right (by decide) ht
        exact absurd (Nat.le_trans (Nat.le_trans k2 this) k1) (Nat.not_le_of_lt k3)
  have hg := roundQ_rounds (magUnits (roundMag n) * 2^1074) hq
  rw [pow10_exact hj]
  rw [Nat.pow_add] at hm
  have hg' := near_core (hg.above (Nat.lt_of_lt_of_le hq' (Nat.mul_le_mul_left 2 (Nat.mul_le_mul_right _ ha)))) hg.low hg.high
  clear hg hq' ha
  generalize roundQ (magUnits (roundMag n) * 2^1074) (magUnits top) = g at *
  generalize magUnits g = g at *
  generalize magUnits (roundMag n) = a at *
  generalize magUnits top = q at *
  generalize 10^308 = p at *
  generalize 10^j = J at *
  generalize 2^1074 = t at *
  obtain ⟨c1, c2⟩ := hg'
  have hd' : 0 < J * t := Nat.mul_pos hJ ht
  have hy := roundQ_rounds (g * t) hd'
  exact ⟨Rounds.le_add (k := 2) hd hd' hm hy (two_near_core a1 b2 c1), Rounds.le_add (k := 2) hd' hd hy hm (two_near_core' a2 b1 c2)⟩

/-- Two divisions, for the smallest significands. -/
theorem two_small {n j : Nat} (hn : n = 1 ∨ n = 2) (hj : j ≤ 22) :
    divMag (divMag (roundMag n) top) (pow10 j) = roundQ (n * 2^1074) (10^(308 + j)) := by
  have : ∀ n ∈ [1, 2], ∀ j : Fin 23, divMag (divMag (roundMag n) top) (pow10 j) =
      roundQ (n * 2^1074) (10^(308 + j.val)) := by decide +kernel
  exact this n (by simpa using hn) ⟨j, by omega⟩

theorem divMag_eq {f b : Nat} (hf : f < infMag) (hb : 2 * 2^1074 ≤ magUnits b) :
    divMag f b = roundQ (magUnits f * 2^1074) (magUnits b) ∧ divMag f b < infMag := by
  have h1 := magUnits_le_iff.1 (divMag_le (a := f) hb)
  have h2 : divMag f b = min (roundQ (magUnits f * 2^1074) (magUnits b)) infMag := rfl
  refine ⟨?_, by omega⟩
  generalize roundQ (magUnits f * 2^1074) (magUnits b) = r at *
  omega

theorem not_infinite {n i m : Nat} (hn : 0 < n) (hi : 309 ≤ i) (hm : Rounds (n * 10^i * 2^1074) 1 m) : infMag ≤ m := by
  by_cases hf : infMag ≤ m
  · exact hf
  · exfalso
    have h1 := hm.high
    have h2 : 10^309 ≤ n * 10^i := Nat.le_trans (Nat.pow_le_pow_right (by decide) hi) (Nat.le_mul_of_pos_left _ hn)
    have h3 := Nat.mul_le_mul_right (2^1074) h2
    have h4 : magUnits infMag < 10^309 * 2^1074 := by decide +kernel
    have h5 := magUnits_le_iff.2 (show m ≤ infMag by omega)
    have h6 := magUnits_le_iff.2 (show m + 1 ≤ infMag by omega)
    rw [Nat.mul_one] at h1
    generalize n * 10^i * 2^1074 = N at *
    generalize 10^309 * 2^1074 = K at *
    omega

/-- The number that is read is at most three steps from the nearest one. -/
theorem fromParts_close {n m fuel : Nat} {e : Int} (hn : n < 2^64) (hpos : 0 < n) (he : -330 ≤ e) (hfuel : e.natAbs ≤ fuel)
    (hm : Rounds (Decimal.mk n e).num (Decimal.mk n e).den m) (hf : m < infMag) :
    (∃ y, fromParts fuel (roundMag n) e = some y ∧ y < infMag ∧ y ≤ m + 3 ∧ m ≤ y + 3) ∨ infMag ≤ m + 2 := by
  have hn1 : (Decimal.mk n e).num = n * 10^e.toNat * 2^1074 := rfl
  have hd1 : (Decimal.mk n e).den = 10^(-e).toNat := rfl
  rw [hn1, hd1] at hm
  have hr := roundMag_lt hn
  by_cases h0 : 0 ≤ e
  · rw [show (-e).toNat = 0 by omega, Nat.pow_zero] at hm
    have hle : e ≤ 308 := by
      by_cases h : e ≤ 308
      · exact h
      · have := not_infinite hpos (by omega) hm
        omega
    obtain ⟨c1, c2⟩ := mul_close hm
    by_cases hi : infMag ≤ m + 2
    · exact .inr hi
    · left
      have hy : mulMag (roundMag n) (pow10 e.natAbs) = roundQ (magUnits (roundMag n) * magUnits (pow10 e.toNat)) (2^1074) := by
        unfold mulMag
        rw [scaled_eq, scaled_eq, show e.natAbs = e.toNat by omega]
        exact Nat.min_eq_left (by omega)
      generalize roundQ (magUnits (roundMag n) * magUnits (pow10 e.toNat)) (2^1074) = y at *
      refine ⟨y, ?_, by omega, by omega, by omega⟩
      unfold fromParts
      rw [if_pos (by omega), if_pos h0, hy, if_neg (by omega)]
  · left
    rw [show e.toNat = 0 by omega, Nat.pow_zero, Nat.mul_one] at hm
    by_cases hle : e.natAbs ≤ 308
    · obtain ⟨c1, c2⟩ := div_close hm
      obtain ⟨hy, hlt⟩ := divMag_eq hr (pow10_ge (i := e.natAbs) (by omega) hle)
      rw [show (-e).toNat = e.natAbs by omega, ← hy] at c1 c2
      refine ⟨divMag (roundMag n) (pow10 e.natAbs), ?_, hlt, by omega, by omega⟩
      unfold fromParts
      rw [if_pos hle, if_neg h0]
    · obtain ⟨j, hj⟩ : ∃ j, (e + 308).natAbs = j := ⟨_, rfl⟩
      obtain ⟨fuel, rfl⟩ : ∃ k, fuel = k + 1 := ⟨fuel - 1, by omega⟩
      obtain ⟨g1, g2⟩ := divMag_eq (b := top) hr (pow10_ge (i := 308) (by decide) (by decide))
      obtain ⟨y1, y2⟩ := divMag_eq (b := pow10 j) g2 (pow10_ge (by omega) (by omega))
      have hz : roundMag n ≠ 0 := by
        intro h
        have := (roundMag_near n).2
        rw [h, magUnits_zero, Nat.zero_mul] at this
        have := Nat.mul_pos (Nat.mul_pos hpos (Nat.two_pow_pos 1074)) (Nat.two_pow_pos 53)
        omega
      have hp : fromParts (fuel + 1) (roundMag n) e = some (divMag (divMag (roundMag n) top) (pow10 j)) := by
        unfold fromParts
        rw [if_neg hle, if_neg hz, if_neg h0]
        dsimp only
        unfold fromParts
        rw [if_pos (by omega), if_neg (by omega), hj]
        rfl
      refine ⟨_, hp, y2, ?_⟩
      rw [show (-e).toNat = 308 + j by omega] at hm
      by_cases h3 : 3 ≤ n
      · rw [y1, g1]
        exact two_close h3 (by omega) hm
      · rw [two_small (by omega) (by omega), (roundQ_iff (Nat.pow_pos (by decide))).2 hm]
        omega

end Wot
