import Verif.Lemmas.FloatExtreme
import Verif.Lemmas.Time
/-
Texts with any number of digits: what lies beyond 64 bits is left out, which hardly changes the number.
-/
namespace Wot

open FloatText F64

/-! ### Fractions that differ by a factor -/

/-- The fractions `N / d` and `N' / d'` differ by a factor of at most `(1 + 2^-53)^k`. -/
def Rel (k N d N' d' : Nat) : Prop :=
  N' * d * (2^53)^k ≤ N * d' * (2^53 + 1)^k ∧ N * d' * (2^53)^k ≤ N' * d * (2^53 + 1)^k

theorem rel_core {N d N1 d1 N2 d2 P1 Q1 P2 Q2 : Nat} (hd : 0 < d1) (h : N1 * d * P1 ≤ N * d1 * Q1) (h' : N2 * d1 * P2 ≤ N1 * d2 * Q2) :
    N2 * d * (P1 * P2) ≤ N * d2 * (Q1 * Q2) := by
  refine Nat.le_of_mul_le_mul_right ?_ hd
  calc N2 * d * (P1 * P2) * d1 = N2 * d1 * P2 * (d * P1) := by ac_rfl
    _ ≤ N1 * d2 * Q2 * (d * P1) := Nat.mul_le_mul_right _ h'
    _ = N1 * d * P1 * (d2 * Q2) := by ac_rfl
    _ ≤ N * d1 * Q1 * (d2 * Q2) := Nat.mul_le_mul_right _ h
    _ = N * d2 * (Q1 * Q2) * d1 := by ac_rfl

theorem Rel.trans {k l N d N1 d1 N2 d2 : Nat} (hd : 0 < d1) (h : Rel k N d N1 d1) (h' : Rel l N1 d1 N2 d2) :
    Rel (k + l) N d N2 d2 := by
  unfold Rel
  rw [Nat.pow_add, Nat.pow_add]
  refine ⟨rel_core hd h.1 h'.1, ?_⟩
  rw [Nat.mul_comm ((2^53)^k), Nat.mul_comm ((2^53 + 1)^k)]
  exact rel_core hd h'.2 h.2

theorem Rel.symm {k N d N' d' : Nat} (h : Rel k N d N' d') : Rel k N' d' N d := ⟨h.2, h.1⟩

theorem Rel.close {k N d N' d' m y : Nat} (hd : 0 < d) (hd' : 0 < d') (h : Rel (k + 1) N d N' d') (hm : Rounds N d m)
    (hy : Rounds N' d' y) : y ≤ m + (k + 1) ∧ m ≤ y + (k + 1) :=
  ⟨Rounds.le_add hd hd' hm hy h.1, Rounds.le_add hd' hd hy hm h.2⟩

theorem few_core {a b P Q K : Nat} (ha : a ≤ K) (hb : a + 2 ≤ b) (hPQ : P ≤ Q) (hk : K * (Q - P) < 2 * P) : a * Q < b * P := by
  have h1 := Nat.mul_le_mul_right (Q - P) ha
  have h2 := Nat.mul_le_mul_right P hb
  have h3 : a * Q = a * P + a * (Q - P) := by rw [← Nat.mul_add, Nat.add_sub_cancel' hPQ]
  rw [Nat.add_mul] at h2
  omega

theorem few_one {N d N' d' m y : Nat} (hd : 0 < d) (hd' : 0 < d') (h : N' * d * (2^53)^5 ≤ N * d' * (2^53 + 1)^5) (hm : Rounds N d m)
    (hy : Rounds N' d' y) (hs : m ≤ 2^46) : y ≤ m + 1 := by
  by_cases hle : y ≤ m + 1
  · exact hle
  · exfalso
    have h1 := hm.high
    have h2 := hy.low
    rw [magUnits_small (q := m) (by omega), magUnits_small (q := m + 1) (by omega)] at h1
    have k1 := magUnits_le_iff.2 (show m + 1 ≤ y - 1 by omega)
    have k2 := magUnits_le_iff.2 (show m + 2 ≤ y by omega)
    rw [magUnits_small (q := m + 1) (by omega)] at k1
    rw [magUnits_small (q := m + 2) (by omega)] at k2
    refine close_core hd hd' h1 h2 h ?_
    exact few_core (K := 2^48) (by omega) (by omega) (by decide) (by decide)

/-- Small numbers are hardly moved. -/
theorem Rel.few {N d N' d' m y : Nat} (hd : 0 < d) (hd' : 0 < d') (h : Rel 5 N d N' d') (hm : Rounds N d m) (hy : Rounds N' d' y)
    (hs : m ≤ 2^46) : y ≤ m + 1 ∧ m ≤ y + 1 := by
  have h1 := few_one hd hd' h.1 hm hy hs
  refine ⟨h1, ?_⟩
  by_cases hle : m ≤ y + 1
  · exact hle
  · exact absurd (few_one hd' hd h.2 hy hm (by omega)) hle

/-! ### What is left out -/

/-- The fraction is `n * 10^e`, or hardly differs from it and has many digits. -/
structure Cut (n : Nat) (e : Int) (N d : Nat) : Prop where
  pos : 0 < d
  exact_or : (N * (Decimal.mk n e).den = (Decimal.mk n e).num * d) ∨ (2^60 ≤ n ∧
    (Decimal.mk n e).num * d * 2^60 ≤ N * (Decimal.mk n e).den * (2^60 + 1) ∧
    N * (Decimal.mk n e).den * 2^60 ≤ (Decimal.mk n e).num * d * (2^60 + 1))

theorem sixty_core {X Y P c : Nat} (hc : 0 < c) (h : X * (P * c) ≤ Y * (P * c + 1)) : X * P ≤ Y * (P + 1) := by
  refine Nat.le_of_mul_le_mul_right ?_ hc
  calc X * P * c = X * (P * c) := by ac_rfl
    _ ≤ Y * (P * c + 1) := h
    _ ≤ Y * ((P + 1) * c) := Nat.mul_le_mul_left _ (by rw [Nat.add_mul]; omega)
    _ = Y * (P + 1) * c := by ac_rfl

theorem sixty {X Y : Nat} (h : X * 2^60 ≤ Y * (2^60 + 1)) : X * 2^53 ≤ Y * (2^53 + 1) :=
  sixty_core (c := 128) (by decide) h

theorem Cut.rel {n N d : Nat} {e : Int} (h : Cut n e N d) : Rel 1 N d (Decimal.mk n e).num (Decimal.mk n e).den := by
  unfold Rel
  rw [Nat.pow_one, Nat.pow_one]
  rcases h.exact_or with h | ⟨-, h1, h2⟩
  · rw [h]
    generalize (Decimal.mk n e).num * d = X
    omega
  · exact ⟨sixty h1, sixty h2⟩

theorem sixty_two {X Y : Nat} (h : X * 2^60 ≤ Y * (2^60 + 1)) : X ≤ 2 * Y := by omega

/-- Up to a factor of two. -/
theorem Cut.two {n N d : Nat} {e : Int} (h : Cut n e N d) : (Decimal.mk n e).num * d ≤ 2 * (N * (Decimal.mk n e).den) ∧
    N * (Decimal.mk n e).den ≤ 2 * ((Decimal.mk n e).num * d) := by
  rcases h.exact_or with h | ⟨-, h1, h2⟩
  · rw [h]; omega
  · exact ⟨sixty_two h1, sixty_two h2⟩

/-! ### Reading what is left -/

theorem rounds_cross_core {a N d N' d' : Nat} (hd : 0 < d) (h : N * d' = N' * d) (h1 : a * d ≤ 2 * N) : a * d' ≤ 2 * N' := by
  refine Nat.le_of_mul_le_mul_right ?_ hd
  calc a * d' * d = a * d * d' := by ac_rfl
    _ ≤ 2 * N * d' := Nat.mul_le_mul_right _ h1
    _ = 2 * (N * d') := by ac_rfl
    _ = 2 * (N' * d) := by rw [h]
    _ = 2 * N' * d := by ac_rfl

theorem rounds_cross_core' {a N d N' d' : Nat} (hd : 0 < d) (h : N * d' = N' * d) (h1 : 2 * N ≤ a * d) : 2 * N' ≤ a * d' := by
  refine Nat.le_of_mul_le_mul_right ?_ hd
  calc 2 * N' * d = 2 * (N' * d) := by ac_rfl
    _ = 2 * (N * d') := by rw [h]
    _ = 2 * N * d' := by ac_rfl
    _ ≤ a * d * d' := Nat.mul_le_mul_right _ h1
    _ = a * d' * d := by ac_rfl

theorem rounds_cross_lt {a N d N' d' : Nat} (hd' : 0 < d') (h : N * d' = N' * d) (h1 : a * d < 2 * N) : a * d' < 2 * N' := by
  by_cases hle : 2 * N' ≤ a * d'
  · exact absurd (rounds_cross_core' hd' h.symm hle) (by omega)
  · omega

theorem rounds_cross_lt' {a N d N' d' : Nat} (hd' : 0 < d') (h : N * d' = N' * d) (h1 : 2 * N < a * d) : 2 * N' < a * d' := by
  by_cases hle : a * d' ≤ 2 * N'
  · exact absurd (rounds_cross_core hd' h.symm hle) (by omega)
  · omega

/-- Equal fractions are rounded to the same number. -/
theorem Rounds.cross {N d N' d' m : Nat} (hd : 0 < d) (hd' : 0 < d') (h : N * d' = N' * d) (hr : Rounds N d m) : Rounds N' d' m :=
  ⟨rounds_cross_core hd h hr.low, rounds_cross_core' hd h hr.high,
    fun ho => ⟨rounds_cross_lt hd' h (hr.odd ho).1, rounds_cross_lt' hd' h (hr.odd ho).2⟩⟩

theorem top_div_near {n : Nat} (hn : 3 ≤ n) :
    Near (magUnits (roundQ (magUnits (roundMag n) * 2^1074) (magUnits top)) * magUnits top) (magUnits (roundMag n) * 2^1074) := by
  have ht : 0 < 2^1074 := Nat.two_pow_pos _
  obtain ⟨a1, a2⟩ := roundMag_near n
  obtain ⟨hq, hq'⟩ := top_facts
  have ha : 3 * 2^1074 ≤ magUnits (roundMag n) := by
    by_cases h : n < 2^53
    · rw [roundMag_exact h]
      exact Nat.mul_le_mul_right _ hn
    · have : n * 2^1074 * 2^53 ≤ magUnits (roundMag n) * (2^53 + 1) := a2
      have h6 : 6 ≤ n := Nat.le_trans (by decide : 6 ≤ 2^53) (Nat.le_of_not_lt h)
      have h6 : ∀ t, 6 * t ≤ n * t := fun t => Nat.mul_le_mul_right t h6
      have h6 := h6 (2^1074)
      generalize magUnits (roundMag n) = a at *
      generalize 2^1074 = t at *
      generalize n * t = N at *
      by_cases hle : 3 * t ≤ a
      · exact hle
      · exfalso
        have k1 := Nat.mul_le_mul_right (2^53 + 1) (Nat.le_of_lt (Nat.lt_of_not_le hle))
        have k2 := Nat.mul_le_mul_right (2^53) h6
        have k3 : 3 * t * (2^53 + 1) < 6 * t * 2^53 := by
          rw [mul_right_swap 3, mul_right_swap 6]
          exact Nat.mul_lt_mul_of_pos_right (by decide) ht
        exact absurd (Nat.le_trans (Nat.le_trans k2 this) k1) (Nat.not_le_of_lt k3)
  have hg := roundQ_rounds (magUnits (roundMag n) * 2^1074) hq
  exact near_core (hg.above (Nat.lt_of_lt_of_le hq' (Nat.mul_le_mul_left 2 (Nat.mul_le_mul_right _ ha)))) hg.low hg.high

/-- The first of two divisions. -/
theorem two_rel {n J : Nat} (hn : 3 ≤ n) : Rel 3 (n * 2^1074) (10^308 * J)
    (magUnits (roundQ (magUnits (roundMag n) * 2^1074) (magUnits top)) * 2^1074) (J * 2^1074) := by
  obtain ⟨a1, a2⟩ := roundMag_near n
  obtain ⟨b1, b2⟩ := top_near
  obtain ⟨c1, c2⟩ := top_div_near hn
  generalize magUnits (roundQ (magUnits (roundMag n) * 2^1074) (magUnits top)) = g at *
  generalize magUnits (roundMag n) = a at *
  generalize magUnits top = q at *
  generalize 10^308 = p at *
  generalize 2^1074 = t at *
  exact ⟨two_near_core a1 b2 c1, two_near_core' a2 b1 c2⟩

theorem top_nearer : magUnits top * 2^53 * (2^60 + 1) ≤ 10^308 * 2^1074 * (2^53 + 1) * 2^60 ∧
    10^308 * 2^1074 * 2^53 * (2^60 + 1) ≤ magUnits top * (2^53 + 1) * 2^60 := by decide +kernel

theorem slack_core {a g n t p q J P Q S N d : Nat} (hp : 0 < p) (hJ : 0 < J) (h1 : a * P ≤ n * t * Q)
    (h2 : p * t * P * (S + 1) ≤ q * Q * S) (h3 : g * q * P ≤ a * t * Q) (h4 : n * t * d * S ≤ N * (p * J) * (S + 1)) :
    g * t * d * P^3 ≤ N * (J * t) * Q^3 := by
  refine Nat.le_of_mul_le_mul_right ?_ (Nat.mul_pos (Nat.mul_pos hp hJ) (Nat.succ_pos S))
  calc g * t * d * P^3 * (p * J * (S + 1)) = g * d * J * P * P * (p * t * P * (S + 1)) := by rw [Nat.pow_succ, Nat.pow_two]; ac_rfl
    _ ≤ g * d * J * P * P * (q * Q * S) := Nat.mul_le_mul_left _ h2
    _ = J * d * P * Q * S * (g * q * P) := by ac_rfl
    _ ≤ J * d * P * Q * S * (a * t * Q) := Nat.mul_le_mul_left _ h3
    _ = J * d * t * Q * Q * S * (a * P) := by ac_rfl
    _ ≤ J * d * t * Q * Q * S * (n * t * Q) := Nat.mul_le_mul_left _ h1
    _ = J * t * (Q * Q * Q) * (n * t * d * S) := by ac_rfl
    _ ≤ J * t * (Q * Q * Q) * (N * (p * J) * (S + 1)) := Nat.mul_le_mul_left _ h4
    _ = N * (J * t) * Q^3 * (p * J * (S + 1)) := by rw [Nat.pow_succ, Nat.pow_two]; ac_rfl

theorem slack_core' {a g n t p q J P Q S N d : Nat} (hp : 0 < p) (hJ : 0 < J) (h1 : n * t * P ≤ a * Q)
    (h2 : q * P * (S + 1) ≤ p * t * Q * S) (h3 : a * t * P ≤ g * q * Q) (h4 : N * (p * J) * S ≤ n * t * d * (S + 1)) (hS : 0 < S) :
    N * (J * t) * P^3 ≤ g * t * d * Q^3 := by
  refine Nat.le_of_mul_le_mul_right ?_ (Nat.mul_pos (Nat.mul_pos hp hJ) hS)
  calc N * (J * t) * P^3 * (p * J * S) = J * t * (P * P * P) * (N * (p * J) * S) := by rw [Nat.pow_succ, Nat.pow_two]; ac_rfl
    _ ≤ J * t * (P * P * P) * (n * t * d * (S + 1)) := Nat.mul_le_mul_left _ h4
    _ = J * d * t * P * P * (S + 1) * (n * t * P) := by ac_rfl
    _ ≤ J * d * t * P * P * (S + 1) * (a * Q) := Nat.mul_le_mul_left _ h1
    _ = J * d * P * Q * (S + 1) * (a * t * P) := by ac_rfl
    _ ≤ J * d * P * Q * (S + 1) * (g * q * Q) := Nat.mul_le_mul_left _ h3
    _ = g * d * J * Q * Q * (q * P * (S + 1)) := by ac_rfl
    _ ≤ g * d * J * Q * Q * (p * t * Q * S) := Nat.mul_le_mul_left _ h2
    _ = g * t * d * Q^3 * (p * J * S) := by rw [Nat.pow_succ, Nat.pow_two]; ac_rfl

theorem bound_core {u d N D M : Nat} (hd : 0 < d) (h1 : u * d ≤ 2 * N) (h2 : N * D ≤ 2 * (M * d)) : u * D ≤ 4 * M := by
  refine Nat.le_of_mul_le_mul_right ?_ hd
  calc u * D * d = u * d * D := by ac_rfl
    _ ≤ 2 * N * D := Nat.mul_le_mul_right _ h1
    _ = 2 * (N * D) := by ac_rfl
    _ ≤ 2 * (2 * (M * d)) := Nat.mul_le_mul_left _ h2
    _ = 4 * M * d := by rw [Nat.mul_assoc 4]; omega

theorem Cut.bound {n N d m : Nat} {e : Int} (h : Cut n e N d) (hm : Rounds N d m) :
    magUnits m * (Decimal.mk n e).den ≤ 4 * (Decimal.mk n e).num :=
  bound_core h.pos (Nat.le_trans (Nat.mul_le_mul_right _ (Nat.le_add_left _ _)) hm.low) h.two.2

theorem den_pos (D : Decimal) : 0 < D.den := Nat.pow_pos (by decide)

theorem roundMag_ne_zero {n : Nat} (hpos : 0 < n) : roundMag n ≠ 0 := by
  intro h
  have := (roundMag_near n).2
  rw [h, magUnits_zero, Nat.zero_mul] at this
  have := Nat.mul_pos (Nat.mul_pos hpos (Nat.two_pow_pos 1074)) (Nat.two_pow_pos 53)
  omega

theorem mul_rel (n i : Nat) : Rel 2 (n * 10^i * 2^1074) 1 (magUnits (roundMag n) * magUnits (pow10 i)) (2^1074) := by
  obtain ⟨a1, a2⟩ := roundMag_near n
  obtain ⟨b1, b2⟩ := pow10_near (i := i)
  generalize magUnits (roundMag n) = a at *
  generalize magUnits (pow10 i) = b at *
  generalize 2^1074 = t at *
  unfold Rel
  rw [Nat.mul_one]
  exact ⟨mul_near_core a1 b1, mul_near_core' a2 b2⟩

theorem div_rel (n i : Nat) : Rel 2 (n * 2^1074) (10^i) (magUnits (roundMag n) * 2^1074) (magUnits (pow10 i)) := by
  obtain ⟨a1, a2⟩ := roundMag_near n
  obtain ⟨b1, b2⟩ := pow10_near (i := i)
  generalize magUnits (roundMag n) = a at *
  generalize magUnits (pow10 i) = b at *
  generalize 2^1074 = t at *
  exact ⟨div_near_core a1 b2, div_near_core' a2 b1⟩

theorem den_rel_core {g A B P Q : Nat} (h : A * P ≤ B * Q) : g * A * P ≤ g * B * Q := by
  rw [Nat.mul_assoc, Nat.mul_assoc]
  exact Nat.mul_le_mul_left _ h

/-- The power of ten of the second division. -/
theorem den_rel (g j : Nat) : Rel 1 g (10^j * 2^1074) g (magUnits (pow10 j)) := by
  obtain ⟨b1, b2⟩ := pow10_near (i := j)
  unfold Rel
  rw [Nat.pow_one, Nat.pow_one]
  exact ⟨den_rel_core b2, den_rel_core b1⟩

/-- Two divisions of what is left of many digits. -/
theorem Cut.slack {n N d j : Nat} (hn : 2^60 ≤ n) (hd : n * 2^1074 * d * 2^60 ≤ N * (10^308 * 10^j) * (2^60 + 1))
    (hd' : N * (10^308 * 10^j) * 2^60 ≤ n * 2^1074 * d * (2^60 + 1)) :
    Rel 3 N d (magUnits (roundQ (magUnits (roundMag n) * 2^1074) (magUnits top)) * 2^1074) (10^j * 2^1074) := by
  obtain ⟨a1, a2⟩ := roundMag_near n
  obtain ⟨b1, b2⟩ := top_nearer
  obtain ⟨c1, c2⟩ := top_div_near (Nat.le_trans (by decide : 3 ≤ 2^60) hn)
  have hp : 0 < 10^308 := Nat.pow_pos (by decide)
  have hJ : 0 < 10^j := Nat.pow_pos (by decide)
  generalize magUnits (roundQ (magUnits (roundMag n) * 2^1074) (magUnits top)) = g at *
  generalize magUnits (roundMag n) = a at *
  generalize magUnits top = q at *
  generalize 10^308 = p at *
  generalize 10^j = J at *
  generalize 2^1074 = t at *
  exact ⟨slack_core hp hJ a1 b2 c1 hd, slack_core' hp hJ a2 b1 c2 hd' (Nat.two_pow_pos 60)⟩

theorem two_tiny {n j : Nat} (hn : n = 1 ∨ n = 2) (hj : j ≤ 92) :
    divMag (divMag (roundMag n) top) (pow10 j) = roundQ (n * 2^1074) (10^(308 + j)) := by
  have : ∀ n ∈ [1, 2], ∀ j : Fin 93, divMag (divMag (roundMag n) top) (pow10 j) =
      roundQ (n * 2^1074) (10^(308 + j.val)) := by decide +kernel
  exact this n (by simpa using hn) ⟨j, by omega⟩

theorem Cut.exact {n N d : Nat} {e : Int} (h : Cut n e N d) (hn : n < 2^60) : N * (Decimal.mk n e).den = (Decimal.mk n e).num * d :=
  h.exact_or.resolve_right fun h => absurd h.1 (by omega)

theorem Rel.congr {k N d N' d' N1 d1 : Nat} (hd : 0 < d1) (h : N * d1 = N1 * d) (hr : Rel k N1 d1 N' d') : Rel k N d N' d' := by
  have h0 : Rel 0 N d N1 d1 := ⟨by rw [h]; exact Nat.le_refl _, by rw [h]; exact Nat.le_refl _⟩
  have := Rel.trans hd h0 hr
  rwa [Nat.zero_add] at this

/-- What is left of the digits is read to a float at most three steps from the nearest one; a number is refused only if at most three
steps are missing. -/
theorem fromParts_cut {n m fuel N d : Nat} {e : Int} (hn : n < 2^64) (hpos : 0 < n) (hfuel : e.natAbs ≤ fuel)
    (hc : Cut n e N d) (hm : Rounds N d m) :
    (∃ y, fromParts fuel (roundMag n) e = some y ∧ y < infMag ∧ y ≤ m + 3 ∧ m ≤ y + 3) ∨
    (fromParts fuel (roundMag n) e = none ∧ infMag ≤ m + 3) := by
  have hn1 : (Decimal.mk n e).num = n * 10^e.toNat * 2^1074 := rfl
  have hd1 : (Decimal.mk n e).den = 10^(-e).toNat := rfl
  have hrel := hc.rel
  have hbound := hc.bound hm
  have hD := den_pos (Decimal.mk n e)
  have hr := roundMag_lt hn
  have hz := roundMag_ne_zero hpos
  have ht : 0 < 2^1074 := Nat.two_pow_pos _
  by_cases h0 : 0 ≤ e
  · rw [show (-e).toNat = 0 by omega, Nat.pow_zero] at hd1
    by_cases hle : e ≤ 308
    · have h2 := mul_rel n e.toNat
      rw [← hn1, ← hd1] at h2
      have hy := roundQ_rounds (magUnits (roundMag n) * magUnits (pow10 e.toNat)) ht
      have h3 : Rel 3 N d _ _ := hrel.trans hD h2
      obtain ⟨c1, c2⟩ := Rel.close (k := 2) hc.pos ht h3 hm hy
      have hM : mulMag (roundMag n) (pow10 e.natAbs) = min (roundQ (magUnits (roundMag n) * magUnits (pow10 e.toNat)) (2^1074)) infMag := by
        unfold mulMag
        rw [scaled_eq, scaled_eq, show e.natAbs = e.toNat by omega]
      generalize roundQ (magUnits (roundMag n) * magUnits (pow10 e.toNat)) (2^1074) = y at *
      unfold fromParts
      rw [if_pos (by omega), if_pos h0, hM]
      by_cases hi : y < infMag
      · left
        rw [Nat.min_eq_left (by omega), if_neg (by omega)]
        exact ⟨y, rfl, hi, c1, c2⟩
      · right
        rw [Nat.min_eq_right (by omega), if_pos rfl]
        exact ⟨rfl, by omega⟩
    · right
      refine ⟨fromParts_large hz (by omega), ?_⟩
      have hy := roundQ_rounds (Decimal.mk n e).num hD
      obtain ⟨c1, c2⟩ := Rel.close hc.pos hD hrel hm hy
      have := not_infinite (m := roundQ (Decimal.mk n e).num (Decimal.mk n e).den) hpos (i := e.toNat) (by omega) (by rw [hn1, hd1] at *; exact hy)
      omega
  · left
    rw [show e.toNat = 0 by omega, Nat.pow_zero, Nat.mul_one] at hn1
    by_cases hle : e.natAbs ≤ 308
    · have h2 := div_rel n e.natAbs
      rw [show (-e).toNat = e.natAbs by omega] at hd1
      rw [← hn1, ← hd1] at h2
      obtain ⟨hy, hlt⟩ := divMag_eq hr (pow10_ge (i := e.natAbs) (by omega) hle)
      have hpp := magUnits_lt (pow10_pos hle)
      rw [magUnits_zero] at hpp
      have hyr := roundQ_rounds (magUnits (roundMag n) * 2^1074) hpp
      rw [← hy] at hyr
      have h3 : Rel 3 N d _ _ := hrel.trans hD h2
      obtain ⟨c1, c2⟩ := Rel.close (k := 2) hc.pos hpp h3 hm hyr
      refine ⟨divMag (roundMag n) (pow10 e.natAbs), ?_, hlt, c1, c2⟩
      unfold fromParts
      rw [if_pos hle, if_neg h0]
    · by_cases htiny : e < -400
      · refine ⟨0, fromParts_tiny hn htiny hfuel, by decide, by omega, ?_⟩
        have hk : 4 * (Decimal.mk n e).num < (Decimal.mk n e).den := by
          rw [hn1, hd1]
          have h1 : 10^401 ≤ 10^(-e).toNat := Nat.pow_le_pow_right (by decide) (by omega)
          have h2 : 4 * (2^64 * 2^1074) < 10^401 := by decide +kernel
          have h3 : n * 2^1074 ≤ 2^64 * 2^1074 := Nat.mul_le_mul_right _ (by omega)
          generalize n * 2^1074 = A at *
          generalize 2^64 * 2^1074 = B at *
          generalize 10^401 = C at *
          omega
        by_cases hm0 : m = 0
        · omega
        · exfalso
          have h1 := magUnits_lt (show 0 < m by omega)
          have h2 := Nat.mul_le_mul_right (Decimal.mk n e).den (show 1 ≤ magUnits m by omega)
          rw [Nat.one_mul] at h2
          exact absurd (Nat.le_trans h2 hbound) (by omega)
      · obtain ⟨j, hj⟩ : ∃ j, (e + 308).natAbs = j := ⟨_, rfl⟩
        obtain ⟨fuel, rfl⟩ : ∃ k, fuel = k + 1 := ⟨fuel - 1, by omega⟩
        obtain ⟨g1, g2⟩ := divMag_eq (b := top) hr (pow10_ge (i := 308) (by decide) (by decide))
        obtain ⟨y1, y2⟩ := divMag_eq (b := pow10 j) g2 (pow10_ge (by omega) (by omega))
        have hp : fromParts (fuel + 1) (roundMag n) e = some (divMag (divMag (roundMag n) top) (pow10 j)) := by
          unfold fromParts
          rw [if_neg hle, if_neg hz, if_neg h0]
          dsimp only
          unfold fromParts
          rw [if_pos (by omega), if_neg (by omega), hj]
          rfl
        refine ⟨_, hp, y2, ?_⟩
        have hd2 := hd1
        rw [show (-e).toNat = 308 + j by omega] at hd1 hd2
        rw [Nat.pow_add] at hd2
        by_cases h3 : 3 ≤ n
        · have hJ : 0 < 10^j * 2^1074 := Nat.mul_pos (Nat.pow_pos (by decide)) ht
          have hpp := magUnits_lt (pow10_pos (i := j) (by omega))
          rw [magUnits_zero] at hpp
          have hyr := roundQ_rounds (magUnits (divMag (roundMag n) top) * 2^1074) hpp
          rw [← y1, g1] at hyr
          rw [g1]
          by_cases hj22 : j ≤ 22
          · rw [pow10_exact hj22] at hyr hpp
            rcases hc.exact_or with hx | ⟨x1, x2, x3⟩
            · refine Rel.close hc.pos hpp (Rel.congr hD hx ?_) hm hyr
              rw [hn1, hd2]
              exact two_rel h3
            · refine Rel.close hc.pos hpp (Cut.slack x1 ?_ ?_) hm hyr
              · rw [hn1, hd2] at x2; exact x2
              · rw [hn1, hd2] at x3; exact x3
          · have h5 : Rel 5 N d _ _ := hrel.trans hD (Rel.trans (k := 3) hJ (by rw [hn1, hd2]; exact two_rel h3) (den_rel _ j))
            have hs : m ≤ 2^46 := by
              by_cases hs : m ≤ 2^46
              · exact hs
              · exfalso
                have k1 := magUnits_le_iff.2 (show 2^46 ≤ m by omega)
                rw [magUnits_small (q := 2^46) (by decide)] at k1
                have k2 := Nat.mul_le_mul_right (Decimal.mk n e).den k1
                have k3 : 4 * (Decimal.mk n e).num < 2^46 * (Decimal.mk n e).den := by
                  rw [hn1, hd1]
                  have h1 : 10^331 ≤ 10^(308 + j) := Nat.pow_le_pow_right (by decide) (by omega)
                  have h2 : 4 * (2^64 * 2^1074) < 2^46 * 10^331 := by decide +kernel
                  have h3 : n * 2^1074 ≤ 2^64 * 2^1074 := Nat.mul_le_mul_right _ (by omega)
                  have h4 := Nat.mul_le_mul_left (2^46) h1
                  exact Nat.lt_of_le_of_lt (Nat.mul_le_mul_left 4 h3) (Nat.lt_of_lt_of_le h2 h4)
                exact absurd (Nat.le_trans k2 hbound) (Nat.not_le_of_lt k3)
            obtain ⟨c1, c2⟩ := Rel.few hc.pos hpp h5 hm hyr hs
            exact ⟨by omega, by omega⟩
        · have hx := hm.cross hc.pos hD (hc.exact (by omega))
          rw [hn1, hd1] at hx
          rw [two_tiny (by omega) (by omega), (roundQ_iff (Nat.pow_pos (by decide))).2 hx]
          omega

/-- The same for any digits. -/
theorem fromParts_any {n m fuel N d : Nat} {e : Int} (hn : n < 2^64) (hfuel : e.natAbs ≤ fuel) (hc : Cut n e N d) (hm : Rounds N d m) :
    (∃ y, fromParts fuel (roundMag n) e = some y ∧ y < infMag ∧ y ≤ m + 3 ∧ m ≤ y + 3) ∨
    (fromParts fuel (roundMag n) e = none ∧ infMag ≤ m + 3) := by
  rcases Nat.eq_zero_or_pos n with rfl | hpos
  · left
    refine ⟨0, by rw [roundMag_zero]; exact fromParts_zero _ _, by decide, by omega, ?_⟩
    have hb := hc.bound hm
    have h0 : (Decimal.mk 0 e).num = 0 := by
      show 0 * 10^e.toNat * 2^1074 = 0
      rw [Nat.zero_mul, Nat.zero_mul]
    rw [h0] at hb
    have h1 : magUnits m = 0 := by
      rcases Nat.mul_eq_zero.1 (Nat.le_zero.1 hb) with h | h
      · exact h
      · exact absurd h (Nat.pos_iff_ne_zero.1 (den_pos _))
    by_cases hm0 : m = 0
    · omega
    · have := magUnits_lt (show 0 < m by omega)
      omega
  · exact fromParts_cut hn hpos hfuel hc hm

/-! ### What is left of the digits -/

/-- The value of digits after a number. -/
theorem foldl_value (cs : List Char) : ∀ n : Nat,
    cs.foldl (fun n c => 10 * n + (c.toNat - 48)) n = n * 10^cs.length + digitsValue cs := by
  induction cs using list_snoc_ind with
  | hn => intro n; simp [digitsValue]
  | hs l a ih =>
    intro n
    rw [List.foldl_append, ih, digitsValue_snoc]
    simp only [List.foldl_cons, List.foldl_nil, List.length_append, List.length_cons, List.length_nil]
    rw [show l.length + (0 + 1) = l.length + 1 from rfl, Nat.pow_succ, ← Nat.mul_assoc]
    omega

theorem digitsValue_append (a b : List Char) : digitsValue (a ++ b) = digitsValue a * 10^b.length + digitsValue b := by
  rw [← foldl_value]
  unfold digitsValue
  rw [List.foldl_append]

theorem digit_small {c : Char} (h : c.isDigit = true) : c.toNat - 48 < 10 := by
  simp only [Char.isDigit, Bool.and_eq_true, decide_eq_true_eq] at h
  have : c.val.toNat ≤ 57 := h.2
  have : c.toNat = c.val.toNat := rfl
  omega

theorem digitsValue_lt (cs : List Char) : (∀ c ∈ cs, c.isDigit = true) → digitsValue cs < 10^cs.length := by
  induction cs using list_snoc_ind with
  | hn => intro _; decide
  | hs l a ih =>
    intro h
    have h1 := ih fun c hc => h c (by simp [hc])
    have h2 := digit_small (h a (by simp))
    rw [digitsValue_snoc, List.length_append, List.length_singleton, Nat.pow_succ]
    omega

/-- Digits are taken until the number is large. -/
theorem accumulate_spec (cs : List Char) : ∀ n : Nat, n < 2^64 → (∀ c ∈ cs, c.isDigit = true) →
    ∃ taken, cs = taken ++ (accumulate n cs).2 ∧ (accumulate n cs).1 = n * 10^taken.length + digitsValue taken ∧
      (accumulate n cs).1 < 2^64 ∧ ((accumulate n cs).2 ≠ [] → 2^60 ≤ (accumulate n cs).1) := by
  induction cs with
  | nil => intro n hn _; exact ⟨[], rfl, by simp [accumulate, digitsValue], hn, fun h => absurd rfl h⟩
  | cons c cs ih =>
    intro n hn h
    unfold accumulate
    have hc := digit_small (h c (by simp))
    by_cases hle : 2^64 ≤ n * 10 + (c.toNat - 48)
    · rw [if_pos hle]
      exact ⟨[], rfl, by simp [digitsValue], hn, fun _ => by show 2^60 ≤ n; omega⟩
    · rw [if_neg hle]
      obtain ⟨taken, h1, h2, h3, h4⟩ := ih (n * 10 + (c.toNat - 48)) (by omega) fun c hc => h c (by simp [hc])
      refine ⟨c :: taken, by rw [List.cons_append, ← h1], ?_, h3, h4⟩
      rw [h2, ← foldl_value, ← foldl_value, List.foldl_cons, Nat.mul_comm n 10]

theorem cut_pow {a b c d : Nat} (h : a + b = c + d) : 10^a * 10^b = 10^c * 10^d := by rw [← Nat.pow_add, ← Nat.pow_add, h]

theorem cut_left (n : Nat) (E : Int) (B T : Nat) : (Decimal.mk n (E + B)).num * (Decimal.mk T E).den =
    n * 10^B * (10^E.toNat * 10^(-(E + B)).toNat * 2^1074) := by
  show n * 10^(E + B).toNat * 2^1074 * 10^(-E).toNat = _
  have h : 10^(E + B).toNat * 10^(-E).toNat = 10^B * (10^E.toNat * 10^(-(E + B)).toNat) := by
    rw [← Nat.pow_add, ← Nat.pow_add, ← Nat.pow_add]
    congr 1
    omega
  generalize 2^1074 = t
  calc n * 10^(E + B).toNat * t * 10^(-E).toNat = n * (10^(E + B).toNat * 10^(-E).toNat) * t := by ac_rfl
    _ = n * (10^B * (10^E.toNat * 10^(-(E + B)).toNat)) * t := by rw [h]
    _ = _ := by ac_rfl

theorem cut_right (n : Nat) (E : Int) (B T : Nat) : (Decimal.mk T E).num * (Decimal.mk n (E + B)).den =
    T * (10^E.toNat * 10^(-(E + B)).toNat * 2^1074) := by
  show T * 10^E.toNat * 2^1074 * 10^(-(E + B)).toNat = _
  generalize 2^1074 = t
  ac_rfl

theorem narrow_core {n P X Y B : Nat} (hP : P ≤ n) (h1 : X ≤ (n + 1) * B) (h2 : n * B ≤ Y) : X * P ≤ Y * (P + 1) := by
  have h3 : P * B ≤ Y := Nat.le_trans (Nat.mul_le_mul_right _ hP) h2
  by_cases h : X ≤ Y
  · exact Nat.mul_le_mul h (Nat.le_succ P)
  · have h4 : X ≤ Y + B := by rw [Nat.add_mul, Nat.one_mul] at h1; omega
    have h5 := Nat.mul_le_mul_right P h4
    rw [Nat.add_mul, Nat.mul_comm B P] at h5
    rw [Nat.mul_add, Nat.mul_one]
    omega

theorem scale_core {X Y W A B : Nat} (h : X * A ≤ Y * B) : X * W * A ≤ Y * W * B := by
  calc X * W * A = X * A * W := by ac_rfl
    _ ≤ Y * B * W := Nat.mul_le_mul_right _ h
    _ = Y * W * B := by ac_rfl

/-- The number that is left, compared with all digits. -/
theorem Cut.of {n T B : Nat} {E : Int} (h : T = n * 10^B ∨ ∃ k C, 2^60 ≤ k ∧ 2^60 ≤ n ∧ k * C ≤ T ∧ T ≤ (k + 1) * C ∧ k * C ≤ n * 10^B ∧
    n * 10^B ≤ (k + 1) * C) : Cut n (E + B) (Decimal.mk T E).num (Decimal.mk T E).den := by
  refine ⟨den_pos _, ?_⟩
  rw [cut_left, cut_right]
  generalize 10^E.toNat * 10^(-(E + B)).toNat * 2^1074 = W
  rcases h with h | ⟨k, C, h1, h2, h3, h4, h5, h6⟩
  · left; rw [h]
  · right
    exact ⟨h2, scale_core (narrow_core h1 h6 h3), scale_core (narrow_core h1 h4 h5)⟩

theorem stretch {v n a b : Nat} (hv : v < 10^b) : n * 10^(a + b) ≤ (n * 10^b + v) * 10^a ∧ (n * 10^b + v) * 10^a ≤ (n + 1) * 10^(a + b) := by
  rw [Nat.pow_add, Nat.mul_comm (10^a), ← Nat.mul_assoc, ← Nat.mul_assoc]
  refine ⟨Nat.mul_le_mul_right _ (by omega), Nat.mul_le_mul_right _ ?_⟩
  rw [Nat.add_mul, Nat.one_mul]
  omega

/-- What is read from the digits before and after the point. -/
theorem magnitude_cut {ds fs ex : List Char} (hd : ∀ c ∈ ds ++ fs, c.isDigit = true) : ∃ (n B : Nat), n < 2^64 ∧ B ≤ ds.length + fs.length ∧
    magnitude ds fs ex = withExponent n ((B : Int) - fs.length) ex ∧
    ∀ E : Int, Cut n (E + B) (Decimal.mk (digitsValue (ds ++ fs)) E).num (Decimal.mk (digitsValue (ds ++ fs)) E).den := by
  have hds : ∀ c ∈ ds, c.isDigit = true := fun c hc => hd c (by simp [hc])
  have hfs : ∀ c ∈ fs, c.isDigit = true := fun c hc => hd c (by simp [hc])
  obtain ⟨t1, e1, n1, l1, b1⟩ := accumulate_spec ds 0 (by decide) hds
  obtain ⟨t2, e2, n2, l2, b2⟩ := accumulate_spec fs (accumulate 0 ds).1 l1 hfs
  have hm : magnitude ds fs ex = withExponent (accumulate (accumulate 0 ds).1 fs).1
      ((accumulate 0 ds).2.length - (fs.length - (accumulate (accumulate 0 ds).1 fs).2.length)) ex := rfl
  rw [hm]
  generalize (accumulate (accumulate 0 ds).1 fs).2 = r2 at *
  generalize (accumulate (accumulate 0 ds).1 fs).1 = m2 at *
  generalize (accumulate 0 ds).2 = r1 at *
  generalize (accumulate 0 ds).1 = m1 at *
  rw [Nat.zero_mul, Nat.zero_add] at n1
  have g1 := congrArg List.length e1
  have g2 := congrArg List.length e2
  rw [List.length_append] at g1 g2
  have v2 := digitsValue_lt t2 fun c hc => hfs c (by rw [e2]; simp [hc])
  have vr1 := digitsValue_lt r1 fun c hc => hds c (by rw [e1]; simp [hc])
  have vr2 := digitsValue_lt r2 fun c hc => hfs c (by rw [e2]; simp [hc])
  have vf := digitsValue_lt fs hfs
  refine ⟨m2, r1.length + r2.length, l2, by omega, by congr 1; omega, fun E => Cut.of ?_⟩
  by_cases hr1 : r1 = []
  · subst hr1
    have hT : digitsValue (ds ++ fs) = m2 * 10^r2.length + digitsValue r2 := by
      rw [e1, e2, List.append_nil, ← List.append_assoc, digitsValue_append, digitsValue_append t1, ← n1, ← n2]
    rw [List.length_nil, Nat.zero_add, hT]
    by_cases hr2 : r2 = []
    · subst hr2
      left; rfl
    · right
      have := b2 hr2
      refine ⟨m2, 10^r2.length, this, this, by omega, ?_, Nat.le_refl _, Nat.mul_le_mul_right _ (by omega)⟩
      rw [Nat.add_mul, Nat.one_mul]; omega
  · right
    have hk := b1 hr1
    have hT : digitsValue (ds ++ fs) = (m1 * 10^r1.length + digitsValue r1) * 10^fs.length + digitsValue fs := by
      rw [digitsValue_append]
      conv => lhs; rw [e1]
      rw [digitsValue_append, ← n1]
    have hw : digitsValue r1 * 10^fs.length + digitsValue fs < 10^(r1.length + fs.length) := by
      rw [Nat.pow_add]
      have := Nat.mul_le_mul_right (10^fs.length) (Nat.succ_le_of_lt vr1)
      rw [Nat.succ_mul] at this
      omega
    have s1 := stretch (n := m1) (a := 0) hw
    rw [Nat.pow_zero, Nat.mul_one, Nat.zero_add] at s1
    have hT' : digitsValue (ds ++ fs) = m1 * 10^(r1.length + fs.length) + (digitsValue r1 * 10^fs.length + digitsValue fs) := by
      rw [hT, Nat.add_mul, Nat.pow_add, Nat.mul_assoc]; omega
    rw [← hT'] at s1
    have s2 := stretch (n := m1) (a := r1.length + r2.length) v2
    rw [← n2, show r1.length + r2.length + t2.length = r1.length + fs.length by omega] at s2
    refine ⟨m1, 10^(r1.length + fs.length), hk, ?_, s1.1, s1.2, s2.1, s2.2⟩
    have : 1 ≤ 10^t2.length := Nat.pow_pos (by decide)
    have := Nat.mul_le_mul_left m1 this
    omega

/-- Exponents of any size. -/
theorem withExponent_eq {n : Nat} {start z : Int} {ex : List Char} (hn : n < 2^64) (he : ExponentDenotes ex z) (hs : start.natAbs < 2^30) :
    withExponent n start ex = fromParts (start + z).natAbs (roundMag n) (start + z) := by
  obtain ⟨w1, w2, w3⟩ := withExponent_any (n := n) he hs
  by_cases h0 : n = 0
  · subst h0
    rw [roundMag_zero, fromParts_zero]
    rw [roundMag_zero] at w1
    by_cases h1 : z.natAbs < 2^31
    · rw [w1 h1, fromParts_zero]
    · by_cases h2 : 2^31 ≤ z
      · rw [w2 h2, if_pos rfl]
      · exact w3 (by omega)
  · have hz := roundMag_ne_zero (Nat.pos_of_ne_zero h0)
    by_cases h1 : z.natAbs < 2^31
    · rw [w1 h1]
      by_cases hlow : start + z < -2^31
      · have : saturate (start + z) = -2^31 := by unfold saturate; rw [if_pos hlow]
        rw [this, fromParts_tiny (e := start + z) hn (by omega) (Nat.le_refl _)]
        exact fromParts_tiny hn (by decide) (Nat.le_refl _)
      · by_cases hhigh : 2^31 ≤ start + z
        · have : saturate (start + z) = 2^31 - 1 := by unfold saturate; rw [if_neg hlow, if_pos hhigh]
          rw [this, fromParts_large (e := start + z) hz (by omega)]
          exact fromParts_large hz (by decide)
        · have : saturate (start + z) = start + z := by unfold saturate; rw [if_neg hlow, if_neg hhigh]
          rw [this]
    · by_cases h2 : 2^31 ≤ z
      · rw [w2 h2, if_neg h0, fromParts_large hz (by omega)]
      · rw [w3 (by omega), fromParts_tiny hn (by omega) (Nat.le_refl _)]

/-- Any text of a decimal number. -/
theorem readFloat_any (b : Bool) {D : Decimal} {cs : List Char} {m : Nat} (h : DecimalText D cs) (hl : cs.length < 2^30)
    (hr : Rounds D.num D.den m) :
    (∃ y, readFloat (signText b ++ cs) = some (make b y) ∧ y < infMag ∧ y ≤ m + 3 ∧ m ≤ y + 3) ∨
    (readFloat (signText b ++ cs) = none ∧ infMag ≤ m + 3) := by
  obtain ⟨ds, fr, ex, z, rfl, hi, hf, he, hd, hx⟩ := h.parts
  have hlen : (fr.drop 1).length ≤ fr.length := by rw [List.length_drop]; omega
  simp only [List.length_append] at hl
  obtain ⟨n, B, hn, hB, hm, hc⟩ := magnitude_cut (ex := ex) (denote_digits hd)
  have hread : readFloat (signText b ++ (ds ++ fr ++ ex)) = (fromParts (D.exponent + B).natAbs (roundMag n) (D.exponent + B)).map (make b) := by
    rw [show signText b ++ (ds ++ fr ++ ex) = signText b ++ ds ++ fr ++ ex by simp [List.append_assoc],
      show readFloat _ = readParts magnitude _ from rfl, readParts_eq b hi hf he.isExponent, hm, withExponent_eq hn he (by omega),
      show (B : Int) - ((fr.drop 1).length : Int) + z = D.exponent + B by omega]
  have hcut := hc D.exponent
  rw [denote_value hd] at hcut
  rcases fromParts_any hn (Nat.le_refl _) hcut hr with ⟨y, h1, h2⟩ | ⟨h1, h2⟩
  · left
    exact ⟨y, by rw [hread, h1]; rfl, h2⟩
  · right
    exact ⟨by rw [hread, h1]; rfl, h2⟩

end Wot
