import Verif.Lemmas.FloatKept
/-
What is read is finite.
-/
namespace Wot

open FloatText F64

theorem pow10_ge {i : Nat} (h1 : 1 ≤ i) (h2 : i ≤ 308) : 2 * 2^1074 ≤ magUnits (pow10 i) := by
  have : ∀ i : Fin 309, i.val = 0 ∨ 2 * 2^1074 ≤ magUnits (pow10 i) := by decide +kernel
  rcases this ⟨i, by omega⟩ with h | h
  · simp only at h; omega
  · exact h

theorem divMag_le {a b : Nat} (hb : 2 * 2^1074 ≤ magUnits b) : magUnits (divMag a b) ≤ magUnits a := by
  have ht : 0 < 2^1074 := Nat.two_pow_pos _
  have hpos : 0 < magUnits b := by
    generalize 2^1074 = T at *
    omega
  have hr := (roundQ_rounds (magUnits a * 2^1074) hpos).low
  have h1 : magUnits (divMag a b) ≤ magUnits (roundQ (magUnits a * 2^1074) (magUnits b)) :=
    magUnits_le_iff.2 (Nat.min_le_left _ _)
  refine Nat.le_trans h1 (Nat.le_of_mul_le_mul_right ?_ hpos)
  rw [Nat.add_mul] at hr
  have h2 := Nat.mul_le_mul_left (magUnits a) hb
  have h3 : magUnits a * (2 * 2^1074) = 2 * (magUnits a * 2^1074) := by
    generalize 2^1074 = T; ac_rfl
  rw [h3] at h2
  generalize magUnits a * 2^1074 = N at *
  omega

theorem fromParts_finite : ∀ (fuel f : Nat) (e : Int) (m : Nat), f < infMag → fromParts fuel f e = some m → m < infMag := by
  intro fuel
  induction fuel with
  | zero =>
    intro f e m hf h
    unfold fromParts at h
    split at h
    · next he =>
      split at h
      · split at h
        · cases h
        · next hne =>
          cases h
          have : mulMag f (pow10 e.natAbs) ≤ infMag := Nat.min_le_right _ _
          omega
      · next hn =>
        rw [← Option.some.inj h]
        exact Nat.lt_of_le_of_lt (magUnits_le_iff.1 (divMag_le (pow10_ge (by omega) he))) hf
    · split at h
      · cases h; exact hf
      · split at h <;> cases h
  | succ fuel ih =>
    intro f e m hf h
    unfold fromParts at h
    split at h
    · next he =>
      split at h
      · split at h
        · cases h
        · next hne =>
          cases h
          have : mulMag f (pow10 e.natAbs) ≤ infMag := Nat.min_le_right _ _
          omega
      · next hn =>
        rw [← Option.some.inj h]
        exact Nat.lt_of_le_of_lt (magUnits_le_iff.1 (divMag_le (pow10_ge (by omega) he))) hf
    · split at h
      · cases h; exact hf
      · split at h
        · cases h
        · exact ih _ _ _ (Nat.lt_of_le_of_lt (magUnits_le_iff.1 (divMag_le (pow10_ge (by decide) (by decide)))) hf) h

theorem accumulate_lt (cs : List Char) : ∀ n, n < 2^64 → (accumulate n cs).1 < 2^64 := by
  induction cs with
  | nil => exact fun n h => h
  | cons c cs ih =>
    intro n h
    unfold accumulate
    split
    · exact h
    · exact ih _ (by omega)

theorem withExponent_finite {n : Nat} {start : Int} {ex : List Char} {m : Nat} (hn : n < 2^64)
    (h : withExponent n start ex = some m) : m < infMag := by
  have hr := roundMag_lt hn
  unfold withExponent at h
  split at h
  · exact fromParts_finite _ _ _ _ hr h
  · dsimp only at h
    split at h
    · split at h
      · cases h
      · cases h; decide
    · exact fromParts_finite _ _ _ _ hr h

theorem readFloat_finite {cs : List Char} {x : F64} (h : readFloat cs = some x) : x.isFinite = true := by
  unfold readFloat readParts at h
  dsimp only at h
  obtain ⟨p, -, h⟩ := Option.bind_eq_some_iff.1 h
  obtain ⟨q, -, h⟩ := Option.bind_eq_some_iff.1 h
  obtain ⟨m, hm, rfl⟩ := Option.map_eq_some_iff.1 h
  have : m < infMag := by
    unfold magnitude at hm
    exact withExponent_finite (accumulate_lt _ _ (accumulate_lt _ _ (by decide))) hm
  rw [mag_finite, (make_facts _ this).1]
  exact this

end Wot
