import Verif.Spec.Float
/-
The order of bit patterns is the order of the numbers they denote.
-/
namespace Wot

theorem magUnits_succ (m : Nat) : magUnits m < magUnits (m + 1) := by
  have hp : 0 < 2^52 := by decide
  unfold magUnits
  generalize 2^52 = P at *
  by_cases hc : m % P + 1 = P
  · have h1 : (m + 1) / P = m / P + 1 := by
      rw [Nat.succ_div]
      rw [if_pos]
      exact ⟨m / P + 1, by have := Nat.div_add_mod m P; rw [Nat.mul_add]; omega⟩
    have h2 : (m + 1) % P = 0 := by
      have := Nat.div_add_mod (m + 1) P
      have := Nat.div_add_mod m P
      rw [h1, Nat.mul_add] at *
      omega
    rw [h1, h2, if_neg (Nat.succ_ne_zero (m / P))]
    by_cases h0 : m / P = 0
    · rw [if_pos h0, h0]; simp; omega
    · rw [if_neg h0]
      have h3 : m / P + 1 - 1 = (m / P - 1) + 1 := by
        generalize m / P = q at *; omega
      rw [h3, Nat.pow_succ]
      have h4 : 0 < 2 ^ (m / P - 1) := Nat.two_pow_pos _
      generalize 2 ^ (m / P - 1) = Q at *
      have : (P + m % P + 1) * Q = (P + 0) * (Q * 2) := by
        rw [show P + m % P + 1 = P * 2 by omega, Nat.mul_assoc, Nat.mul_comm 2 Q]; rfl
      rw [← this, Nat.add_mul (P + m % P)]
      omega
  · have hlt := Nat.mod_lt m hp
    have h1 : (m + 1) / P = m / P := by
      rw [Nat.succ_div, if_neg]
      · rfl
      · rintro ⟨c, hcc⟩
        apply hc
        have := Nat.div_add_mod m P
        have h5 : (m + 1) % P = 0 := by rw [hcc]; exact Nat.mul_mod_right P c
        rw [Nat.add_mod] at h5
        by_cases hP : P = 1
        · omega
        · rw [Nat.mod_eq_of_lt (a := 1) (by omega)] at h5
          rw [Nat.mod_eq_of_lt (by omega)] at h5
          omega
    have h2 : (m + 1) % P = m % P + 1 := by
      have a := Nat.div_add_mod (m + 1) P
      have b := Nat.div_add_mod m P
      rw [h1] at a
      omega
    rw [h1, h2]
    by_cases h0 : m / P = 0
    · rw [if_pos h0, if_pos h0]; omega
    · rw [if_neg h0, if_neg h0]
      exact Nat.mul_lt_mul_of_pos_right (by omega) (Nat.two_pow_pos _)

theorem magUnits_lt {m n : Nat} (h : m < n) : magUnits m < magUnits n := by
  induction n with
  | zero => omega
  | succ n ih =>
    by_cases hm : m = n
    · subst hm; exact magUnits_succ m
    · exact Nat.lt_trans (ih (by omega)) (magUnits_succ n)

theorem magUnits_le_iff {m n : Nat} : magUnits m ≤ magUnits n ↔ m ≤ n := by
  constructor
  · intro h
    by_cases hlt : n < m
    · have := magUnits_lt hlt; omega
    · omega
  · intro h
    by_cases he : m = n
    · subst he; exact Nat.le_refl _
    · exact Nat.le_of_lt (magUnits_lt (by omega))

theorem magUnits_zero : magUnits 0 = 0 := by simp [magUnits]

theorem F64.units_le_iff (x y : F64) : x.units ≤ y.units ↔ x.key ≤ y.key := by
  have h1 := @magUnits_le_iff x.mag y.mag
  have h2 := @magUnits_le_iff y.mag x.mag
  have h3 := @magUnits_le_iff x.mag 0
  have h4 := @magUnits_le_iff y.mag 0
  rw [magUnits_zero] at h3 h4
  unfold F64.units F64.key
  split <;> split <;> omega

theorem F64.units_lt_iff (x y : F64) : x.units < y.units ↔ x.key < y.key := by
  have := F64.units_le_iff y x
  omega

theorem F64.le_iff (x y : F64) : F64.Le x y ↔ x.isNan = false ∧ y.isNan = false ∧ x.key ≤ y.key := by
  unfold F64.Le; rw [F64.units_le_iff]

theorem F64.lt_iff (x y : F64) : F64.Lt x y ↔ x.isNan = false ∧ y.isNan = false ∧ x.key < y.key := by
  unfold F64.Lt; rw [F64.units_lt_iff]

instance (x y : F64) : Decidable (F64.Le x y) := decidable_of_iff _ (F64.le_iff x y).symm
instance (x y : F64) : Decidable (F64.Lt x y) := decidable_of_iff _ (F64.lt_iff x y).symm

end Wot
