import Verif.Lemmas.Float
import Verif.Spec.Range
/-
Comparing bounds and comparing the numbers they denote.
-/
namespace Wot

theorem rat_div_lt_div {p : Nat} (hp : 0 < p) (a b : Int) :
    (a : Rat) / (p : Rat) < (b : Rat) / (p : Rat) ↔ a < b := by
  have h : (0 : Rat) < (p : Rat) := Rat.natCast_pos.2 hp
  have h0 : (p : Rat) ≠ 0 := fun e => by rw [e] at h; exact absurd h (by decide)
  rw [Rat.div_lt_iff h, Rat.div_mul_cancel h0]
  exact Rat.intCast_lt_intCast

theorem F64.value_lt_iff (x y : F64) : x.value < y.value ↔ x.units < y.units :=
  rat_div_lt_div (Nat.two_pow_pos 1074) _ _

theorem F64.value_le_iff (x y : F64) : x.value ≤ y.value ↔ x.units ≤ y.units := by
  rw [← Rat.not_lt, F64.value_lt_iff]; omega

theorem F64.not_nan_of_finite {x : F64} (h : x.isFinite = true) : x.isNan = false := by
  simp only [F64.isFinite, F64.isNan, decide_eq_true_eq, decide_eq_false_iff_not] at *
  omega

theorem F64.lt_or_nan {m : F64} (h : ¬ F64.Le m F64.zero) : F64.Lt F64.zero m ∨ m.isNan = true := by
  cases hn : m.isNan with
  | true => exact .inr rfl
  | false =>
    refine .inl ⟨by decide, hn, ?_⟩
    apply Classical.byContradiction
    intro hc
    exact h ⟨hn, by decide, by omega⟩

theorem F64.not_le_zero {m : F64} (h : F64.Lt F64.zero m ∨ m.isNan = true) : ¬ F64.Le m F64.zero := by
  rintro ⟨h1, -, h2⟩
  rcases h with ⟨-, -, h⟩ | h
  · omega
  · rw [h1] at h; cases h

theorem rat_lt_trans {a b c : Rat} (h1 : a < b) (h2 : b < c) : a < c := by grind

theorem rat_between {a b : Rat} (h : a < b) : ∃ q, a < q ∧ q < b :=
  ⟨(a + b) / 2, by grind, by grind⟩

end Wot
