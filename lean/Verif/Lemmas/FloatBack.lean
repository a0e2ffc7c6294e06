import Verif.Lemmas.FloatClose
/-
What is read from the text of a float.
-/
namespace Wot

open FloatText F64

theorem magUnits_double {m : Nat} (hm : 0 < m) : magUnits (m + 1) ≤ 2 * magUnits m := by
  by_cases h : m < 2^52
  · rw [magUnits_small (by omega), magUnits_small (by omega)]
    omega
  · have := magUnits_next (m := m) (by omega)
    omega

theorem step_core {a b P : Nat} (h : a * (P + 1) < b * P) : b < (b - a) * (P + 1) := by
  have hab : a < b := by
    by_cases hab : a < b
    · exact hab
    · have := Nat.mul_le_mul_right P (Nat.le_of_not_lt hab)
      rw [Nat.mul_add] at h
      omega
  obtain ⟨x, rfl⟩ : ∃ x, b = a + x := ⟨b - a, by omega⟩
  rw [Nat.add_sub_cancel_left]
  simp only [Nat.mul_add, Nat.add_mul, Nat.mul_one] at *
  omega

/-- The decimals of the floor of a float are enough, if there are many digits. -/
theorem many_core {V W X d e t n1 c n0 : Nat} (he : 0 < e) (h1 : 2 * (c * n1) ≤ (V + W) * e) (hW : W ≤ 2 * V) (hc : 10^18 ≤ c)
    (ht : t * e = 10 * n1 * d) (hX : V < X * (2^53 + 1)) (hlt : V * d < n0 + t) : 2 * (V * d) < 2 * n0 + X * d := by
  have a1 : 2 * 10^17 * t * e ≤ 3 * (V * d) * e :=
    calc 2 * 10^17 * t * e = 2 * 10^17 * (t * e) := by ac_rfl
      _ = 2 * (10^18 * n1) * d := by rw [ht, show 10^18 = 10^17 * 10 by decide]; ac_rfl
      _ ≤ 2 * (c * n1) * d := Nat.mul_le_mul_right _ (Nat.mul_le_mul_left _ (Nat.mul_le_mul_right _ hc))
      _ ≤ (V + W) * e * d := Nat.mul_le_mul_right _ h1
      _ ≤ 3 * V * e * d := Nat.mul_le_mul_right _ (Nat.mul_le_mul_right _ (by omega))
      _ = 3 * (V * d) * e := by ac_rfl
  have a2 := Nat.le_of_mul_le_mul_right a1 he
  have a3 : V * d ≤ X * d * (2^53 + 1) := by
    rw [mul_right_swap]
    exact Nat.mul_le_mul_right _ (Nat.le_of_lt hX)
  generalize V * d = A at *
  generalize X * d = B at *
  omega

/-- No float needs more than 18 digits. -/
theorem digits_bound {m c : Nat} {k : Int} (hm : 0 < m) (hr : RoundsTo m c k) (hmax : ∀ k', k < k' → ∀ c', ¬ RoundsTo m c' k') :
    c < 10^18 := by
  by_cases hc : c < 10^18
  · exact hc
  · exfalso
    obtain ⟨c0, b1, b2, -, -, -⟩ := candidate_cases (m := m) (k := k + 1) hm
    refine hmax (k + 1) (by omega) c0 ?_
    have hW := magUnits_double hm
    have hX := step_core (P := 2^53) (magUnits_jump (m - 1))
    rw [show m - 1 + 1 = m by omega] at hX
    have hup := magUnits_succ m
    have hlo : magUnits (m - 1) < magUnits m := magUnits_lt (by omega)
    have hhigh := hr.high
    have hn : (Decimal.mk c k).num = c * (10^k.toNat * 2^1074) := Nat.mul_assoc ..
    have ht : 10^(k + 1).toNat * 2^1074 * (Decimal.mk c k).den = 10 * (10^k.toNat * 2^1074) * (Decimal.mk c0 (k + 1)).den := by
      have e : 10^(k + 1).toNat * 10^(-k).toNat = 10 * 10^k.toNat * 10^(-(k + 1)).toNat := by
        rw [Nat.mul_assoc, Nat.mul_comm 10, ← Nat.pow_add, ← Nat.pow_add, ← Nat.pow_succ]
        exact congrArg (10 ^ ·) (by omega)
      show 10^(k + 1).toNat * 2^1074 * 10^(-k).toNat = 10 * (10^k.toNat * 2^1074) * 10^(-(k + 1)).toNat
      rw [mul_right_swap, e, ← Nat.mul_assoc, mul_right_swap]
    have hs : (Decimal.mk (c0 + 1) (k + 1)).num = (Decimal.mk c0 (k + 1)).num + 10^(k + 1).toNat * 2^1074 := by
      have h1 : (Decimal.mk 1 (k + 1)).num = 10^(k + 1).toNat * 2^1074 := congrArg (· * 2^1074) (Nat.one_mul _)
      rw [num_add, h1]
    rw [hs] at b2
    rw [hn] at hhigh
    have key := many_core (Decimal.mk c k).den_pos hhigh hW (Nat.le_of_not_lt hc) ht hX b2
    have hd := (Decimal.mk c0 (k + 1)).den_pos
    have hu := Nat.mul_lt_mul_of_pos_right hup hd
    unfold RoundsTo
    generalize (Decimal.mk c0 (k + 1)).num = N at *
    generalize (Decimal.mk c0 (k + 1)).den = d at *
    have hsub : (magUnits m - magUnits (m - 1)) * d + magUnits (m - 1) * d = magUnits m * d := by
      rw [← Nat.add_mul, Nat.sub_add_cancel (Nat.le_of_lt hlo)]
    clear hs ht hn hhigh hX hW
    generalize 10^(k + 1).toNat * 2^1074 = t at *
    refine ⟨?_, ?_, fun _ => ⟨?_, ?_⟩⟩ <;> rw [Nat.add_mul] <;> omega

/-- The text of a number whose digits fit into a `u64`, read as a float: at most three steps from the nearest. -/
theorem readFloat_close (b : Bool) {D : Decimal} {cs : List Char} {x : F64} (h : DecimalText D cs) (hl : cs.length < 2^30)
    (hn : D.digits < 2^64) (hp : 0 < D.digits) (h1 : -330 ≤ D.exponent) (h2 : D.exponent < 2^30) (hf : x.mag < infMag)
    (hr : Rounds D.num D.den x.mag) :
    (∃ y, readFloat (signText b ++ cs) = some y ∧ y.neg = b ∧ y.mag ≤ x.mag + 3 ∧ x.mag ≤ y.mag + 3) ∨ infMag ≤ x.mag + 2 := by
  rw [readFloat_parts b h hl hn (by omega)]
  rcases fromParts_close (n := D.digits) (e := D.exponent) hn hp h1 (Nat.le_refl _) hr hf with ⟨y, e, hy, c⟩ | h
  · left
    obtain ⟨f1, f2⟩ := make_facts b hy
    refine ⟨make b y, ?_, f2, ?_⟩
    · rw [e]; rfl
    · rw [f1]; exact c
  · exact .inr h

/-- The largest floats. -/
theorem largest_close {x : F64} (hf : x.mag < infMag) (h : infMag ≤ x.mag + 2) :
    ∃ y, readFloat (writeFloat x) = some y ∧ y.neg = x.neg ∧ y.mag ≤ x.mag + 3 ∧ x.mag ≤ y.mag + 3 := by
  have hc : ∀ b, ∀ k, k < 2 →
      ((readFloat (writeFloat (make b (infMag - 1 - k)))).any fun y =>
        y.neg == b && decide (y.mag ≤ infMag - 1 - k + 3) && decide (infMag - 1 - k ≤ y.mag + 3)) = true := by
    decide +kernel
  obtain ⟨k, hk⟩ : ∃ k, k = infMag - 1 - x.mag := ⟨_, rfl⟩
  have hm : x.mag = infMag - 1 - k := by omega
  have hx : make x.neg (infMag - 1 - k) = x := by
    obtain ⟨f1, f2⟩ := make_facts x.neg (m := infMag - 1 - k) (by omega)
    exact f64_ext (f1.trans hm.symm) f2
  have := hc x.neg k (by omega)
  rw [hx, ← hm] at this
  cases hr : readFloat (writeFloat x) with
  | none => rw [hr] at this; cases this
  | some y =>
    rw [hr] at this
    simp only [Option.any_some, Bool.and_eq_true, beq_iff_eq, decide_eq_true_eq] at this
    exact ⟨y, rfl, this.1.1, this.1.2, this.2⟩

/-- Every finite float is read again from its text with the same sign and at most three steps away. -/
theorem float_back {x : F64} (hf : x.mag < infMag) :
    ∃ y, readFloat (writeFloat x) = some y ∧ y.neg = x.neg ∧ y.mag ≤ x.mag + 3 ∧ x.mag ≤ y.mag + 3 := by
  by_cases hx : x.mag = 0
  · obtain ⟨_, _, _, _, -, -, -, -, -, -, h⟩ := zero_keeps hx
    exact ⟨x, h, rfl, by omega, by omega⟩
  · have hw := writeFloat_eq hx
    obtain ⟨hr, hc, -, hmax⟩ := shortest_facts (by omega) hf (c := (shortest x.mag 640 310).1) (k := (shortest x.mag 640 310).2) rfl
    obtain ⟨k1, k2⟩ := shortest_range (m := x.mag) (by omega)
    generalize (shortest x.mag 640 310).1 = c at *
    generalize (shortest x.mag 640 310).2 = k at *
    have hd := digits_bound (by omega) hr hmax
    have hl := layout_text hc k
    have hlen := layout_length hd k1 k2
    have key : ∀ {D : Decimal}, LayoutOf D (layout c k) → D.digits < 2^64 → 0 < D.digits → -330 ≤ D.exponent → D.exponent < 2^30 →
        Rounds D.num D.den x.mag →
        ∃ y, readFloat (writeFloat x) = some y ∧ y.neg = x.neg ∧ y.mag ≤ x.mag + 3 ∧ x.mag ≤ y.mag + 3 := by
      intro D h a1 a2 a3 a4 a5
      rcases readFloat_close x.neg h.text hlen a1 a2 a3 a4 hf a5 with h | h
      · rw [hw]; exact h
      · exact largest_close hf h
    split at hl
    · next h =>
      refine key hl ?_ (Nat.mul_pos hc (Nat.pow_pos (by decide))) (by show (-330 : Int) ≤ -1; decide) (by show (-1 : Int) < 2^30; decide)
        (rounds_point h.1 hr)
      have := denote_lt (decimal_integer c).2
      have h3 : c * 10^(k.toNat + 1) < 10^17 := by
        refine Nat.lt_of_lt_of_le (Nat.mul_lt_mul_of_pos_right this (Nat.pow_pos (by decide))) ?_
        rw [← Nat.pow_add]
        exact Nat.pow_le_pow_right (by decide) (by omega)
      exact Nat.lt_trans h3 (by decide)
    · exact key hl (Nat.lt_trans hd (by decide)) hc k1 (by show k < 2^30; omega) hr

end Wot
