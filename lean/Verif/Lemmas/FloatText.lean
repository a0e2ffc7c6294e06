import Verif.Model.FloatText
import Verif.Spec.FloatText
import Verif.Lemmas.Round
import Verif.Lemmas.Shortest
import Verif.Lemmas.JsonNumber
/-
Floats and their texts.
-/
namespace Wot

open FloatText F64

theorem scaled_eq (m : Nat) : scaled m = magUnits m := rfl

/-- The value of small patterns. -/
theorem magUnits_small {q : Nat} (h : q ≤ 2^53) : magUnits q = q := by
  by_cases hq : q < 2^52
  · unfold magUnits
    rw [Nat.div_eq_of_lt hq, if_pos rfl, Nat.mod_eq_of_lt hq]
  · have := magUnits_pattern (e := 1) (f := q - 2^52) (by decide) (by omega)
    rw [show 1 * 2^52 + (q - 2^52) = q by omega] at this
    rw [this]
    omega

/-- The value of a pattern with `s` places dropped. -/
theorem magUnits_shift {s f : Nat} (hs : 0 < s) (h1 : 2^52 ≤ f) (h2 : f ≤ 2^53) : magUnits (s * 2^52 + f) = f * 2^s := by
  have := magUnits_pattern (e := s + 1) (f := f - 2^52) (by omega) (by omega)
  rw [show (s + 1) * 2^52 + (f - 2^52) = s * 2^52 + f by omega, show 2^52 + (f - 2^52) = f by omega, Nat.add_sub_cancel] at this
  exact this

/-- `n / d` lies where it is rounded to `m`. -/
structure Rounds (n d m : Nat) : Prop where
  low : (magUnits (m - 1) + magUnits m) * d ≤ 2 * n
  high : 2 * n ≤ (magUnits m + magUnits (m + 1)) * d
  odd : m % 2 = 1 → (magUnits (m - 1) + magUnits m) * d < 2 * n ∧ 2 * n < (magUnits m + magUnits (m + 1)) * d

theorem rounds_core {n d f S m : Nat} (hd : 0 < d) (hu : magUnits m = f * S) (hu' : magUnits (m + 1) = (f + 1) * S)
    (hpar : m % 2 = f % 2) (h1 : f * S * d ≤ n) (h2 : n < (f + 1) * S * d) :
    Rounds n d (if (2 * f + 1) * S * d < 2 * n ∨ ((2 * f + 1) * S * d = 2 * n ∧ f % 2 = 1) then m + 1 else m) := by
  have hm : (2 * f + 1) * S * d = (magUnits m + magUnits (m + 1)) * d := by
    rw [hu, hu', ← Nat.add_mul]
    congr 2
    omega
  have hsum : ∀ a b, (magUnits a + magUnits b) * d = magUnits a * d + magUnits b * d := fun a b => Nat.add_mul _ _ _
  have hpos := Nat.mul_lt_mul_of_pos_right (magUnits_succ (m + 1)) hd
  have hprev : magUnits (m - 1) * d ≤ magUnits m * d := Nat.mul_le_mul_right _ (magUnits_le_iff.2 (by omega))
  have hprev' : 0 < m → magUnits (m - 1) * d < magUnits m * d := fun h =>
    Nat.mul_lt_mul_of_pos_right (magUnits_lt (by omega)) hd
  rw [hm]
  rw [← hu] at h1
  rw [← hu'] at h2
  rw [hsum]
  split
  · next hc =>
    refine ⟨?_, ?_, fun ho => ⟨?_, ?_⟩⟩ <;> rw [hsum] <;> (try simp only [Nat.add_sub_cancel]) <;> omega
  · next hc =>
    refine ⟨?_, ?_, fun ho => ⟨?_, ?_⟩⟩ <;> rw [hsum] <;> omega

theorem roundQ_rounds (n : Nat) {d : Nat} (hd : 0 < d) : Rounds n d (roundQ n d) := by
  unfold roundQ
  extract_lets q s f
  -- the value of the pattern
  have hq1 : q * d ≤ n := Nat.div_mul_le_self n d
  have hq2 : n < (q + 1) * d := by rw [Nat.mul_comm]; exact Nat.lt_mul_div_succ n hd
  have hv : magUnits (s * 2^52 + f) = f * 2^s ∧ magUnits (s * 2^52 + f + 1) = (f + 1) * 2^s := by
    by_cases h : q < 2^53
    · have hs : s = 0 := by
        show q.log2 - 52 = 0
        by_cases h0 : q = 0
        · rw [h0]; rfl
        · have := (Nat.log2_lt h0).2 h
          omega
      have hf : f = q := by show q / 2^s = q; rw [hs]; exact Nat.div_one q
      rw [hf, hs, Nat.zero_mul, Nat.zero_add, Nat.pow_zero, Nat.mul_one, Nat.mul_one]
      exact ⟨magUnits_small (by omega), magUnits_small (by omega)⟩
    · have h0 : q ≠ 0 := by omega
      have hl : 53 ≤ q.log2 := (Nat.le_log2 h0).2 (by omega)
      have hs : 0 < s := by show 0 < q.log2 - 52; omega
      have hle : 2^(52 + s) ≤ q := by
        have := (Nat.le_log2 h0).1 (Nat.le_refl q.log2)
        rwa [show 52 + s = q.log2 by show 52 + (q.log2 - 52) = q.log2; omega]
      have hlt : q < 2^(53 + s) := by
        have : q < 2^(q.log2 + 1) := Nat.lt_log2_self
        rwa [show 53 + s = q.log2 + 1 by show 53 + (q.log2 - 52) = q.log2 + 1; omega]
      have hf1 : 2^52 ≤ f := by
        show 2^52 ≤ q / 2^s
        rw [Nat.le_div_iff_mul_le (Nat.two_pow_pos s), ← Nat.pow_add]
        exact hle
      have hf2 : f < 2^53 := by
        show q / 2^s < 2^53
        rw [Nat.div_lt_iff_lt_mul (Nat.two_pow_pos s), ← Nat.pow_add]
        exact hlt
      exact ⟨magUnits_shift hs hf1 (by omega), by rw [Nat.add_assoc]; exact magUnits_shift hs (by omega) (by omega)⟩
  have hf1 : f * 2^s ≤ q := Nat.div_mul_le_self q _
  have hf2 : q + 1 ≤ (f + 1) * 2^s := by
    have := Nat.lt_mul_div_succ q (Nat.two_pow_pos s)
    rw [Nat.mul_comm] at this
    exact this
  have hpar : (s * 2^52 + f) % 2 = f % 2 := by omega
  have h1 : f * 2^s * d ≤ n := Nat.le_trans (Nat.mul_le_mul_right d hf1) hq1
  have h2 : n < (f + 1) * 2^s * d := Nat.lt_of_lt_of_le hq2 (Nat.mul_le_mul_right d hf2)
  exact rounds_core hd hv.1 hv.2 hpar h1 h2

theorem Rounds.unique {n d m m' : Nat} (hd : 0 < d) (h : Rounds n d m) (h' : Rounds n d m') : m = m' := by
  have key : ∀ {m m' : Nat}, Rounds n d m → Rounds n d m' → ¬ m < m' := by
    intro m m' h h' hlt
    have h1 : (magUnits m + magUnits (m + 1)) * d ≤ (magUnits (m' - 1) + magUnits m') * d :=
      Nat.mul_le_mul_right d (Nat.add_le_add (magUnits_le_iff.2 (by omega)) (magUnits_le_iff.2 (by omega)))
    have h2 := h.high
    have h3 := h'.low
    by_cases he : m' = m + 1
    · by_cases ho : m % 2 = 1
      · have := h.odd ho; omega
      · have := h'.odd (by omega); omega
    · have : (magUnits m + magUnits (m + 1)) * d < (magUnits (m' - 1) + magUnits m') * d :=
        Nat.mul_lt_mul_of_pos_right (Nat.add_lt_add_of_lt_of_le (magUnits_lt (by omega)) (magUnits_le_iff.2 (by omega))) hd
      omega
  have := key h h'
  have := key h' h
  omega

theorem roundQ_iff {n d m : Nat} (hd : 0 < d) : roundQ n d = m ↔ Rounds n d m :=
  ⟨fun h => h ▸ roundQ_rounds n hd, fun h => (roundQ_rounds n hd).unique hd h⟩

theorem Rounds.scale {n d m : Nat} (c : Nat) (hc : 0 < c) (h : Rounds n d m) : Rounds (n * c) (d * c) m where
  low := by rw [← Nat.mul_assoc, ← Nat.mul_assoc]; exact Nat.mul_le_mul_right c h.low
  high := by rw [← Nat.mul_assoc, ← Nat.mul_assoc]; exact Nat.mul_le_mul_right c h.high
  odd ho := by
    rw [← Nat.mul_assoc, ← Nat.mul_assoc, ← Nat.mul_assoc]
    exact ⟨Nat.mul_lt_mul_of_pos_right (h.odd ho).1 hc, Nat.mul_lt_mul_of_pos_right (h.odd ho).2 hc⟩

theorem roundQ_scale (n : Nat) {d c : Nat} (hd : 0 < d) (hc : 0 < c) : roundQ (n * c) (d * c) = roundQ n d :=
  (roundQ_iff (Nat.mul_pos hd hc)).2 ((roundQ_rounds n hd).scale c hc)

/-- The numerator and denominator of a decimal number in units. -/
def Decimal.num (D : Decimal) : Nat := D.digits * 10^D.exponent.toNat * 2^1074
@[inherit_doc Decimal.num] def Decimal.den (D : Decimal) : Nat := 10^(-D.exponent).toNat

theorem Decimal.den_pos (D : Decimal) : 0 < D.den := Nat.pow_pos (by decide)

theorem infMag_lt : infMag < 2^63 := by decide

theorem mag_nan {y : F64} : y.isNan = false ↔ y.mag ≤ infMag := by
  unfold F64.isNan
  simp

theorem mag_finite {y : F64} : y.isFinite = true ↔ y.mag < infMag := by
  unfold F64.isFinite
  simp

theorem nearest_iff {D : Decimal} {x : F64} : D.Nearest x ↔ x.mag < infMag ∧ Rounds D.num D.den x.mag := by
  have hg : ∀ m, D.gap m = ((magUnits m * D.den : Nat) - (D.num : Nat) : Int).natAbs := fun m => rfl
  have hp := D.den_pos
  have hi := infMag_lt
  have step : ∀ {a b : Nat}, a < b → magUnits a * D.den < magUnits b * D.den := fun h =>
    Nat.mul_lt_mul_of_pos_right (magUnits_lt h) hp
  constructor
  · intro h
    have hf := mag_finite.1 h.finite
    refine ⟨hf, ?_⟩
    obtain ⟨y, hy, -⟩ := exists_f64 false (m := x.mag + 1) (by omega)
    obtain ⟨z, hz, -⟩ := exists_f64 false (m := x.mag - 1) (by omega)
    have hyn : y.isNan = false := mag_nan.2 (by omega)
    have hzn : z.isNan = false := mag_nan.2 (by omega)
    have n1 := h.nearest y hyn
    have n2 := h.nearest z hzn
    have e1 := h.even y hyn (by omega)
    have e2 := h.even z hzn
    rw [hg, hg, hy] at n1 e1
    rw [hg, hg, hz] at n2 e2
    have s1 := step (Nat.lt_succ_self x.mag)
    by_cases h0 : x.mag = 0
    · refine ⟨?_, ?_, fun ho => by omega⟩ <;> rw [Nat.add_mul]
      · rw [h0]; simp [magUnits_zero]
      · generalize D.num = N at *
        simp only [Nat.succ_eq_add_one] at *
        omega
    · have s2 := step (show x.mag - 1 < x.mag by omega)
      have e2 := e2 (by omega)
      simp only [Nat.succ_eq_add_one] at *
      generalize D.num = N at *
      refine ⟨?_, ?_, fun ho => ⟨?_, ?_⟩⟩ <;> rw [Nat.add_mul] <;> omega
  · rintro ⟨hf, hr⟩
    have low := hr.low
    have high := hr.high
    have odd := hr.odd
    rw [Nat.add_mul] at low high odd
    rw [Nat.add_mul] at odd
    have near : ∀ m : Nat, m ≠ x.mag → D.gap x.mag ≤ D.gap m ∧ (D.gap m = D.gap x.mag → x.mag % 2 = 0) := by
      intro m hm
      rw [hg, hg]
      by_cases hlt : m < x.mag
      · have s1 : magUnits m * D.den ≤ magUnits (x.mag - 1) * D.den := Nat.mul_le_mul_right _ (magUnits_le_iff.2 (by omega))
        have s2 := step (show x.mag - 1 < x.mag by omega)
        generalize D.num = N at *
        omega
      · have s1 : magUnits (x.mag + 1) * D.den ≤ magUnits m * D.den := Nat.mul_le_mul_right _ (magUnits_le_iff.2 (by omega))
        have s2 := step (Nat.lt_succ_self x.mag)
        simp only [Nat.succ_eq_add_one] at *
        generalize D.num = N at *
        omega
    refine ⟨mag_finite.2 hf, fun y _ => ?_, fun y _ hne he => (near _ hne).2 he⟩
    by_cases hm : y.mag = x.mag
    · rw [hm]; exact Nat.le_refl _
    · exact (near _ hm).1

end Wot
