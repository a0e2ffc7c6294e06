import Verif.Model.Serde
import Verif.Lemmas.Float
/-
Integers are cast to the nearest floating point number.
-/
namespace Wot

/-- The value of a pattern given by exponent and fraction; the fraction may have overflown. -/
theorem magUnits_pattern {e f : Nat} (he : 0 < e) (hf : f ≤ 2^52) :
    magUnits (e * 2^52 + f) = (2^52 + f) * 2^(e - 1) := by
  unfold magUnits
  have hp : 0 < 2^52 := by decide
  generalize 2^52 = P at *
  by_cases h : f = P
  · subst h
    have h1 : (e * f + f) / f = e + 1 := by
      rw [show e * f + f = (e + 1) * f by rw [Nat.add_mul, Nat.one_mul], Nat.mul_div_cancel _ hp]
    have h2 : (e * f + f) % f = 0 := by
      rw [show e * f + f = (e + 1) * f by rw [Nat.add_mul, Nat.one_mul], Nat.mul_mod_left]
    rw [h1, h2, if_neg (Nat.succ_ne_zero e), Nat.add_sub_cancel, Nat.add_zero]
    obtain ⟨k, rfl⟩ := Nat.exists_eq_succ_of_ne_zero (Nat.pos_iff_ne_zero.1 he)
    rw [Nat.succ_sub_one, Nat.pow_succ, ← Nat.two_mul, Nat.mul_comm 2 f, Nat.mul_assoc, Nat.mul_comm 2]
  · have hf : f < P := by omega
    have h1 : (e * P + f) / P = e := by
      rw [Nat.mul_comm, Nat.mul_add_div hp, Nat.div_eq_of_lt hf, Nat.add_zero]
    have h2 : (e * P + f) % P = f := by
      rw [Nat.mul_comm, Nat.mul_add_mod, Nat.mod_eq_of_lt hf]
    rw [h1, h2, if_neg (by omega)]

theorem pattern_step {P q E : Nat} (hP : P % 2 = 0) (hq : P ≤ q) :
    E * P + (q + 1 - P) = E * P + (q - P) + 1 ∧ (E * P + (q - P)) % 2 = q % 2 := by
  have : E * P % 2 = 0 := by rw [Nat.mul_mod, hP]; simp
  omega

/-- `m` is the pattern nearest to the value `N`. -/
def RoundTo (N m : Nat) : Prop :=
  ∃ lo hi, (lo = hi ∨ hi = lo + 1) ∧ magUnits lo ≤ N ∧ N ≤ magUnits hi ∧ (m = lo ∨ m = hi) ∧
    (m = lo → N - magUnits lo ≤ magUnits hi - N) ∧
    (m = hi → magUnits hi - N ≤ N - magUnits lo) ∧
    (lo ≠ hi → N - magUnits lo = magUnits hi - N → m % 2 = 0)

theorem RoundTo.exact {N m : Nat} (h : magUnits m = N) : RoundTo N m :=
  ⟨m, m, .inl rfl, Nat.le_of_eq h, Nat.le_of_eq h.symm, .inl rfl, fun _ => by omega, fun _ => by omega,
    fun h => absurd rfl h⟩

theorem magUnits_zero_mul (T : Nat) : magUnits 0 = 0 * T := by rw [magUnits_zero, Nat.zero_mul]

section
variable {lo n S T : Nat} (hs : 0 < S) (hT : 0 < T) (hlo : magUnits lo = n / S * S * T)
  (hhi : magUnits (lo + 1) = (n / S + 1) * S * T) (hpar : lo % 2 = n / S % 2)
include hs hT hlo hhi

theorem round_facts : ∃ A B D, 2^0 ≤ A ∧ magUnits lo = D ∧ magUnits (lo + 1) = D + A ∧ n * T = D + B ∧ B ≤ A ∧
    (S < 2 * (n % S) ↔ A < 2 * B) ∧ (2 * (n % S) = S ↔ 2 * B = A) := by
  have hn := Nat.div_add_mod n S
  have hr := Nat.mod_lt n hs
  refine ⟨S * T, n % S * T, n / S * S * T, Nat.mul_pos hs hT, hlo, ?_, ?_,
    Nat.mul_le_mul_right _ (Nat.le_of_lt hr), ?_, ?_⟩
  · rw [hhi, Nat.add_mul, Nat.one_mul, Nat.add_mul]
  · rw [← Nat.add_mul, Nat.mul_comm (n / S), hn]
  · rw [← Nat.mul_assoc]; exact (Nat.mul_lt_mul_right hT).symm
  · rw [← Nat.mul_assoc]; exact (Nat.mul_right_cancel_iff hT).symm

include hpar

theorem round_up (hc : S < 2 * (n % S) ∨ (2 * (n % S) = S ∧ n / S % 2 = 1)) : RoundTo (n * T) (lo + 1) := by
  obtain ⟨A, B, D, h0, h1, h2, h3, h4, h5, h6⟩ := round_facts hs hT hlo hhi
  refine ⟨lo, lo + 1, .inr rfl, by omega, by omega, .inr rfl, by omega, ?_, ?_⟩
  · intro _
    rcases hc with hc | ⟨hc, -⟩
    · have := h5.1 hc; omega
    · have := h6.1 hc; omega
  · intro _ he
    rcases hc with hc | ⟨hc, hodd⟩
    · have := h5.1 hc; omega
    · omega

theorem round_down (hc : ¬ (S < 2 * (n % S) ∨ (2 * (n % S) = S ∧ n / S % 2 = 1))) : RoundTo (n * T) lo := by
  obtain ⟨A, B, D, h0, h1, h2, h3, h4, h5, h6⟩ := round_facts hs hT hlo hhi
  have hc1 : ¬ S < 2 * (n % S) := fun h => hc (.inl h)
  have hc1' := mt h5.2 hc1
  refine ⟨lo, lo + 1, .inr rfl, by omega, by omega, .inl rfl, by omega, by omega, ?_⟩
  intro _ he
  have : 2 * (n % S) = S := h6.2 (by omega)
  have hodd : ¬ n / S % 2 = 1 := fun h => hc (.inr ⟨this, h⟩)
  omega

end

theorem roundMag_spec (n : Nat) : RoundTo (n * 2^1074) (F64.roundMag n) := by
  unfold F64.roundMag
  by_cases h0 : n = 0
  · subst h0
    rw [if_pos rfl]
    exact .exact (magUnits_zero_mul (2^1074))
  rw [if_neg h0]
  have hlo : 2 ^ n.log2 ≤ n := Nat.log2_self_le h0
  have hhi : n < 2 ^ (n.log2 + 1) := Nat.lt_log2_self
  generalize n.log2 = k at *
  by_cases hk : k ≤ 52
  · rw [if_pos hk]
    have h1 : 2^52 ≤ n * 2^(52 - k) := by
      calc 2^52 = 2^k * 2^(52 - k) := by rw [← Nat.pow_add]; congr 1; omega
        _ ≤ _ := Nat.mul_le_mul_right _ hlo
    have h2 : n * 2^(52 - k) ≤ 2^52 + 2^52 := by
      calc n * 2^(52 - k) ≤ 2^(k + 1) * 2^(52 - k) := Nat.mul_le_mul_right _ (Nat.le_of_lt hhi)
        _ = 2^53 := by rw [← Nat.pow_add]; congr 1; omega
        _ = _ := by decide
    have h3 : magUnits ((k + 1023) * 2^52 + (n * 2^(52 - k) - 2^52)) = n * 2^1074 := by
      rw [magUnits_pattern (by omega) (by omega), Nat.add_sub_cancel' h1, Nat.mul_assoc, ← Nat.pow_add,
        show 52 - k + (k + 1023 - 1) = 1074 by omega]
    exact .exact h3
  · rw [if_neg hk]
    obtain ⟨s, rfl⟩ : ∃ s, k = 52 + s := ⟨k - 52, by omega⟩
    simp only [Nat.add_sub_cancel_left]
    have hs : 0 < 2^s := Nat.two_pow_pos s
    have hq1 : 2^52 ≤ n / 2^s := by
      rw [Nat.le_div_iff_mul_le hs, ← Nat.pow_add]; exact hlo
    have hq2 : n / 2^s < 2^53 := by
      rw [Nat.div_lt_iff_lt_mul hs, ← Nat.pow_add]
      rw [show 53 + s = 52 + s + 1 by omega]; exact hhi
    have hn := Nat.div_add_mod n (2^s)
    have hr := Nat.mod_lt n hs
    have hlo' : magUnits ((52 + s + 1023) * 2^52 + (n / 2^s - 2^52)) = n / 2^s * 2^s * 2^1074 := by
      rw [magUnits_pattern (by omega) (by omega), Nat.add_sub_cancel' hq1, Nat.mul_assoc, ← Nat.pow_add,
        show 52 + s + 1023 - 1 = s + 1074 by omega]
    have hhi' : magUnits ((52 + s + 1023) * 2^52 + (n / 2^s + 1 - 2^52)) = (n / 2^s + 1) * 2^s * 2^1074 := by
      rw [magUnits_pattern (by omega) (by omega), Nat.add_sub_cancel' (by omega), Nat.mul_assoc, ← Nat.pow_add,
        show 52 + s + 1023 - 1 = s + 1074 by omega]
    obtain ⟨hsucc, hpar⟩ := pattern_step (P := 2^52) (E := 52 + s + 1023) (by decide) hq1
    rw [hsucc] at hhi'
    by_cases hc : 2^s < 2 * (n % 2^s) ∨ (2 * (n % 2^s) = 2^s ∧ n / 2^s % 2 = 1)
    · rw [if_pos hc, hsucc]
      exact round_up hs (Nat.two_pow_pos 1074) hlo' hhi' hpar hc
    · rw [if_neg hc]
      exact round_down hs (Nat.two_pow_pos 1074) hlo' hhi' hpar hc

theorem RoundTo.nearest {N m : Nat} (h : RoundTo N m) (m' : Nat) :
    ((magUnits m : Int) - N).natAbs ≤ ((magUnits m' : Int) - N).natAbs := by
  obtain ⟨lo, hi, h1, h2, h3, h4, h5, h6, -⟩ := h
  have hm : m' ≤ lo ∨ hi ≤ m' := by omega
  have hm' := hm.imp magUnits_le_iff.2 magUnits_le_iff.2
  rcases h4 with rfl | rfl
  · have := h5 rfl; omega
  · have := h6 rfl; omega

theorem RoundTo.even {N m : Nat} (h : RoundTo N m) {m' : Nat} (hne : m' ≠ m)
    (he : ((magUnits m' : Int) - N).natAbs = ((magUnits m : Int) - N).natAbs) : m % 2 = 0 := by
  obtain ⟨lo, hi, h1, h2, h3, h4, h5, h6, h7⟩ := h
  have hm : m' < lo ∨ m' = lo ∨ m' = hi ∨ hi < m' := by omega
  rcases hm with hm | rfl | rfl | hm
  · have := magUnits_lt hm
    rcases h4 with rfl | rfl
    · have := h5 rfl; omega
    · have := h6 rfl; omega
  · rcases h4 with rfl | rfl
    · exact absurd rfl hne
    · exact h7 hne (by omega)
  · rcases h4 with rfl | rfl
    · exact h7 (Ne.symm hne) (by omega)
    · exact absurd rfl hne
  · have := magUnits_lt hm
    rcases h4 with rfl | rfl
    · have := h5 rfl; omega
    · have := h6 rfl; omega

theorem roundMag_lt {n : Nat} (h : n < 2^64) : F64.roundMag n < F64.infMag := by
  unfold F64.roundMag F64.infMag
  by_cases h0 : n = 0
  · rw [if_pos h0]; decide
  rw [if_neg h0]
  have hlo : 2 ^ n.log2 ≤ n := Nat.log2_self_le h0
  have hhi : n < 2 ^ (n.log2 + 1) := Nat.lt_log2_self
  have hk : n.log2 < 64 := (Nat.pow_lt_pow_iff_right (by decide)).1 (Nat.lt_of_le_of_lt hlo h)
  generalize n.log2 = k at *
  by_cases hk' : k ≤ 52
  · rw [if_pos hk']
    have h2 : n * 2^(52 - k) ≤ 2^53 := by
      calc n * 2^(52 - k) ≤ 2^(k + 1) * 2^(52 - k) := Nat.mul_le_mul_right _ (Nat.le_of_lt hhi)
        _ = 2^53 := by rw [← Nat.pow_add]; congr 1; omega
    omega
  · rw [if_neg hk']
    have hs : 0 < 2^(k - 52) := Nat.two_pow_pos _
    have hq2 : n / 2^(k - 52) < 2^53 := by
      rw [Nat.div_lt_iff_lt_mul hs, ← Nat.pow_add]
      rw [show 53 + (k - 52) = k + 1 by omega]; exact hhi
    simp only
    generalize n / 2^(k - 52) = q at *
    split <;> omega

theorem ofInt_mag {z : Int} (h1 : -2^63 ≤ z) (h2 : z < 2^64) :
    (F64.ofInt z).mag = F64.roundMag z.natAbs ∧ (F64.ofInt z).neg = decide (z < 0) := by
  have hlt := roundMag_lt (n := z.natAbs) (by omega)
  have hm : min (F64.roundMag z.natAbs) F64.infMag = F64.roundMag z.natAbs := Nat.min_eq_left (Nat.le_of_lt hlt)
  unfold F64.ofInt
  have hi : F64.infMag < 2^63 := by decide
  split
  · simp only [F64.ofBits, F64.mag, F64.neg, hm]
    refine ⟨by omega, ?_⟩
    rename_i hz; simp [hz]
  · simp only [F64.ofBits, F64.mag, F64.neg, hm]
    rename_i hz; simp [hz]; omega

theorem ofInt_finite {z : Int} (h1 : -2^63 ≤ z) (h2 : z < 2^64) : (F64.ofInt z).isFinite = true := by
  simp only [F64.isFinite, (ofInt_mag h1 h2).1, decide_eq_true_eq]
  exact roundMag_lt (by omega)

theorem natAbs_mul (z : Int) (T : Nat) : (z < 0 → z * T = -((z.natAbs * T : Nat) : Int)) ∧
    (¬ z < 0 → z * T = ((z.natAbs * T : Nat) : Int)) := by
  refine ⟨fun h => ?_, fun h => ?_⟩
  · have : z = -(z.natAbs : Int) := by omega
    rw [Int.natCast_mul, ← Int.neg_mul, ← this]
  · have : z = (z.natAbs : Int) := by omega
    rw [Int.natCast_mul, ← this]

/-- The distance of any number is at least that of its magnitude. -/
theorem distance_ge (y : F64) (z : Int) :
    ((magUnits y.mag : Int) - (z.natAbs * 2^1074 : Nat)).natAbs ≤ y.distance z := by
  obtain ⟨h1, h2⟩ := natAbs_mul z (2^1074)
  unfold F64.distance F64.units
  rw [show (2^1074 : Int) = ((2^1074 : Nat) : Int) by exact (Int.natCast_pow 2 1074).symm]
  by_cases hz : z < 0
  · rw [h1 hz]
    generalize z.natAbs * 2^1074 = N
    split <;> omega
  · rw [h2 hz]
    generalize z.natAbs * 2^1074 = N
    split <;> omega

theorem distance_eq {y : F64} {z : Int} (h : y.neg = decide (z < 0)) :
    y.distance z = ((magUnits y.mag : Int) - (z.natAbs * 2^1074 : Nat)).natAbs := by
  obtain ⟨h1, h2⟩ := natAbs_mul z (2^1074)
  unfold F64.distance F64.units
  rw [show (2^1074 : Int) = ((2^1074 : Nat) : Int) by exact (Int.natCast_pow 2 1074).symm, h]
  by_cases hz : z < 0
  · rw [h1 hz]
    generalize z.natAbs * 2^1074 = N
    rw [if_pos (by simpa using hz)]; omega
  · rw [h2 hz]
    generalize z.natAbs * 2^1074 = N
    rw [if_neg (by simpa using hz)]

theorem distance_opp {y : F64} {z : Int} (h : y.neg ≠ decide (z < 0)) :
    y.distance z = magUnits y.mag + z.natAbs * 2^1074 := by
  obtain ⟨h1, h2⟩ := natAbs_mul z (2^1074)
  unfold F64.distance F64.units
  rw [show (2^1074 : Int) = ((2^1074 : Nat) : Int) by exact (Int.natCast_pow 2 1074).symm]
  by_cases hz : z < 0
  · rw [h1 hz]
    generalize z.natAbs * 2^1074 = N
    rw [if_neg (by intro h'; exact h (by rw [h']; simp [hz]))]; omega
  · rw [h2 hz]
    generalize z.natAbs * 2^1074 = N
    rw [if_pos (by cases h' : y.neg with
      | true => rfl
      | false => exact absurd (by rw [h']; simp [hz]) h)]; omega

theorem ofInt_nearest {z : Int} (h1 : -2^63 ≤ z) (h2 : z < 2^64) : (F64.ofInt z).Nearest z := by
  obtain ⟨hm, hn⟩ := ofInt_mag h1 h2
  have hr := roundMag_spec z.natAbs
  rw [← hm] at hr
  have hd := distance_eq hn
  refine ⟨ofInt_finite h1 h2, fun y _ => ?_, fun y _ hne he => ?_⟩
  · rw [hd]; exact Nat.le_trans (hr.nearest y.mag) (distance_ge y z)
  · by_cases hs : y.neg = decide (z < 0)
    · refine hr.even (m' := y.mag) ?_ ?_
      · intro hmm; apply hne; unfold F64.units; rw [hs, hn, hmm]
      · rw [← distance_eq hs, ← hd, he]
    · have ho := distance_opp hs
      have h0 := hr.nearest 0
      rw [magUnits_zero, ← hd] at h0
      rw [he] at ho
      have hy : magUnits y.mag = 0 := by omega
      refine hr.even (m' := 0) ?_ ?_
      · intro hmm
        apply hne
        unfold F64.units
        rw [hy, ← hmm, magUnits_zero]
        split <;> split <;> rfl
      · rw [magUnits_zero, ← hd, ho, hy]; omega

theorem F64.Nearest.exact {x y : F64} {z : Int} (h : x.Nearest z) (hy : y.isFinite = true)
    (he : y.units = z * 2^1074) : x.units = z * 2^1074 := by
  have := h.nearest y hy
  unfold F64.distance at this
  rw [he] at this
  omega

theorem magUnits_inj {m n : Nat} (h : magUnits m = magUnits n) : m = n :=
  Nat.le_antisymm (magUnits_le_iff.1 (Nat.le_of_eq h)) (magUnits_le_iff.1 (Nat.le_of_eq h.symm))

/-- A number with a given sign and magnitude. -/
theorem exists_f64 (b : Bool) {m : Nat} (h : m < 2^63) : ∃ x : F64, x.mag = m ∧ x.neg = b := by
  cases b with
  | true =>
    refine ⟨.ofBits (2^63 + m) (by omega), ?_⟩
    simp only [F64.ofBits, F64.mag, F64.neg]
    exact ⟨by omega, by simp⟩
  | false =>
    refine ⟨.ofBits m (by omega), ?_⟩
    simp only [F64.ofBits, F64.mag, F64.neg]
    exact ⟨by omega, decide_eq_false (by omega)⟩

theorem f64_ext {x y : F64} (hm : x.mag = y.mag) (hn : x.neg = y.neg) : x = y := by
  obtain ⟨⟨a, ha⟩⟩ := x
  obtain ⟨⟨b, hb⟩⟩ := y
  simp only [F64.mag, F64.neg, decide_eq_decide] at hm hn
  have : a = b := by omega
  subst this; rfl

/-- There is one number nearest to an integer. -/
theorem F64.Nearest.unique {x y : F64} {z : Int} (hx : x.Nearest z) (hy : y.Nearest z)
    (hxn : x.neg = decide (z < 0)) (hyn : y.neg = decide (z < 0)) : x = y := by
  refine f64_ext ?_ (hxn.trans hyn.symm)
  have hd : x.distance z = y.distance z := Nat.le_antisymm (hx.nearest y hy.finite) (hy.nearest x hx.finite)
  refine Classical.byContradiction fun hne => ?_
  have hu : y.units ≠ x.units := by
    intro h
    unfold F64.units at h
    rw [hxn, hyn] at h
    split at h <;> exact hne (magUnits_inj (by omega))
  have h1 := hx.even y hy.finite hu hd.symm
  have h2 := hy.even x hx.finite (Ne.symm hu) hd
  have key : ∀ x y : F64, x.Nearest z → y.isFinite = true → x.neg = decide (z < 0) → y.neg = decide (z < 0) →
      x.distance z = y.distance z → x.mag % 2 = 0 → y.mag % 2 = 0 → ¬ x.mag < y.mag := by
    intro x y hx hy hxn hyn hd h1 h2 hlt
    have hf : y.mag < F64.infMag := by simpa [F64.isFinite] using hy
    obtain ⟨w, hw, hwn⟩ := exists_f64 (decide (z < 0)) (m := x.mag + 1)
      (by have : F64.infMag < 2^63 := by decide
          omega)
    have hwf : w.isFinite = true := by
      rw [F64.isFinite, hw, decide_eq_true_eq]; omega
    have hw2 := hx.nearest w hwf
    rw [distance_eq hwn, hw] at hw2
    rw [distance_eq hxn] at hw2 hd
    rw [distance_eq hyn] at hd
    have a1 := magUnits_lt (Nat.lt_succ_self x.mag)
    have a2 : magUnits (x.mag + 1) < magUnits y.mag := magUnits_lt (by omega)
    have a1 : magUnits x.mag < magUnits (x.mag + 1) := a1
    generalize z.natAbs * 2^1074 = N at *
    omega
  have k1 := key x y hx hy.finite hxn hyn hd h1 h2
  have k2 := key y x hy hx.finite hyn hxn hd.symm h2 h1
  omega

theorem roundMag_exact {n : Nat} (h : n < 2^53) : magUnits (F64.roundMag n) = n * 2^1074 := by
  unfold F64.roundMag
  by_cases h0 : n = 0
  · rw [if_pos h0, h0]; exact magUnits_zero_mul (2^1074)
  rw [if_neg h0]
  have hlo : 2 ^ n.log2 ≤ n := Nat.log2_self_le h0
  have hhi : n < 2 ^ (n.log2 + 1) := Nat.lt_log2_self
  have hk : n.log2 < 53 := (Nat.pow_lt_pow_iff_right (by decide)).1 (Nat.lt_of_le_of_lt hlo h)
  rw [if_pos (by omega)]
  generalize n.log2 = k at *
  have h1 : 2^52 ≤ n * 2^(52 - k) := by
    calc 2^52 = 2^k * 2^(52 - k) := by rw [← Nat.pow_add]; congr 1; omega
      _ ≤ _ := Nat.mul_le_mul_right _ hlo
  have h2 : n * 2^(52 - k) ≤ 2^52 + 2^52 := by
    calc n * 2^(52 - k) ≤ 2^(k + 1) * 2^(52 - k) := Nat.mul_le_mul_right _ (Nat.le_of_lt hhi)
      _ = 2^53 := by rw [← Nat.pow_add]; congr 1; omega
      _ = _ := by decide
  rw [magUnits_pattern (by omega) (by omega), Nat.add_sub_cancel' h1, Nat.mul_assoc, ← Nat.pow_add,
    show 52 - k + (k + 1023 - 1) = 1074 by omega]

theorem ofInt_exact {z : Int} (h : z.natAbs < 2^53) : (F64.ofInt z).units = z * 2^1074 := by
  obtain ⟨hm, hn⟩ := ofInt_mag (z := z) (by omega) (by omega)
  have hd := distance_eq hn
  rw [hm, roundMag_exact h] at hd
  unfold F64.distance at hd
  omega

end Wot
