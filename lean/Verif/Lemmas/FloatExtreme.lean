import Verif.Lemmas.FloatBack
/-
Texts of numbers that are zero, too large or too small.
-/
namespace Wot

open FloatText F64

theorem roundQ_zero {d : Nat} (hd : 0 < d) : roundQ 0 d = 0 :=
  (roundQ_iff hd).2 ⟨by rw [magUnits_zero]; simp, by omega, fun h => by omega⟩

/-- Half a unit and less is rounded to zero. -/
theorem roundQ_tiny {n d : Nat} (hd : 0 < d) (h : 2 * n ≤ d) : roundQ n d = 0 := by
  refine (roundQ_iff hd).2 ⟨by rw [magUnits_zero]; simp, ?_, fun h => by omega⟩
  rw [magUnits_zero, magUnits_small (by decide)]
  omega

theorem roundMag_zero : roundMag 0 = 0 := by decide

theorem mulMag_zero (b : Nat) : mulMag 0 b = 0 := by
  unfold mulMag
  rw [scaled_eq, magUnits_zero, Nat.zero_mul, roundQ_zero (Nat.two_pow_pos _)]
  rfl

theorem divMag_zero {b : Nat} (hb : 0 < b) : divMag 0 b = 0 := by
  unfold divMag
  have : 0 < magUnits b := by have := magUnits_lt hb; omega
  rw [scaled_eq, scaled_eq, magUnits_zero, Nat.zero_mul, roundQ_zero this]
  rfl

theorem pow10_pos {i : Nat} (h : i ≤ 308) : 0 < pow10 i := by
  by_cases h0 : 1 ≤ i
  · have := pow10_ge h0 h
    by_cases hz : pow10 i = 0
    · rw [hz, magUnits_zero] at this
      have := Nat.two_pow_pos 1074
      omega
    · omega
  · rw [show i = 0 by omega]; decide +kernel

theorem fromParts_zero (fuel : Nat) (e : Int) : fromParts fuel 0 e = some 0 := by
  unfold fromParts
  split
  · next h =>
    rw [mulMag_zero, divMag_zero (pow10_pos h)]
    split
    · rw [if_neg (by decide)]
    · rfl
  · rw [if_pos rfl]

theorem fromParts_large {fuel f : Nat} {e : Int} (hf : f ≠ 0) (he : 309 ≤ e) : fromParts fuel f e = none := by
  unfold fromParts
  rw [if_neg (by omega), if_neg hf, if_pos (by omega)]

theorem tiny_core {g b t p N : Nat} (hp : 0 < p) (h1 : g * p ≤ 2 * (N * t)) (hN : N ≤ 2^65 * t) (hb : 10^92 * t ≤ b)
    (hk : 2^67 * t * t * t ≤ 10^92 * t * p) : 2 * (g * t) ≤ b := by
  refine Nat.le_of_mul_le_mul_right ?_ hp
  calc 2 * (g * t) * p = 2 * (g * p) * t := by ac_rfl
    _ ≤ 2 * (2 * (N * t)) * t := Nat.mul_le_mul_right _ (Nat.mul_le_mul_left _ h1)
    _ ≤ 2 * (2 * (2^65 * t * t)) * t := Nat.mul_le_mul_right _ (Nat.mul_le_mul_left _ (Nat.mul_le_mul_left _ (Nat.mul_le_mul_right _ hN)))
    _ = 2^67 * t * t * t := by
      rw [← Nat.mul_assoc, ← Nat.mul_assoc, ← Nat.mul_assoc]
    _ ≤ 10^92 * t * p := hk
    _ ≤ b * p := Nat.mul_le_mul_right _ hb

theorem near_low {a n t P Q : Nat} (h : n * t * P ≤ a * Q) (hQ : Q ≤ 2 * P) (hP : 0 < P) : n * t ≤ 2 * a := by
  refine Nat.le_of_mul_le_mul_right ?_ hP
  calc n * t * P ≤ a * Q := h
    _ ≤ a * (2 * P) := Nat.mul_le_mul_left _ hQ
    _ = 2 * a * P := by ac_rfl

theorem pow10_large {j : Nat} (h : 93 ≤ j) : 10^92 * 2^1074 ≤ magUnits (pow10 j) := by
  have h1 := near_low (P := 2^53) (Q := 2^53 + 1) (pow10_near (i := j)).2 (by decide) (by decide)
  have h2 : 10^93 ≤ 10^j := Nat.pow_le_pow_right (by decide) h
  have h3 := Nat.mul_le_mul_right (2^1074) h2
  have h4 : 10^93 = 10 * 10^92 := by decide
  rw [h4, Nat.mul_assoc] at h3
  generalize 10^j * 2^1074 = A at *
  generalize 10^92 * 2^1074 = B at *
  omega

theorem roundMag_le {n : Nat} (hn : n < 2^64) : magUnits (roundMag n) ≤ 2^65 * 2^1074 := by
  have h1 := near_low (n := 1) (t := magUnits (roundMag n)) (a := n * 2^1074) (P := 2^53) (Q := 2^53 + 1)
    (by rw [Nat.one_mul]; exact (roundMag_near n).1) (by decide) (by decide)
  rw [Nat.one_mul] at h1
  refine Nat.le_trans h1 ?_
  rw [← Nat.mul_assoc]
  exact Nat.mul_le_mul_right _ (by omega)

theorem fromParts_tiny {n fuel : Nat} {e : Int} (hn : n < 2^64) (he : e < -400) (hfuel : e.natAbs ≤ fuel) :
    fromParts fuel (roundMag n) e = some 0 := by
  have hr := roundMag_lt hn
  have hle := roundMag_le hn
  generalize roundMag n = f at *
  by_cases hf : f = 0
  · rw [hf]; exact fromParts_zero _ _
  · obtain ⟨fuel, rfl⟩ : ∃ k, fuel = k + 1 + 1 := ⟨fuel - 2, by omega⟩
    obtain ⟨g1, g2⟩ := divMag_eq (b := top) hr (pow10_ge (i := 308) (by decide) (by decide))
    have hg := ((roundQ_iff top_facts.1).1 g1.symm).low
    have hk : 2^67 * 2^1074 * 2^1074 * 2^1074 ≤ 10^92 * 2^1074 * magUnits top := by decide +kernel
    have key : ∀ j, 93 ≤ j → j ≤ 308 → divMag (divMag f top) (pow10 j) = 0 := by
      intro j h1 h2
      obtain ⟨y1, -⟩ := divMag_eq (b := pow10 j) g2 (pow10_ge (by omega) h2)
      rw [y1]
      have hp := magUnits_lt (pow10_pos h2)
      have hg2 : magUnits (divMag f top) * magUnits top ≤ 2 * (magUnits f * 2^1074) :=
        Nat.le_trans (Nat.mul_le_mul_right (magUnits top) (Nat.le_add_left (magUnits (divMag f top)) (magUnits (divMag f top - 1)))) hg
      have hb := pow10_large h1
      have hp1 := top_facts.1
      clear g1 y1 hg
      generalize 2^1074 = t at *
      generalize divMag f top = g at *
      generalize magUnits top = p at *
      exact roundQ_tiny (by omega) (tiny_core hp1 hg2 hle hb hk)
    unfold fromParts
    rw [if_neg (by omega), if_neg hf, if_neg (by omega)]
    show fromParts (fuel + 1) (divMag f top) (e + 308) = some 0
    by_cases h308 : (e + 308).natAbs ≤ 308
    · unfold fromParts
      rw [if_pos h308, if_neg (by omega), key _ (by omega) h308]
    · by_cases hz : divMag f top = 0
      · rw [hz]; exact fromParts_zero _ _
      · unfold fromParts
        rw [if_neg h308, if_neg hz, if_neg (by omega)]
        show fromParts fuel (divMag (divMag f top) (pow10 308)) _ = some 0
        rw [key 308 (by decide) (by decide)]
        exact fromParts_zero _ _

/-- Exponents of any size. -/
theorem withExponent_any {n : Nat} {start z : Int} {ex : List Char} (he : ExponentDenotes ex z) (hs : start.natAbs < 2^30) :
    (z.natAbs < 2^31 → withExponent n start ex = fromParts (saturate (start + z)).natAbs (roundMag n) (saturate (start + z))) ∧
    (2^31 ≤ z → withExponent n start ex = if n = 0 then some 0 else none) ∧
    (z ≤ -2^31 → withExponent n start ex = some 0) := by
  cases he with
  | none =>
    refine ⟨fun _ => ?_, fun h => by omega, fun h => by omega⟩
    have : saturate (start + 0) = start := by
      unfold saturate
      rw [if_neg (by omega), if_neg (by omega)]
      omega
    rw [this]
    rfl
  | @plus e sign ds k hee hsi hd hv =>
    have hk : digitsValue ds = k := denote_value hv
    have hne := isDigits_iff.1 hd
    have hs : scanSign (sign ++ ds) = (sign, ds) ∧ sign ≠ ['-'] := by
      simp only [List.mem_cons, List.not_mem_nil, or_false] at hsi
      rcases hsi with rfl | rfl
      · obtain ⟨c, cs, rfl⟩ := List.exists_cons_of_ne_nil hne.1
        have hc := hne.2 c (List.mem_cons_self ..)
        refine ⟨?_, by decide⟩
        rw [List.nil_append]
        unfold scanSign
        split
        · next h => cases h; exact absurd hc (by decide)
        · next h => cases h; exact absurd hc (by decide)
        · rfl
      · exact ⟨rfl, by decide⟩
    have hw : withExponent n start (e :: (sign ++ ds)) =
        if 2^31 ≤ k then if n ≠ 0 ∧ sign ≠ ['-'] then none else some 0
        else fromParts (saturate (start + k)).natAbs (roundMag n) (saturate (start + k)) := by
      simp only [withExponent, hs.1, hk]
      rw [if_neg hs.2]
    show (_ → withExponent n start (e :: (sign ++ ds)) = _) ∧ (_ → withExponent n start (e :: (sign ++ ds)) = _) ∧
      (_ → withExponent n start (e :: (sign ++ ds)) = _)
    rw [hw]
    refine ⟨fun h => by rw [if_neg (by omega)], fun h => ?_, fun h => by omega⟩
    rw [if_pos (by omega)]
    by_cases hn : n = 0
    · rw [if_neg (fun h => h.1 hn), if_pos hn]
    · rw [if_pos ⟨hn, hs.2⟩, if_neg hn]
  | @minus e ds k hee hd hv =>
    have hk : digitsValue ds = k := denote_value hv
    have hw : withExponent n start (e :: '-' :: ds) =
        if 2^31 ≤ k then some 0 else fromParts (saturate (start + -(k : Int))).natAbs (roundMag n) (saturate (start + -(k : Int))) := by
      simp only [withExponent, scanSign, hk]
      rw [if_pos trivial, Int.sub_eq_add_neg]
      split
      · rw [if_neg (fun h => h.2 rfl)]
      · rfl
    rw [hw]
    refine ⟨fun h => by rw [if_neg (by omega)], fun h => by omega, fun h => by rw [if_pos (by omega)]⟩

theorem magnitude_any {n : Nat} {ds fs ex : List Char} (hn : n < 2^64) (hd : DigitsDenote (ds ++ fs) n) :
    magnitude ds fs ex = withExponent n (-(fs.length : Int)) ex := by
  have hv := denote_value hd
  unfold digitsValue at hv
  rw [List.foldl_append, foldl_eq] at hv
  have hge := foldl_ge fs (digitsValue ds)
  have a1 := accumulate_fits ds 0 (by rw [foldl_eq]; omega)
  have a2 := accumulate_fits fs (digitsValue ds) (by omega)
  rw [foldl_eq] at a1
  rw [hv] at a2
  unfold magnitude
  rw [a1]
  simp only [a2, List.length_nil]
  congr 1
  omega

/-- What is read from a number that is zero, too large or too small. -/
theorem readFloat_extreme (b : Bool) {D : Decimal} {cs : List Char} (h : DecimalText D cs) (hl : cs.length < 2^30)
    (hn : D.digits < 2^64) :
    (D.digits = 0 ∨ D.exponent < -400 → readFloat (signText b ++ cs) = some (make b 0)) ∧
    (D.digits ≠ 0 → 309 ≤ D.exponent → readFloat (signText b ++ cs) = none) := by
  obtain ⟨ds, fr, ex, z, rfl, hi, hf, he, hd, hx⟩ := h.parts
  have hlen : (fr.drop 1).length ≤ fr.length := by rw [List.length_drop]; omega
  simp only [List.length_append] at hl
  have hm := magnitude_any (ex := ex) hn hd
  obtain ⟨w1, w2, w3⟩ := withExponent_any (n := D.digits) (start := -((fr.drop 1).length : Int)) he (by omega)
  have hr : readFloat (signText b ++ (ds ++ fr ++ ex)) = (withExponent D.digits (-((fr.drop 1).length : Int)) ex).map (make b) := by
    rw [show signText b ++ (ds ++ fr ++ ex) = signText b ++ ds ++ fr ++ ex by simp [List.append_assoc],
      show readFloat _ = readParts magnitude _ from rfl, readParts_eq b hi hf he.isExponent, hm]
  rw [hr]
  have hcase : z.natAbs < 2^31 ∨ 2^31 ≤ z ∨ z ≤ -2^31 := by omega
  constructor
  · intro h0
    have : withExponent D.digits (-((fr.drop 1).length : Int)) ex = some 0 := by
      rcases hcase with hz | hz | hz
      · rw [w1 hz]
        rcases h0 with h0 | h0
        · rw [h0, roundMag_zero]; exact fromParts_zero _ _
        · refine fromParts_tiny hn ?_ (Nat.le_refl _)
          unfold saturate
          repeat' split
          all_goals omega
      · rw [w2 hz, if_pos (h0.resolve_right (by omega))]
      · exact w3 hz
    rw [this]; rfl
  · intro h0 h1
    have : withExponent D.digits (-((fr.drop 1).length : Int)) ex = none := by
      rcases hcase with hz | hz | hz
      · rw [w1 hz]
        refine fromParts_large ?_ ?_
        · intro hz
          have := (roundMag_near D.digits).2
          rw [hz, magUnits_zero, Nat.zero_mul] at this
          have := Nat.mul_pos (Nat.mul_pos (Nat.pos_of_ne_zero h0) (Nat.two_pow_pos 1074)) (Nat.two_pow_pos 53)
          omega
        · unfold saturate
          repeat' split
          all_goals omega
      · rw [w2 hz, if_neg h0]
      · omega
    rw [this]; rfl

end Wot
