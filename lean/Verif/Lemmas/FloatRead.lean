import Verif.Lemmas.FloatText
/-
Reading decimal numbers of few digits.
-/
namespace Wot

open FloatText F64

theorem pow10_exact {i : Nat} (h : i ≤ 22) : magUnits (pow10 i) = 10^i * 2^1074 := by
  have : ∀ i : Fin 23, magUnits (pow10 i) = 10^i.val * 2^1074 := by decide +kernel
  exact this ⟨i, by omega⟩

theorem mul_swap (n t e s : Nat) : n * t * (e * s) = n * e * t * s := by ac_rfl

/-- What is not too large is finite. -/
theorem Rounds.finite {n d m : Nat} (h : Rounds n d m) (hn : n < 2^53 * 10^22 * 2^1074 * d) : m < infMag := by
  by_cases hm : m < infMag
  · exact hm
  · have h1 : magUnits (infMag - 1) * d ≤ magUnits m * d := Nat.mul_le_mul_right d (magUnits_le_iff.2 (by omega))
    have h2 := h.low
    have h3 : 2 * 2^53 * 10^22 * 2^1074 < magUnits (infMag - 1) := by decide +kernel
    have h4 : 2 * (2^53 * 10^22 * 2^1074 * d) ≤ magUnits (infMag - 1) * d := by
      rw [← Nat.mul_assoc]
      refine Nat.mul_le_mul_right d (Nat.le_of_lt ?_)
      rw [← Nat.mul_assoc, ← Nat.mul_assoc]
      exact h3
    rw [Nat.add_mul] at h2
    omega

theorem fromParts_small {n : Nat} {e : Int} (fuel : Nat) (hn : n < 2^53) (h1 : -22 ≤ e) (h2 : e ≤ 22) :
    fromParts fuel (roundMag n) e = some (roundQ (n * 10^e.toNat * 2^1074) (10^(-e).toNat)) ∧
      roundQ (n * 10^e.toNat * 2^1074) (10^(-e).toNat) < infMag := by
  have ht : 0 < 2^1074 := Nat.two_pow_pos _
  have hd : 0 < 10^(-e).toNat := Nat.pow_pos (by decide)
  have hlt : roundQ (n * 10^e.toNat * 2^1074) (10^(-e).toNat) < infMag := by
    refine (roundQ_rounds _ hd).finite ?_
    have a : n * 10^e.toNat < 2^53 * 10^22 :=
      Nat.lt_of_lt_of_le (Nat.mul_lt_mul_of_pos_right hn (Nat.pow_pos (by decide)))
        (Nat.mul_le_mul_left _ (Nat.pow_le_pow_right (by decide) (by omega)))
    exact Nat.lt_of_lt_of_le (Nat.mul_lt_mul_of_pos_right a ht) (Nat.le_mul_of_pos_right _ hd)
  refine ⟨?_, hlt⟩
  unfold fromParts
  rw [if_pos (by omega)]
  by_cases h0 : 0 ≤ e
  · have hm : mulMag (roundMag n) (pow10 e.natAbs) = roundQ (n * 10^e.toNat * 2^1074) (10^(-e).toNat) := by
      unfold mulMag
      rw [scaled_eq, scaled_eq, roundMag_exact hn, pow10_exact (by omega), show (-e).toNat = 0 by omega,
        show e.natAbs = e.toNat by omega,
        show n * 2^1074 * (10^e.toNat * 2^1074) = n * 10^e.toNat * 2^1074 * 2^1074 from mul_swap _ _ _ _]
      have := roundQ_scale (n * 10^e.toNat * 2^1074) (d := 1) (by decide) ht
      rw [Nat.one_mul] at this
      rw [this]
      rw [show (-e).toNat = 0 by omega] at hlt
      exact Nat.min_eq_left (Nat.le_of_lt hlt)
    rw [if_pos h0, hm, if_neg (by omega)]
  · have hm : divMag (roundMag n) (pow10 e.natAbs) = roundQ (n * 10^e.toNat * 2^1074) (10^(-e).toNat) := by
      unfold divMag
      rw [scaled_eq, scaled_eq, roundMag_exact hn, pow10_exact (by omega), show e.natAbs = (-e).toNat by omega,
        roundQ_scale _ hd ht]
      have : n * 2^1074 = n * 10^e.toNat * 2^1074 := by rw [show e.toNat = 0 by omega, Nat.pow_zero, Nat.mul_one]
      rw [this]
      exact Nat.min_eq_left (Nat.le_of_lt hlt)
    rw [if_neg h0, hm]

/-! ### Digits -/

theorem foldl_ge (cs : List Char) : ∀ n : Nat, n ≤ cs.foldl (fun n c => 10 * n + (c.toNat - 48)) n := by
  induction cs with
  | nil => exact fun n => Nat.le_refl n
  | cons c cs ih => exact fun n => Nat.le_trans (by omega) (ih (10 * n + (c.toNat - 48)))

theorem accumulate_fits (cs : List Char) : ∀ n : Nat, cs.foldl (fun n c => 10 * n + (c.toNat - 48)) n < 2^64 →
    accumulate n cs = (cs.foldl (fun n c => 10 * n + (c.toNat - 48)) n, []) := by
  induction cs with
  | nil => intro n _; rfl
  | cons c cs ih =>
    intro n h
    have h1 := foldl_ge cs (10 * n + (c.toNat - 48))
    have h2 : List.foldl (fun n c => 10 * n + (c.toNat - 48)) n (c :: cs) =
      cs.foldl (fun n c => 10 * n + (c.toNat - 48)) (10 * n + (c.toNat - 48)) := rfl
    rw [h2] at h ⊢
    unfold accumulate
    rw [if_neg (by omega), Nat.mul_comm n 10]
    exact ih _ h

/-- The sign of a text. -/
def signText (b : Bool) : List Char := if b then ['-'] else []

theorem make_facts (b : Bool) {m : Nat} (h : m < infMag) : (make b m).mag = m ∧ (make b m).neg = b := by
  have := infMag_lt
  have hm : min m infMag = m := Nat.min_eq_left (Nat.le_of_lt h)
  unfold make F64.mag F64.neg F64.ofBits
  cases b <;> simp only [hm, Bool.false_eq_true, if_false, if_true, decide_eq_false_iff_not, decide_eq_true_eq]
  · constructor
    · show m % 2^63 = m
      exact Nat.mod_eq_of_lt (by omega)
    · show ¬ (2^63 ≤ m)
      omega
  · constructor
    · show (2^63 + m) % 2^63 = m
      omega
    · show 2^63 ≤ 2^63 + m
      omega

theorem readParts_eq {mag : List Char → List Char → List Char → Option Nat} (b : Bool) {ds fr ex : List Char} (hi : IsInteger ds)
    (hf : IsFraction fr) (he : IsExponent ex) :
    readParts mag (signText b ++ ds ++ fr ++ ex) = (mag ds (fr.drop 1) ex).map (make b) := by
  have hd := isDigits_iff.1 hi.1
  have hs : Stop ([] : List Char) := by intro c hc; cases hc
  have h1 := scanExponent_append he hs
  have hx := exponent_head he hs
  rw [List.append_nil] at h1 hx
  have h2 := scanFraction_append hf (rest := ex) hx.1 hx.2
  have h3 := scanDigits_append hd.2 (fraction_head hf hx.1)
  have h4 : readParts mag (signText b ++ ds ++ fr ++ ex) =
      (scanFraction (scanDigits (ds ++ (fr ++ ex))).2).bind fun p =>
        (scanExponent p.2).bind fun q =>
          (mag (scanDigits (ds ++ (fr ++ ex))).1 (p.1.drop 1) q.1).map (make b) := by
    cases b with
    | false =>
      obtain ⟨c, cs, rfl⟩ := List.exists_cons_of_ne_nil hd.1
      have hc : c ≠ '-' := by
        intro e
        have := hd.2 c (List.mem_cons_self ..)
        rw [e] at this
        exact absurd this (by decide)
      have : ((signText false ++ c :: cs ++ fr ++ ex).head? == some '-') = false := by
        simp [signText, hc]
      unfold readParts
      rw [this]
      simp only [signText, Bool.false_eq_true, if_false, List.nil_append, List.append_assoc]
    | true =>
      unfold readParts
      simp [signText]
  rw [h4, h3, h2]
  simp only [Option.bind_some]
  rw [h1]
  rfl

theorem foldl_eq (cs : List Char) : cs.foldl (fun n c => 10 * n + (c.toNat - 48)) 0 = digitsValue cs := rfl

theorem withExponent_parts {n : Nat} {start z : Int} {ex : List Char} (he : ExponentDenotes ex z)
    (hz : z.natAbs < 2^31) (h1 : (start + z).natAbs < 2^31) :
    withExponent n start ex = fromParts (start + z).natAbs (roundMag n) (start + z) := by
  have sat : saturate (start + z) = start + z := by
    unfold saturate
    rw [if_neg (by omega), if_neg (by omega)]
  cases he with
  | none => rw [Int.add_zero] at *; rfl
  | @plus e sign ds k hee hsi hd hv =>
    have hk : digitsValue ds = k := denote_value hv
    have hne := isDigits_iff.1 hd
    have hs : scanSign (sign ++ ds) = (sign, ds) ∧ sign ≠ ['-'] := by
      simp only [List.mem_cons, List.not_mem_nil, or_false] at hsi
      rcases hsi with rfl | rfl
      · obtain ⟨c, cs, rfl⟩ := List.exists_cons_of_ne_nil hne.1
        have hc := hne.2 c (List.mem_cons_self ..)
        refine ⟨?_, by decide⟩
        rw [List.nil_append]
        unfold scanSign
        split
        · next h => cases h; exact absurd hc (by decide)
        · next h => cases h; exact absurd hc (by decide)
        · rfl
      · exact ⟨rfl, by decide⟩
    show withExponent n start (e :: (sign ++ ds)) = _
    simp only [withExponent, hs.1, hk]
    rw [if_neg (by omega), if_neg hs.2, sat]
  | @minus e ds k hee hd hv =>
    have hk : digitsValue ds = k := denote_value hv
    simp only [withExponent, scanSign, hk]
    rw [if_neg (by omega), if_pos trivial, Int.sub_eq_add_neg, sat]

theorem magnitude_parts {n : Nat} {z : Int} {ds fs ex : List Char} (hn : n < 2^64) (hd : DigitsDenote (ds ++ fs) n)
    (he : ExponentDenotes ex z) (hz : z.natAbs < 2^31) (h1 : (z - fs.length).natAbs < 2^31) :
    magnitude ds fs ex = fromParts (z - fs.length).natAbs (roundMag n) (z - fs.length) := by
  have hv := denote_value hd
  unfold digitsValue at hv
  rw [List.foldl_append, foldl_eq] at hv
  have hge := foldl_ge fs (digitsValue ds)
  have a1 := accumulate_fits ds 0 (by rw [foldl_eq]; omega)
  have a2 := accumulate_fits fs (digitsValue ds) (by omega)
  rw [foldl_eq] at a1
  rw [hv] at a2
  unfold magnitude
  rw [a1]
  simp only [a2, List.length_nil]
  have e : ((0 : Nat) : Int) - ((fs.length : Int) - ((0 : Nat) : Int)) + z = z - fs.length := by omega
  have := withExponent_parts (n := n) (start := ((0 : Nat) : Int) - ((fs.length : Int) - ((0 : Nat) : Int))) he hz (by omega)
  rw [e] at this
  exact this

theorem ExponentDenotes.isExponent {ex : List Char} {z : Int} (h : ExponentDenotes ex z) : IsExponent ex := by
  cases h with
  | none => exact .inl rfl
  | @plus e sign ds k hee hsi hd hv =>
    refine .inr ⟨e, sign, ds, rfl, hee, ?_, hd⟩
    simp only [List.mem_cons, List.not_mem_nil, or_false] at hsi ⊢
    rcases hsi with h | h <;> simp [h]
  | @minus e ds k hee hd hv => exact .inr ⟨e, ['-'], ds, rfl, hee, by simp, hd⟩

/-- The parts of the text of a decimal number. -/
theorem DecimalText.parts {D : Decimal} {cs : List Char} (h : DecimalText D cs) : ∃ ds fr ex z, cs = ds ++ fr ++ ex ∧
    IsInteger ds ∧ IsFraction fr ∧ ExponentDenotes ex z ∧ DigitsDenote (ds ++ fr.drop 1) D.digits ∧
    D.exponent = z - (fr.drop 1).length := by
  cases h with
  | @whole ds ex n z hi hd he => exact ⟨ds, [], ex, z, by simp, hi, .inl rfl, he, by simpa using hd, by simp⟩
  | @point ds fs ex n z hi hf hd he =>
    exact ⟨ds, '.' :: fs, ex, z, by simp, hi, .inr ⟨fs, rfl, hf⟩, he, by simpa using hd, by simp⟩

/-- The text of a number whose digits fit into a `u64`. -/
theorem readFloat_parts (b : Bool) {D : Decimal} {cs : List Char} (h : DecimalText D cs) (hl : cs.length < 2^30)
    (hn : D.digits < 2^64) (h1 : D.exponent.natAbs < 2^30) :
    readFloat (signText b ++ cs) = (fromParts D.exponent.natAbs (roundMag D.digits) D.exponent).map (make b) := by
  obtain ⟨ds, fr, ex, z, rfl, hi, hf, he, hd, hx⟩ := h.parts
  have hlen : (fr.drop 1).length ≤ fr.length := by rw [List.length_drop]; omega
  simp only [List.length_append] at hl
  have := magnitude_parts hn hd he (by omega) (by omega)
  rw [← hx] at this
  rw [show signText b ++ (ds ++ fr ++ ex) = signText b ++ ds ++ fr ++ ex by simp [List.append_assoc],
    show readFloat _ = readParts magnitude _ from rfl, readParts_eq b hi hf he.isExponent, this]

/-- Numbers of few digits are read without error. -/
theorem readFloat_small (b : Bool) {D : Decimal} {cs : List Char} (h : DecimalText D cs) (hl : cs.length < 2^30)
    (hn : D.digits < 2^53) (h1 : -22 ≤ D.exponent) (h2 : D.exponent ≤ 22) :
    readFloat (signText b ++ cs) = some (make b (roundQ D.num D.den)) ∧ roundQ D.num D.den < infMag := by
  rw [readFloat_parts b h hl (by omega) (by omega)]
  have := fromParts_small (e := D.exponent) D.exponent.natAbs hn h1 h2
  rw [this.1]
  exact ⟨rfl, this.2⟩

end Wot
