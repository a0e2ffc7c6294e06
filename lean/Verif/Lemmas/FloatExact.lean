import Verif.Lemmas.FloatBack
/-
Reading floats with one rounding.
-/
namespace Wot

open FloatText F64

theorem exponentValue_eq {ex : List Char} {z : Int} (he : ExponentDenotes ex z) : exponentValue ex = z := by
  cases he with
  | none => rfl
  | @plus e sign ds k hee hsi hd hv =>
    have hk : digitsValue ds = k := denote_value hv
    have hne := isDigits_iff.1 hd
    have hs : scanSign (sign ++ ds) = (sign, ds) ∧ sign ≠ ['-'] := by
      simp only [List.mem_cons, List.not_mem_nil, or_false] at hsi
      rcases hsi with rfl | rfl
      · obtain ⟨c, cs, rfl⟩ := List.exists_cons_of_ne_nil hne.1
        have hc := hne.2 c (List.mem_cons_self ..)
        refine ⟨?_, by decide⟩
        rw [List.nil_append]
        unfold scanSign
        split
        · next h => cases h; exact absurd hc (by decide)
        · next h => cases h; exact absurd hc (by decide)
        · rfl
      · exact ⟨rfl, by decide⟩
    show exponentValue (e :: (sign ++ ds)) = _
    simp only [exponentValue, hs.1, hk]
    rw [if_neg hs.2]
  | @minus e ds k hee hd hv =>
    have hk : digitsValue ds = k := denote_value hv
    simp only [exponentValue, scanSign, hk]
    rw [if_pos trivial]

/-- With one rounding the nearest float is read, unless it is infinite. -/
theorem exact_read (b : Bool) {D : Decimal} {cs : List Char} (h : DecimalText D cs) :
    serdeJsonExact.read (signText b ++ cs) =
      if infMag ≤ roundQ D.num D.den then none else some (make b (roundQ D.num D.den)) := by
  obtain ⟨ds, fr, ex, z, rfl, hi, hf, he, hd, hx⟩ := h.parts
  show readParts exactMagnitude _ = _
  rw [show signText b ++ (ds ++ fr ++ ex) = signText b ++ ds ++ fr ++ ex by simp [List.append_assoc],
    readParts_eq b hi hf he.isExponent]
  unfold exactMagnitude
  dsimp only
  rw [exponentValue_eq he, denote_value hd, ← hx]
  show Option.map (make b) (if infMag ≤ roundQ D.num D.den then none else some (roundQ D.num D.den)) = _
  split <;> rfl

theorem exact_nearest (b : Bool) {D : Decimal} {cs : List Char} {x : F64} (h : DecimalText D cs) :
    serdeJsonExact.read (signText b ++ cs) = some x ↔ D.Nearest x ∧ x.neg = b := by
  rw [exact_read b h, nearest_iff]
  constructor
  · intro e
    split at e
    · cases e
    · next hlt =>
      have e := Option.some.inj e
      obtain ⟨f1, f2⟩ := make_facts b (Nat.lt_of_not_le hlt)
      rw [← e, f1, f2]
      exact ⟨⟨Nat.lt_of_not_le hlt, roundQ_rounds _ D.den_pos⟩, rfl⟩
  · rintro ⟨⟨hf, hr⟩, hn⟩
    have e := (roundQ_iff D.den_pos).2 hr
    rw [e, if_neg (Nat.not_le.2 hf)]
    obtain ⟨f1, f2⟩ := make_facts b hf
    exact congrArg some (f64_ext f1 (f2.trans hn.symm))

theorem LayoutOf.exact {x : F64} {D : Decimal} {cs : List Char} (h : LayoutOf D cs) (hw : writeFloat x = signText x.neg ++ cs)
    (hf : x.mag < infMag) (hr : Rounds D.num D.den x.mag) : serdeJsonExact.Keeps x := by
  have hread := (exact_nearest x.neg h.text (x := x)).2 ⟨nearest_iff.2 ⟨hf, hr⟩, rfl⟩
  obtain ⟨ds, fr, ex, rfl, h1, h2, h3, h4⟩ := h.parts
  refine ⟨signText x.neg, ds, fr, ex, ?_, ?_, h1, h2, h3, h4, ?_⟩
  · show writeFloat x = _
    rw [hw]
    simp [List.append_assoc]
  · unfold signText; cases x.neg <;> simp
  · show serdeJsonExact.read (writeFloat x) = _
    rw [hw, hread]

theorem capped_lt {a r m : Nat} (h : (if a ≤ r then none else some r) = some m) : m < a := by
  split at h
  · cases h
  · have := Option.some.inj h
    omega

theorem exact_lawful : serdeJsonExact.Lawful where
  keeps x hf := by
    have hf := mag_finite.1 hf
    by_cases hx : x.mag = 0
    · have hw : writeFloat x = signText x.neg ++ ['0', '.', '0'] := by
        unfold writeFloat
        rw [if_pos hx]
        rfl
      have hl : LayoutOf ⟨0, 0 - ((['0'] : List Char).length : Int)⟩ (['0'] ++ '.' :: ['0'] ++ []) :=
        .point ⟨isDigits_iff.2 ⟨by simp, by simp⟩, fun _ => rfl⟩ (isDigits_iff.2 ⟨by simp, by simp⟩)
          (denote_of_digits ['0', '0'] (by simp)) .none
      refine hl.exact hw hf ?_
      rw [hx, num_zero]
      exact ⟨by simp [magUnits_zero], by omega, fun h => by omega⟩
    · have hw := writeFloat_eq hx
      obtain ⟨hr, hc, -, hmax⟩ := shortest_facts (by omega) hf (c := (shortest x.mag 640 310).1) (k := (shortest x.mag 640 310).2) rfl
      generalize (shortest x.mag 640 310).1 = c at *
      generalize (shortest x.mag 640 310).2 = k at *
      have hl := layout_text hc k
      split at hl
      · next h => exact hl.exact hw hf (rounds_point h.1 hr)
      · exact hl.exact hw hf hr
  finite cs x h := by
    have h : readParts exactMagnitude cs = some x := h
    unfold readParts at h
    dsimp only at h
    obtain ⟨p, -, h⟩ := Option.bind_eq_some_iff.1 h
    obtain ⟨q, -, h⟩ := Option.bind_eq_some_iff.1 h
    obtain ⟨m, hm, rfl⟩ := Option.map_eq_some_iff.1 h
    have : m < infMag := by
      unfold exactMagnitude at hm
      exact capped_lt hm
    rw [mag_finite, (make_facts _ this).1]
    exact this

end Wot
