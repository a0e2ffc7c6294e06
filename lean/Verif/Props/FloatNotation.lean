import Verif.Lemmas.FloatExtreme
import Verif.Lemmas.FloatNotation
import Verif.Props.FloatText
/-
C70, continued: how floats are written, and what is read from extreme numbers.
-/
namespace Wot

open FloatText F64

section
variable {D : Decimal} {x : F64} {cs : List Char}

/-- C70: numbers from `10^-5` to `10^16` are written without exponent, others with one, and there are no superfluous zeros. -/
theorem C70_notation (hf : x.isFinite = true) (hx : x.mag ≠ 0) :
    ∃ cs D, serdeJson.write x = (if x.neg then ['-'] else []) ++ cs ∧ DecimalText D cs ∧ D.Nearest x ∧
      (D.Plain → PlainText cs) ∧ (¬ D.Plain → ScientificText cs) := by
  have hm := mag_finite.1 hf
  obtain ⟨hr, hc, -, hmax⟩ := shortest_facts (by omega) hm (c := (shortest x.mag 640 310).1) (k := (shortest x.mag 640 310).2) rfl
  have hw := writeFloat_eq hx
  generalize (shortest x.mag 640 310).1 = c at *
  generalize (shortest x.mag 640 310).2 = k at *
  have hl := layout_text hc k
  have hn := layout_notation (k := k) hc (shortest_last hr hmax)
  rw [← plain_iff hc] at hn
  split at hl
  · next h =>
    have hp : (Decimal.mk c k).Plain := (plain_iff hc).2 ⟨by omega, h.2⟩
    have hp' : (Decimal.mk (c * 10^(k.toNat + 1)) (-1)).Plain := by
      obtain ⟨-, p2⟩ := hp
      have e1 : c * 10^k.toNat < 10^16 * 10^(-k).toNat := p2
      rw [show (-k).toNat = 0 by omega, Nat.pow_zero, Nat.mul_one] at e1
      have e2 : 0 < c * 10^k.toNat := Nat.mul_pos hc (Nat.pow_pos (by decide))
      show 10^1 ≤ c * 10^(k.toNat + 1) * 10^0 * 10^5 ∧ c * 10^(k.toNat + 1) * 10^0 < 10^16 * 10^1
      rw [Nat.pow_succ 10 k.toNat, ← Nat.mul_assoc]
      omega
    exact ⟨_, _, hw, hl.text, nearest_iff.2 ⟨hm, rounds_point h.1 hr⟩, fun _ => hn.1 hp, fun h => absurd hp' h⟩
  · exact ⟨_, _, hw, hl.text, nearest_iff.2 ⟨hm, hr⟩, hn.1, hn.2⟩

/-- C70: zero, with any exponent, and numbers that are too small are read as zero with the sign of the text, and numbers that are too
large are refused; also if the exponent does not fit into 32 bits. -/
theorem C70_extreme (h : DecimalText D cs) (hl : cs.length < 2^30) (hn : D.digits < 2^64) :
    (D.digits = 0 ∨ D.exponent < -400 → serdeJson.read cs = some ⟨0, by decide⟩ ∧
      serdeJson.read ('-' :: cs) = some ⟨0x8000000000000000, by decide⟩) ∧
    (D.digits ≠ 0 → 309 ≤ D.exponent → serdeJson.read cs = none ∧ serdeJson.read ('-' :: cs) = none) := by
  obtain ⟨a1, a2⟩ := readFloat_extreme false h hl hn
  obtain ⟨b1, b2⟩ := readFloat_extreme true h hl hn
  exact ⟨fun h => ⟨a1 h, b1 h⟩, fun h h' => ⟨a2 h h', b2 h h'⟩⟩

end

/-! ### Examples -/

example : ∃ cs D, serdeJson.write Demo.fCold = ['-'] ++ cs ∧ DecimalText D cs ∧ D.Nearest Demo.fCold ∧
    (D.Plain → PlainText cs) ∧ (¬ D.Plain → ScientificText cs) :=
  C70_notation (x := Demo.fCold) (by decide) (by decide)

example : (Decimal.mk 27315 (-2)).Plain ∧ ¬ (Decimal.mk 1 16).Plain ∧ (Decimal.mk 1 (-5)).Plain ∧ ¬ (Decimal.mk 99 (-7)).Plain := by
  refine ⟨⟨by decide, by decide⟩, fun h => absurd h.2 (by decide), ⟨by decide, by decide⟩, fun h => absurd h.1 (by decide)⟩

example : PlainText "273.15".toList ∧ ScientificText "1.5e-7".toList ∧ ScientificText "1e16".toList := by
  refine ⟨⟨"273".toList, "15".toList, rfl, ?_, ?_, .inr (by decide)⟩, ⟨'1', ".5".toList, "-7".toList, rfl, ?_, by decide,
    .inr ⟨['5'], rfl, ?_, by decide⟩, .inr ⟨['7'], rfl, ?_⟩⟩, ⟨'1', [], "16".toList, rfl, ?_, by decide, .inl rfl, .inl ?_⟩⟩ <;>
    simp [IsInteger, IsDigits]

example : serdeJson.read "-1e-99999999999".toList = some ⟨0x8000000000000000, by decide⟩ ∧
    serdeJson.read "0e99999999999".toList = some ⟨0, by decide⟩ ∧ serdeJson.read "1e99999999999".toList = none := by
  have one : ∀ {ex : List Char} {z : Int}, ExponentDenotes ex z → DecimalText ⟨1, z⟩ ('1' :: ex) := fun h =>
    .whole (ds := ['1']) ⟨⟨by simp, by simp⟩, by simp⟩ (denote_of_digits ['1'] (by decide)) h
  have zero : ∀ {ex : List Char} {z : Int}, ExponentDenotes ex z → DecimalText ⟨0, z⟩ ('0' :: ex) := fun h =>
    .whole (ds := ['0']) ⟨⟨by simp, by simp⟩, by simp⟩ (denote_of_digits ['0'] (by decide)) h
  have dig : DigitsDenote "99999999999".toList 99999999999 :=
    (show digitsValue "99999999999".toList = 99999999999 by decide) ▸ denote_of_digits "99999999999".toList (by decide)
  have hd : IsDigits "99999999999".toList := isDigits_iff.2 ⟨by decide, by decide⟩
  have plus : ExponentDenotes "e99999999999".toList 99999999999 := .plus (e := 'e') (sign := []) (by simp) (by simp) hd dig
  have minus : ExponentDenotes "e-99999999999".toList (-99999999999) := .minus (e := 'e') (by simp) hd dig
  exact ⟨((C70_extreme (one minus) (by decide) (by decide)).1 (.inr (by decide))).2,
    ((C70_extreme (zero plus) (by decide) (by decide)).1 (.inl rfl)).1,
    ((C70_extreme (one plus) (by decide) (by decide)).2 (by decide) (by decide)).1⟩

end Wot
