import Verif.Lemmas.FloatExact
import Verif.Lemmas.FloatLong
import Verif.Lemmas.FloatTree
import Verif.Props.JsonText
import Verif.Props.LangTag
/-
C70: which floating point numbers survive the text.
-/
namespace Wot

open FloatText F64

section
variable {D : Decimal} {x y : F64} {cs : List Char}

/-- C70: a number with a significand below `2^53` and an exponent between -22 and 22 is read as the float nearest to it, whatever its
notation. -/
theorem C70_read (h : DecimalText D cs) (hl : cs.length < 2^30) (hn : D.digits < 2^53) (h1 : -22 ≤ D.exponent)
    (h2 : D.exponent ≤ 22) :
    (∃ x, serdeJson.read cs = some x ∧ D.Nearest x ∧ x.neg = false) ∧
    (∃ x, serdeJson.read ('-' :: cs) = some x ∧ D.Nearest x ∧ x.neg = true) := by
  have key : ∀ b, ∃ x, readFloat (signText b ++ cs) = some x ∧ D.Nearest x ∧ x.neg = b := by
    intro b
    obtain ⟨e, hf⟩ := readFloat_small b h hl hn h1 h2
    obtain ⟨f1, f2⟩ := make_facts b hf
    refine ⟨_, e, nearest_iff.2 ?_, f2⟩
    rw [f1]
    refine ⟨hf, ?_⟩
    exact roundQ_rounds _ D.den_pos
  exact ⟨key false, key true⟩

/-- C70: there is only one such float of each sign. -/
theorem C70_nearest_unique (hx : D.Nearest x) (hy : D.Nearest y) (hn : x.neg = y.neg) : x = y :=
  f64_ext ((nearest_iff.1 hx).2.unique D.den_pos (nearest_iff.1 hy).2) hn

/-- C70: nothing is read as infinity or as no number at all. -/
theorem C70_finite (h : serdeJson.read cs = some x) : x.isFinite = true := readFloat_finite h

/-- C70: what is written for a number other than zero is the text of a decimal number to which the float is nearest. It has a
point or an exponent, so it is not taken for an integer. No other such number has fewer digits, and no other such number with
these many decimals is closer. -/
theorem C70_written (hf : x.isFinite = true) (hx : x.mag ≠ 0) :
    ∃ cs D S, serdeJson.write x = (if x.neg then ['-'] else []) ++ cs ∧ DecimalText D cs ∧ D.Equal S ∧ S.Nearest x ∧
      ('.' ∈ cs ∨ 'e' ∈ cs ∨ 'E' ∈ cs) ∧
      (∀ E : Decimal, E.Nearest x → ∀ L, 0 < L → E.digits < 10^L → S.digits < 10^L) ∧
      (∀ c, (Decimal.mk c S.exponent).Nearest x → S.gap x.mag ≤ (Decimal.mk c S.exponent).gap x.mag) := by
  have hm := mag_finite.1 hf
  have hw := writeFloat_eq hx
  obtain ⟨hr, hc, hclose, hmax⟩ := shortest_facts (by omega) hm (c := (shortest x.mag 640 310).1) (k := (shortest x.mag 640 310).2) rfl
  generalize (shortest x.mag 640 310).1 = c at *
  generalize (shortest x.mag 640 310).2 = k at *
  have point : ∀ {D cs}, LayoutOf D cs → '.' ∈ cs ∨ 'e' ∈ cs ∨ 'E' ∈ cs := by
    intro D cs h
    obtain ⟨ds, fr, ex, rfl, -, h1, h2, hne⟩ := h.parts
    rcases h1 with rfl | ⟨fs, rfl, -⟩
    · rcases h2 with rfl | ⟨e, s, ds, rfl, he, -⟩
      · exact absurd rfl hne
      · simp only [List.mem_cons, List.not_mem_nil, or_false] at he
        rcases he with rfl | rfl <;> simp
    · simp
  have rest : (∀ E : Decimal, E.Nearest x → ∀ L, 0 < L → E.digits < 10^L → c < 10^L) ∧
      (∀ c', (Decimal.mk c' k).Nearest x → (Decimal.mk c k).gap x.mag ≤ (Decimal.mk c' k).gap x.mag) :=
    ⟨fun E hE L hL hd => digits_le hL hr hmax (nearest_iff.1 hE).2 hd, fun c' h => hclose c' (nearest_iff.1 h).2⟩
  have hl := layout_text hc k
  split at hl
  · next h =>
    refine ⟨_, _, ⟨c, k⟩, hw, hl.text, ?_, nearest_iff.2 ⟨hm, hr⟩, point hl, rest⟩
    unfold Decimal.Equal
    dsimp only
    rw [show (-k).toNat = 0 by omega, show (-1 : Int).toNat = 0 by rfl, show (-(-1 : Int)).toNat = 1 by rfl, Nat.pow_succ, Nat.pow_zero,
      Nat.mul_one, Nat.mul_one, ← Nat.mul_assoc]
  · exact ⟨_, _, ⟨c, k⟩, hw, hl.text, rfl, nearest_iff.2 ⟨hm, hr⟩, point hl, rest⟩

/-- C70: and zeros are written with their sign. -/
theorem C70_zero (hx : x.mag = 0) :
    serdeJson.write x = (if x.neg then ['-'] else []) ++ ['0', '.', '0'] ∧ serdeJson.Keeps x := by
  refine ⟨?_, zero_keeps hx⟩
  show writeFloat x = _
  unfold writeFloat
  rw [if_pos hx]

/-- C70: so the float nearest to a decimal number of up to 15 digits, not too large and with not too many decimals, has a text from
which it is read again, bit by bit. -/
theorem C70_keeps (h : x.IsShort) : serdeJson.Keeps x := short_keeps h

/-- C70: such are the integers up to `9 * 10^14`. -/
theorem C70_integers {z : Int} (hz : z.natAbs ≤ 9 * 10^14) (h : x.Nearest z) : x.IsShort := by
  have hu := h.exact (ofInt_finite (z := z) (by omega) (by omega)) (ofInt_exact (z := z) (by omega))
  have hm : magUnits x.mag = z.natAbs * 2^1074 := by
    unfold F64.units at hu
    have a := natAbs_mul z (2^1074)
    have e : z * 2^1074 = z * ((2^1074 : Nat) : Int) := by norm_cast
    rw [e] at hu
    generalize 2^1074 = T at *
    generalize z * (T : Int) = Z at *
    generalize z.natAbs * T = N at *
    split at hu <;> omega
  refine ⟨⟨z.natAbs, 0⟩, ⟨by dsimp only; omega, by dsimp only; omega, .inl ?_⟩, h.finite, ?_, ?_⟩
  · simpa using hz
  · intro y _
    have : (Decimal.mk z.natAbs 0).gap x.mag = 0 := by
      unfold Decimal.gap
      rw [hm]
      simp
    omega
  · intro y _ hne he
    exfalso
    unfold Decimal.gap at he
    rw [hm] at he
    simp only [Int.neg_zero, Int.toNat_zero, Nat.pow_zero, Nat.mul_one, Int.sub_self, Int.natAbs_zero] at he
    exact hne (magUnits_inj (by omega))

/-- C70: and what is read from a short text. -/
theorem C70_short_texts (hs : D.Short) (h : DecimalText D cs) (hl : cs.length < 2^30) (h2 : D.exponent ≤ 22) :
    (∃ x, serdeJson.read cs = some x ∧ x.IsShort) ∧ (∃ x, serdeJson.read ('-' :: cs) = some x ∧ x.IsShort) := by
  obtain ⟨⟨x, e, hx, -⟩, y, e', hy, -⟩ := C70_read h hl (by have := hs.digits; omega) hs.exponent h2
  exact ⟨⟨x, e, D, hs, hx⟩, y, e', D, hs, hy⟩

/-- C70: so documents with such numbers only last. -/
theorem C70_lasts {j : Json} (h : j.NumbersShort) : j.NumbersLast serdeJson := by
  intro n hn
  have := h n hn
  cases n with
  | pos n =>
    have this : n ≤ 9 * 10^14 := this
    exact ⟨by omega, fun f hf => C70_keeps (C70_integers (z := n) (by omega) hf)⟩
  | neg n =>
    have this : n + 1 ≤ 9 * 10^14 := this
    exact ⟨by omega, fun f hf => C70_keeps (C70_integers (z := -(n + 1 : Int)) (by omega) hf)⟩
  | float f => exact C70_keeps this

end

section
variable {X : ExtTypes} {C : ExtCodecs X} {env : SerdeEnv} {t : Thing X} {text : String} {h m : Nat}

/-- C70: a Thing that has been read from a text whose numbers are short is written, and read back from both strings (as it is
stored) if no property has human readable information. -/
theorem C70_reread (he : env.Rfc5646Tags) (hi : env.Rfc3339Times) (sep : C.Separate) (once : C.WriteOnce)
    (hc : C.NumbersKept serdeJson) {j : Json} (hj : ThingText serdeJson j text) (hs : j.NumbersShort) (hd : j.NoDup)
    (ht : Thing.fromString C env serdeJson text = some t) (hx : ExtensionsKept C t) (hh : 1 ≤ h) (hm : 1 ≤ m)
    (hn : t.NestsWithin C h m) (hl : 2 * h + m ≤ 123) :
    ∃ s p, t.toString C env serdeJson = some s ∧ t.toStringPretty C env serdeJson = some p ∧
      ((∀ ps, t.properties = some ps → ∀ kv ∈ ps, kv.2.NoInfo) →
        Thing.fromString C env serdeJson s = some t.stored ∧ Thing.fromString C env serdeJson p = some t.stored) ∧
      (¬ (∀ ps, t.properties = some ps → ∀ kv ∈ ps, kv.2.NoInfo) →
        Thing.fromString C env serdeJson s = none ∧ Thing.fromString C env serdeJson p = none) :=
  C66_reread sep once (C69_stable he hi) hc hj (C70_lasts hs) hd ht hx hh hm hn hl

/-- C70: the same with any set of protocol bindings; then every HTTP response has to name headers, too. Nothing is left to
assume about the crates: texts, floats, language tags and instants are those of the model. -/
theorem C70_bindings {l : List Binding} (hnd : l.Nodup) {t : Thing (Binding.stackTypes l)} (he : env.Rfc5646Tags)
    (hi : env.Rfc3339Times) {j : Json} (hj : ThingText serdeJson j text) (hs : j.NumbersShort) (hd : j.NoDup)
    (ht : Thing.fromString (Binding.stack l) env serdeJson text = some t) (hh : 1 ≤ h) (hm : 1 ≤ m)
    (hn : t.NestsWithin (Binding.stack l) h m) (hlim : 2 * h + m ≤ 123) :
    ∃ s p, t.toString (Binding.stack l) env serdeJson = some s ∧ t.toStringPretty (Binding.stack l) env serdeJson = some p ∧
      (Binding.ThingHeadersGiven l t ∧ (∀ ps, t.properties = some ps → ∀ kv ∈ ps, kv.2.NoInfo) →
        Thing.fromString (Binding.stack l) env serdeJson s = some t.stored ∧
        Thing.fromString (Binding.stack l) env serdeJson p = some t.stored) ∧
      (¬ (Binding.ThingHeadersGiven l t ∧ ∀ ps, t.properties = some ps → ∀ kv ∈ ps, kv.2.NoInfo) →
        Thing.fromString (Binding.stack l) env serdeJson s = none ∧
        Thing.fromString (Binding.stack l) env serdeJson p = none) :=
  C66_bindings hnd (C69_stable he hi) hj (C70_lasts hs) hd ht hh hm hn hlim

end

/-! ### How much can be lost -/

section
variable {D : Decimal} {x : F64} {cs : List Char}

/-- C70: every finite float is read from its text, with the same sign and at most three steps away. -/
theorem C70_close (hf : x.isFinite = true) : ∃ y, serdeJson.read (serdeJson.write x) = some y ∧ y.Close x := by
  obtain ⟨y, h1, h2, h3, h4⟩ := float_back (mag_finite.1 hf)
  exact ⟨y, h1, h2, h3, h4⟩

/-- C70: the same of every text of a number, with any number of digits and any exponent, compared with the float nearest to it. Only
the three largest floats may be refused instead. -/
theorem C70_read_close (h : DecimalText D cs) (hl : cs.length < 2^30) (hx : D.Nearest x) :
    (x.neg = false → (∃ y, serdeJson.read cs = some y ∧ y.Close x) ∨ (serdeJson.read cs = none ∧ infMag ≤ x.mag + 3)) ∧
    (x.neg = true → (∃ y, serdeJson.read ('-' :: cs) = some y ∧ y.Close x) ∨
      (serdeJson.read ('-' :: cs) = none ∧ infMag ≤ x.mag + 3)) := by
  obtain ⟨hf, hr⟩ := nearest_iff.1 hx
  have key : ∀ b, x.neg = b → (∃ y, readFloat (signText b ++ cs) = some y ∧ y.Close x) ∨
      (readFloat (signText b ++ cs) = none ∧ infMag ≤ x.mag + 3) := by
    intro b hb
    rcases readFloat_any b h hl hr with ⟨y, e, e1, e2, e3⟩ | h
    · left
      obtain ⟨f1, f2⟩ := make_facts b e1
      exact ⟨_, e, f2.trans hb.symm, by omega, by omega⟩
    · exact .inr h
  exact ⟨key false, key true⟩

/-- C70: what is too large for any finite float is refused or read as one of the three largest. -/
theorem C70_read_large (h : DecimalText D cs) (hl : cs.length < 2^30) (hx : ∀ x, ¬ D.Nearest x) :
    (∀ y, serdeJson.read cs = some y → y.neg = false ∧ y.isFinite = true ∧ infMag ≤ y.mag + 3) ∧
    (∀ y, serdeJson.read ('-' :: cs) = some y → y.neg = true ∧ y.isFinite = true ∧ infMag ≤ y.mag + 3) := by
  have hr := roundQ_rounds D.num (Decimal.den_pos D)
  have hbig : infMag ≤ roundQ D.num D.den := by
    by_cases hlt : infMag ≤ roundQ D.num D.den
    · exact hlt
    · exfalso
      obtain ⟨f1, f2⟩ := make_facts false (m := roundQ D.num D.den) (by omega)
      exact hx (make false (roundQ D.num D.den)) (nearest_iff.2 ⟨by omega, by rw [f1]; exact hr⟩)
  have key : ∀ b y, readFloat (signText b ++ cs) = some y → y.neg = b ∧ y.isFinite = true ∧ infMag ≤ y.mag + 3 := by
    intro b y hy
    rcases readFloat_any b h hl hr with ⟨z, e, e1, e2, e3⟩ | ⟨e, -⟩
    · rw [hy] at e
      obtain ⟨f1, f2⟩ := make_facts b e1
      rw [Option.some.inj e]
      exact ⟨f2, mag_finite.2 (by omega), by omega⟩
    · rw [hy] at e; cases e
  exact ⟨key false, key true⟩

/-- C70: there is one function on floats, which moves none by more than three steps and short ones not at all, such that any document
with integers of 64 bits and finite floats is read from its text with this function applied to its floats, and otherwise as it was. -/
theorem C70_tree : ∃ g : F64 → F64, (∀ x, x.isFinite = true → (g x).Close x) ∧ (∀ x, x.IsShort → g x = x) ∧
    ∀ j : Json, j.NumbersInRange → Json.parse serdeJson (String.ofList (j.compact serdeJson)) = some (j.mapFloats g) ∧
      Json.parse serdeJson (String.ofList (j.pretty serdeJson 0)) = some (j.mapFloats g) := by
  have hg : ∀ x : F64, x.isFinite = true → serdeJson.read (serdeJson.write x) = some ((serdeJson.read (serdeJson.write x)).getD x) := by
    intro x hf
    obtain ⟨y, h, -⟩ := C70_close hf
    rw [h]; rfl
  refine ⟨fun x => (serdeJson.read (serdeJson.write x)).getD x, fun x hf => ?_, fun x hs => ?_, fun j hj => ?_⟩
  · obtain ⟨y, h, hc⟩ := C70_close hf
    dsimp only
    rw [h]; exact hc
  · obtain ⟨_, _, _, _, -, -, -, -, -, -, h⟩ := C70_keeps hs
    dsimp only
    rw [h]; rfl
  · have hn : ∀ n, NumberIn n j → NumberText serdeJson (n.mapFloat fun x => (serdeJson.read (serdeJson.write x)).getD x) (n.text serdeJson) := by
      intro n hn
      have hr := hj n hn
      cases n with
      | pos n => exact number_text (n := .pos n) hr
      | neg n => exact number_text (n := .neg n) hr
      | float x =>
        obtain ⟨sign, ds, fr, ex, he, hs, hi, hf, hex, hne, -⟩ := exact_lawful.keeps x hr
        have he : serdeJson.write x = sign ++ ds ++ fr ++ ex := he
        have := hg x hr
        simp only [JNum.text, JNum.mapFloat]
        rw [he] at this ⊢
        exact .float hs hi hf hex hne this
    exact ⟨parse_iff.2 ⟨[], _, [], space_nil, compact_moved j hn, space_nil, by simp⟩,
      parse_iff.2 ⟨[], _, [], space_nil, pretty_moved j 0 hn, space_nil, by simp⟩⟩

end

/-! ### What is lost -/

namespace Demo

/-- `9007199254740991.0`, which is `2^53 - 1`, and its neighbour. -/
def fBig : F64 := ⟨0x433FFFFFFFFFFFFF, by decide⟩
def fLess : F64 := ⟨0x433FFFFFFFFFFFFE, by decide⟩

/-- `8000000000000020.0` and its neighbour. -/
def fEight : F64 := ⟨0x433C6BF526340014, by decide⟩
def fEightLess : F64 := ⟨0x433C6BF526340013, by decide⟩

end Demo

/-- C70: not every finite float is read again from its text: `9007199254740991.0` is read as `9007199254740990`. -/
theorem C70_lost : Demo.fBig.isFinite = true ∧ serdeJson.write Demo.fBig = "9007199254740991.0".toList ∧
    serdeJson.read "9007199254740991.0".toList = some Demo.fLess ∧ ¬ serdeJson.Lawful := by
  have h1 : serdeJson.write Demo.fBig = "9007199254740991.0".toList := by decide +kernel
  have h2 : serdeJson.read "9007199254740991.0".toList = some Demo.fLess := by decide +kernel
  refine ⟨by decide, h1, h2, fun h => ?_⟩
  obtain ⟨_, _, _, _, -, -, -, -, -, -, hr⟩ := h.keeps Demo.fBig (by decide)
  rw [h1, h2] at hr
  exact absurd hr (by decide)

/-- C70: nor is every float with 15 digits: the bound `9 * 10^14` is needed. -/
theorem C70_range_needed : ∃ (D : Decimal) (x : F64), D.Nearest x ∧ D.digits < 10^15 ∧ D.exponent = 1 ∧
    serdeJson.write x = "8000000000000020.0".toList ∧ serdeJson.read (serdeJson.write x) ≠ some x := by
  have h1 : serdeJson.write Demo.fEight = "8000000000000020.0".toList := by decide +kernel
  have h2 : serdeJson.read "8000000000000020.0".toList = some Demo.fEightLess := by decide +kernel
  refine ⟨⟨800000000000002, 1⟩, Demo.fEight, nearest_iff.2 ⟨by decide, ?_⟩, by decide, rfl, h1, ?_⟩
  · exact (roundQ_iff (Decimal.den_pos _)).1 (by decide +kernel)
  · rw [h1, h2]; decide

/-- The text of a Thing with a property of at most `2^53 - 1`. -/
def Demo.bigText : String :=
  "{\"@context\":\"https://www.w3.org/2022/wot/td/v1.1\",\"title\":\"\",\"properties\":{\"p\":{\"forms\":" ++
  "[{\"href\":\"\"}],\"type\":\"number\",\"maximum\":9007199254740991}},\"security\":[],\"securityDefinitions\":{}}"

/-- C70: so there are Things that are read, written, and read again from what was written with a different bound, and no error. -/
theorem C70_thing_lost : ∃ (t t' : Thing Demo.X) (s : String),
    Thing.fromString .nil Demo.tagEnv serdeJson Demo.bigText = some t ∧ t.toString .nil Demo.tagEnv serdeJson = some s ∧
    Thing.fromString .nil Demo.tagEnv serdeJson s = some t' ∧
    Demo.upperBound t = some Demo.fBig ∧ Demo.upperBound t' = some Demo.fLess := by
  have h : (Thing.fromString (X := Demo.X) .nil Demo.tagEnv serdeJson Demo.bigText).bind (fun t =>
      (t.toString .nil Demo.tagEnv serdeJson).bind fun s => (Thing.fromString (X := Demo.X) .nil Demo.tagEnv serdeJson s).map fun t' =>
        (Demo.upperBound t, Demo.upperBound t')) = some (some Demo.fBig, some Demo.fLess) := by decide +kernel
  obtain ⟨t, h1, h⟩ := Option.bind_eq_some_iff.1 h
  obtain ⟨s, h2, h⟩ := Option.bind_eq_some_iff.1 h
  obtain ⟨t', h3, h⟩ := Option.map_eq_some_iff.1 h
  exact ⟨t, t', s, h1, h2, h3, (Prod.mk.inj h).1, (Prod.mk.inj h).2⟩

/-! ### Examples -/

namespace Demo

/-- `0.1` and `-273.15`. -/
def fTenth : F64 := ⟨0x3FB999999999999A, by decide⟩
def fCold : F64 := ⟨0xC071126666666666, by decide⟩

theorem tenth_text : DecimalText ⟨1, -1⟩ "0.1".toList :=
  .point (ds := ['0']) (fraction := ['1']) (exponent := []) (z := 0) ⟨⟨by simp, by simp⟩, by simp⟩ ⟨by simp, by simp⟩
    (denote_of_digits ['0', '1'] (by simp)) .none

theorem nearest_of {D : Decimal} {x : F64} (hf : x.mag < infMag) (h : roundQ D.num D.den = x.mag) : D.Nearest x :=
  nearest_iff.2 ⟨hf, (roundQ_iff D.den_pos).1 h⟩

theorem short_tenth : fTenth.IsShort :=
  ⟨⟨1, -1⟩, ⟨by decide, by decide, by decide⟩, nearest_of (by decide) (by decide +kernel)⟩

theorem short_cold : fCold.IsShort :=
  ⟨⟨27315, -2⟩, ⟨by decide, by decide, by decide⟩, nearest_of (by decide) (by decide +kernel)⟩

theorem short_f0 : f0.IsShort :=
  ⟨⟨0, 0⟩, ⟨by decide, by decide, by decide⟩, nearest_of (by decide) (by decide +kernel)⟩

theorem short_f100 : f100.IsShort :=
  ⟨⟨100, 0⟩, ⟨by decide, by decide, by decide⟩, nearest_of (by decide) (by decide +kernel)⟩

end Demo

/-- `0.1` is read as the nearest float, which is written as `0.1`. -/
example : serdeJson.read "0.1".toList = some Demo.fTenth ∧ serdeJson.write Demo.fTenth = "0.1".toList := by
  obtain ⟨⟨x, h, hx, hn⟩, -⟩ := C70_read Demo.tenth_text (by decide) (by decide) (by decide) (by decide)
  rw [h, C70_nearest_unique hx (y := Demo.fTenth) (Demo.nearest_of (by decide) (by decide +kernel)) hn]
  exact ⟨rfl, by decide +kernel⟩

/-- Other notations of the same number, and of others. -/
example : serdeJson.read "1e-1".toList = some Demo.fTenth ∧ serdeJson.read "100.00E-3".toList = some Demo.fTenth ∧
    serdeJson.read "-2.7315e+2".toList = some Demo.fCold ∧ serdeJson.read "1e309".toList = none ∧
    serdeJson.read "1e-400".toList = some ⟨0, by decide⟩ ∧
    serdeJson.read "123456789012345678901234567890".toList = some ⟨0x45F8EE90FF6C373E, by decide⟩ := by decide +kernel

example : (Demo.fTenth).isFinite = true :=
  C70_finite (cs := "0.1".toList) (by decide +kernel)

/-- What is written: with a point, with an exponent, or both. -/
example : serdeJson.write Demo.fCold = "-273.15".toList ∧ serdeJson.write ⟨0x7FEFFFFFFFFFFFFF, by decide⟩ = "1.7976931348623157e308".toList ∧
    serdeJson.write ⟨1, by decide⟩ = "5e-324".toList ∧ serdeJson.write ⟨0x4341C37937E08000, by decide⟩ = "1e16".toList ∧
    serdeJson.write ⟨0x430C6BF526340000, by decide⟩ = "1000000000000000.0".toList ∧
    serdeJson.write ⟨0x3EE4F8B588E368F1, by decide⟩ = "0.00001".toList ∧
    serdeJson.write ⟨0x3EB0C6F7A0B5ED8D, by decide⟩ = "1e-6".toList := by decide +kernel

example : ∃ cs D S, serdeJson.write Demo.fCold = ['-'] ++ cs ∧ DecimalText D cs ∧ D.Equal S ∧ S.Nearest Demo.fCold :=
  let ⟨cs, D, S, h1, h2, h3, h4, _⟩ := C70_written (x := Demo.fCold) (by decide) (by decide)
  ⟨cs, D, S, h1, h2, h3, h4⟩

example : serdeJson.write ⟨0x8000000000000000, by decide⟩ = "-0.0".toList :=
  (C70_zero (by decide)).1

example : serdeJson.read "-273.15".toList = some Demo.fCold := by
  obtain ⟨_, _, _, _, -, -, -, -, -, -, h⟩ := C70_keeps Demo.short_cold
  rwa [show serdeJson.write Demo.fCold = "-273.15".toList by decide +kernel] at h

example : serdeJson.Keeps (F64.ofInt (-123456789012345)) :=
  C70_keeps (C70_integers (by decide) (ofInt_nearest (by decide) (by decide)))

example : ∃ x, serdeJson.read "0.1".toList = some x ∧ x.IsShort :=
  (C70_short_texts ⟨by decide, by decide, by decide⟩ Demo.tenth_text (by decide) (by decide)).1

/-- The Thing with one property is written, and read back from both strings. -/
example : ∃ s p, Demo.quietThing.toString .nil Demo.senv serdeJson = some s ∧
    Demo.quietThing.toStringPretty .nil Demo.senv serdeJson = some p ∧
    Thing.fromString .nil Demo.senv serdeJson s = some Demo.quietThing.stored ∧
    Thing.fromString .nil Demo.senv serdeJson p = some Demo.quietThing.stored :=
  C66_built Demo.nil_separate Demo.nil_writeOnce Demo.quiet_reachable Demo.quiet_ok
    Demo.tagsStable Demo.quiet_values Demo.quiet_writable (Nat.le_refl 1) (Nat.le_refl 1) Demo.quiet_nests
    (by decide) (Demo.quiet_numbers (C70_keeps Demo.short_f0) (C70_keeps Demo.short_f100)) (fun m hm kv hkv hr => by
      have := Demo.quiet_noInfo m hm kv hkv
      simp_all [PropertyAffordance.NoInfo, PropertyAffordance.RepeatsInfo])

/-- A text with a variable between `-273.15` and `1e2`, in steps of `0.1`. -/
def Demo.stepText : String :=
  "{\"title\":\"\",\"security\":[],\"securityDefinitions\":{},\"uriVariables\":{\"t\":" ++
  "{\"type\":\"number\",\"minimum\":-273.15,\"maximum\":1e2,\"multipleOf\":0.1,\"const\":20}}}"

/-- Its tree. -/
def Demo.stepTree : Json :=
  .obj [("title", .str ""), ("security", .arr []), ("securityDefinitions", .obj []), ("uriVariables", .obj [("t",
    .obj [("type", .str "number"), ("minimum", .num (.float Demo.fCold)), ("maximum", .num (.float Demo.f100)),
      ("multipleOf", .num (.float Demo.fTenth)), ("const", .num (.pos 20))])])]

theorem Demo.step_parse : Json.parse serdeJson Demo.stepText = some Demo.stepTree := by decide +kernel

theorem Demo.step_noDup : Demo.stepTree.NoDup := by
  simp [Demo.stepTree, Json.NoDup, Json.NoDupList, Json.NoDupMembers]

theorem Demo.step_short : Demo.stepTree.NumbersShort := by
  intro n h
  cases h with
  | member h1 h =>
    simp only [List.mem_cons, List.not_mem_nil, or_false, Prod.mk.injEq] at h1
    rcases h1 with ⟨-, rfl⟩ | ⟨-, rfl⟩ | ⟨-, rfl⟩ | ⟨-, rfl⟩
    · cases h
    · cases h with | element h1 => cases h1
    · cases h with | member h1 => cases h1
    · cases h with
      | member h1 h =>
        simp only [List.mem_cons, List.not_mem_nil, or_false, Prod.mk.injEq] at h1
        obtain ⟨-, rfl⟩ := h1
        cases h with
        | member h1 h =>
          simp only [List.mem_cons, List.not_mem_nil, or_false, Prod.mk.injEq] at h1
          rcases h1 with ⟨-, rfl⟩ | ⟨-, rfl⟩ | ⟨-, rfl⟩ | ⟨-, rfl⟩ | ⟨-, rfl⟩ <;> cases h
          · exact Demo.short_cold
          · exact Demo.short_f100
          · exact Demo.short_tenth
          · show 20 ≤ 9 * 10^14
            decide

/-- What is read from it. -/
structure Demo.StepThing {X : ExtTypes} (t : Thing X) (s : DS X) (n : NumberSchema) : Prop where
  absent : t.properties = none ∧ t.actions = none ∧ t.events = none ∧ t.forms = none ∧ t.schemaDefinitions = none
  security : t.securityDefinitions = []
  context : t.context = .str tdContext11
  variables : t.uriVariables = some [("t", s)]
  schema : s.oneOf = none ∧ s.subtype = some (.number n)
  values : s.head.constant = some (.num (.pos 20)) ∧ s.head.default = none ∧ s.head.enumeration = none

theorem Demo.StepThing.hasSchema {X : ExtTypes} {t : Thing X} {s : DS X} {n : NumberSchema} (h : StepThing t s n) {p : Position}
    {x : DS X} (hx : t.HasSchema p x) : x = s := by
  obtain ⟨h1, h2, h3, h4, h5⟩ := h.absent
  have h6 := h.variables
  cases hx <;> simp_all

theorem Demo.StepThing.nests {X : ExtTypes} {t : Thing X} {s : DS X} {n : NumberSchema} (h : StepThing t s n) :
    (∀ p s, t.HasSchema p s → ∀ n, s.Nests n → n ≤ 1) ∧
    (∀ p s x, t.HasSchema p s → Within x s → x = s ∧ (∀ v, x.head.constant = some v → v.nesting ≤ 1) ∧
      (∀ v, x.head.default = some v → v.nesting ≤ 1) ∧ ∀ l, x.head.enumeration = some l → ∀ v ∈ l, v.nesting ≤ 1) := by
  have hc : ∀ {c : DS X}, ¬ c.Holds s := by
    intro c hc
    rcases holds_child.1 hc with ⟨l, hl, -⟩ | ⟨st, hst, hc⟩
    · rw [h.schema.1] at hl; cases hl
    · rw [h.schema.2] at hst; cases hst; cases hc
  refine ⟨fun p x hx k hk => ?_, fun p x y hx hy => ?_⟩
  · cases h.hasSchema hx
    cases hk with
    | one => exact Nat.le_refl 1
    | more hh => exact absurd hh hc
  · cases h.hasSchema hx
    have : y = s := by
      rcases within_iff.1 hy with rfl | ⟨l, hl, -⟩ | ⟨st, hst, c, hc', -⟩
      · rfl
      · rw [h.schema.1] at hl; cases hl
      · rw [h.schema.2] at hst; cases hst; cases hc'
    subst this
    obtain ⟨v1, v2, v3⟩ := h.values
    refine ⟨rfl, fun v hv => ?_, by rw [v2]; nofun, by rw [v3]; nofun⟩
    rw [v1] at hv
    cases hv
    decide

theorem Demo.StepThing.nestsWithin {t : Thing Demo.X} {s : DS Demo.X} {n : NumberSchema} (h : StepThing t s n) :
    t.NestsWithin ExtCodecs.nil 1 1 where
  schemas := h.nests.1
  values p s x hs hx := by
    obtain ⟨rfl, a, b, c⟩ := h.nests.2 p s x hs hx
    cases h.hasSchema hs
    refine ⟨a, b, c, fun es h => by cases h; nofun, ?_, ?_⟩ <;> rw [h.schema.2] <;> nofun
  forms _ _ _ := ⟨fun es h => by cases h; nofun, fun _ _ es h => by cases h; nofun⟩
  interactions _ _ es h := by cases h; nofun
  properties _ _ _ _ es h := by cases h; nofun
  actions _ _ _ _ es h := by cases h; nofun
  events _ _ _ _ es h := by cases h; nofun
  security := by rw [h.security]; nofun
  context := by rw [h.context]; exact Nat.zero_le _
  other es h := by cases h; nofun

/-- `2^53 - 1` moves by one step. -/
example : ∃ y, serdeJson.read "9007199254740991.0".toList = some y ∧ y.Close Demo.fBig ∧ y ≠ Demo.fBig := by
  obtain ⟨y, h, hc⟩ := C70_close (x := Demo.fBig) (by decide)
  rw [C70_lost.2.1] at h
  refine ⟨y, h, hc, fun e => ?_⟩
  rw [C70_lost.2.2.1, e] at h
  exact absurd h (by decide)

/-- A number of 17 digits, which is read as the neighbour of the nearest float. -/
example : ∃ y, serdeJson.read "0.00012345678901234501".toList = some y ∧ y.Close ⟨0x3F202E85BE180B5C, by decide⟩ ∧
    y = ⟨0x3F202E85BE180B5B, by decide⟩ := by
  have ht : DecimalText ⟨12345678901234501, -20⟩ "0.00012345678901234501".toList :=
    .point (ds := ['0']) (fraction := "00012345678901234501".toList) (exponent := []) (z := 0) ⟨⟨by simp, by simp⟩, by simp⟩
      (isDigits_iff.2 ⟨by decide, by decide⟩)
      ((show digitsValue "000012345678901234501".toList = 12345678901234501 by decide +kernel) ▸
        denote_of_digits "000012345678901234501".toList (by decide)) .none
  obtain ⟨y, h, hc⟩ := ((C70_read_close (x := ⟨0x3F202E85BE180B5C, by decide⟩) ht (by decide)
    (Demo.nearest_of (by decide) (by decide +kernel))).1 (by decide)).resolve_right fun h => absurd h.2 (by decide)
  refine ⟨y, h, hc, ?_⟩
  rw [show serdeJson.read "0.00012345678901234501".toList = some ⟨0x3F202E85BE180B5B, by decide⟩ by decide +kernel] at h
  exact (Option.some.inj h).symm

/-- A number of 30 digits, of which 20 are read. -/
example : ∃ y, serdeJson.read "-9.87654321098765432109876543210e99".toList = some y ∧ y.Close ⟨0xD4B20FE0BCDADD3C, by decide⟩ := by
  have ht : DecimalText ⟨987654321098765432109876543210, 70⟩ "9.87654321098765432109876543210e99".toList :=
    .point (ds := ['9']) (fraction := "87654321098765432109876543210".toList) (exponent := "e99".toList) (z := 99) ⟨⟨by simp, by simp⟩, by simp⟩
      (isDigits_iff.2 ⟨by decide, by decide⟩)
      ((show digitsValue "987654321098765432109876543210".toList = 987654321098765432109876543210 by decide +kernel) ▸
        denote_of_digits "987654321098765432109876543210".toList (by decide))
      (.plus (e := 'e') (sign := []) (ds := "99".toList) (n := 99) (by decide) (by decide) (isDigits_iff.2 ⟨by decide, by decide⟩)
        ((show digitsValue "99".toList = 99 by decide) ▸ denote_of_digits "99".toList (by decide)))
  exact ((C70_read_close (x := ⟨0xD4B20FE0BCDADD3C, by decide⟩) ht (by decide)
    (Demo.nearest_of (by decide) (by decide +kernel))).2 (by decide)).resolve_right fun h => absurd h.2 (by decide)

/-- `10^400` is too large. -/
example : serdeJson.read "1e400".toList = none ∧ ∀ x, ¬ (Decimal.mk 1 400).Nearest x := by
  refine ⟨by decide +kernel, fun x hx => ?_⟩
  obtain ⟨h1, h2⟩ := nearest_iff.1 hx
  have h3 := (roundQ_iff (Decimal.den_pos _)).2 h2
  have h4 : infMag ≤ roundQ (Decimal.mk 1 400).num (Decimal.mk 1 400).den := by decide +kernel
  omega

/-- A document with a float that moves and one that does not. -/
example : ∃ g : F64 → F64, g Demo.fTenth = Demo.fTenth ∧
    Json.parse serdeJson "[0.1,9007199254740991.0,7]" =
      some (.arr [.num (.float Demo.fTenth), .num (.float (g Demo.fBig)), .num (.pos 7)]) := by
  obtain ⟨g, -, h1, h2⟩ := C70_tree
  have := (h2 (.arr [.num (.float Demo.fTenth), .num (.float Demo.fBig), .num (.pos 7)]) (by
    intro n hn
    rcases hn with _ | ⟨hj, hn⟩ | _
    simp only [List.mem_cons, List.not_mem_nil, or_false] at hj
    rcases hj with rfl | rfl | rfl <;> cases hn
    · show Demo.fTenth.isFinite = true; decide
    · show Demo.fBig.isFinite = true; decide
    · show 7 < 2^64; decide)).1
  rw [show String.ofList (Json.compact serdeJson (.arr [.num (.float Demo.fTenth), .num (.float Demo.fBig), .num (.pos 7)])) =
    "[0.1,9007199254740991.0,7]" by decide +kernel] at this
  refine ⟨g, h1 _ Demo.short_tenth, ?_⟩
  rw [this]
  simp only [Json.mapFloats, Json.mapFloatsList, JNum.mapFloat, h1 _ Demo.short_tenth]

/-- It is read, and read again from what is written. -/
example : ∃ t str, Thing.fromString (X := Demo.X) .nil Demo.tagEnv serdeJson Demo.stepText = some t ∧
    t.toString .nil Demo.tagEnv serdeJson = some str ∧ Thing.fromString .nil Demo.tagEnv serdeJson str = some t.stored := by
  obtain ⟨t, s, n, ht, h⟩ : ∃ t s n, fromStr (X := Demo.X) .nil Demo.tagEnv Demo.stepTree = some t ∧ Demo.StepThing t s n :=
    ⟨_, _, _, rfl, ⟨rfl, rfl, rfl, rfl, rfl⟩, rfl, rfl, rfl, ⟨rfl, rfl⟩, rfl, rfl, rfl⟩
  have hr : Thing.fromString (X := Demo.X) .nil Demo.tagEnv serdeJson Demo.stepText = some t := by
    rw [fromString_parse Demo.step_parse, ht]
  have hn := h.nestsWithin
  obtain ⟨str, p, e1, -, e2, -⟩ := C70_reread Demo.tag_tags Demo.tag_times Demo.nil_separate Demo.nil_writeOnce
    (Demo.nil_numbers _) (thingText_parse Demo.step_parse rfl) Demo.step_short Demo.step_noDup hr
    (C50_extensions (C69_stable Demo.tag_tags Demo.tag_times) Demo.nil_lawful ((C62_limit _).2 t ht)) (Nat.le_refl 1) (Nat.le_refl 1) hn
    (by decide)
  exact ⟨t, str, hr, e1, (e2 (by rw [h.absent.1]; nofun)).1⟩

/-- Also with a protocol binding. -/
example : ∃ t str, Thing.fromString (Binding.stack [.http]) Demo.tagEnv serdeJson Demo.stepText = some t ∧
    t.toString (Binding.stack [.http]) Demo.tagEnv serdeJson = some str ∧
    Thing.fromString (Binding.stack [.http]) Demo.tagEnv serdeJson str = some t.stored := by
  obtain ⟨t, s, n, ht, h⟩ : ∃ t s n, fromStr (Binding.stack [.http]) Demo.tagEnv Demo.stepTree = some t ∧ Demo.StepThing t s n :=
    ⟨_, _, _, rfl, ⟨rfl, rfl, rfl, rfl, rfl⟩, rfl, rfl, rfl, ⟨rfl, rfl⟩, rfl, rfl, rfl⟩
  have hr : Thing.fromString (Binding.stack [.http]) Demo.tagEnv serdeJson Demo.stepText = some t := by
    rw [fromString_parse Demo.step_parse, ht]
  obtain ⟨n1, n2⟩ := h.nests
  have hn : t.NestsWithin (Binding.stack [.http]) 1 2 := (C62_bindings (Nat.le_refl 2)).2
    ⟨n1, fun p s x hs hx => by
      obtain ⟨-, a, b, c⟩ := n2 p s x hs hx
      exact ⟨fun v hv => Nat.le_succ_of_le (a v hv), fun v hv => Nat.le_succ_of_le (b v hv),
        fun l hl v hv => Nat.le_succ_of_le (c l hl v hv)⟩, by rw [h.security]; nofun, by rw [h.context]; exact Nat.zero_le _⟩
  obtain ⟨str, p, e1, -, e2, -⟩ := C70_bindings (by decide) Demo.tag_tags Demo.tag_times (thingText_parse Demo.step_parse rfl)
    Demo.step_short Demo.step_noDup hr (Nat.le_refl 1) (by decide) hn (by decide)
  obtain ⟨h1, h2, h3, h4, -⟩ := h.absent
  refine ⟨t, str, hr, e1, (e2 ⟨fun ctx f r hf _ => ?_, by rw [h1]; nofun⟩).1⟩
  cases hf <;> simp_all

end Wot
