import Verif.Props.FloatText
/-
C71: all floating point numbers survive the text, if they are read exactly.
-/
namespace Wot

open FloatText F64

section
variable {D : Decimal} {x : F64} {cs : List Char}

/-- C71: with `float_roundtrip` what is read from a text is the float nearest to the number that it denotes, and nothing is read if
there is no finite one. -/
theorem C71_read (h : DecimalText D cs) : (serdeJsonExact.read cs = some x ↔ D.Nearest x ∧ x.neg = false) ∧
    (serdeJsonExact.read ('-' :: cs) = some x ↔ D.Nearest x ∧ x.neg = true) :=
  ⟨exact_nearest false h, exact_nearest true h⟩

/-- C71: then every finite float is read again from its text. -/
theorem C71_lawful : serdeJsonExact.Lawful := exact_lawful

/-- C71: the texts are the same with and without. -/
theorem C71_same_texts : serdeJsonExact.write = serdeJson.write := rfl

end

section
variable {X : ExtTypes} {C : ExtCodecs X} {env : SerdeEnv} {t : Thing X} {text : String} {h m : Nat}

/-- C71: so a Thing that has been read from any text, whatever its numbers, is written, and read back from both strings (as it is
stored) if no property has human readable information. -/
theorem C71_reread (he : env.Rfc5646Tags) (hi : env.Rfc3339Times) (sep : C.Separate) (once : C.WriteOnce)
    (hc : C.NumbersKept serdeJsonExact) {j : Json} (hj : ThingText serdeJsonExact j text) (hd : j.NoDup)
    (ht : Thing.fromString C env serdeJsonExact text = some t) (hx : ExtensionsKept C t) (hh : 1 ≤ h) (hm : 1 ≤ m)
    (hn : t.NestsWithin C h m) (hl : 2 * h + m ≤ 123) :
    ∃ s p, t.toString C env serdeJsonExact = some s ∧ t.toStringPretty C env serdeJsonExact = some p ∧
      ((∀ ps, t.properties = some ps → ∀ kv ∈ ps, kv.2.NoInfo) →
        Thing.fromString C env serdeJsonExact s = some t.stored ∧ Thing.fromString C env serdeJsonExact p = some t.stored) ∧
      (¬ (∀ ps, t.properties = some ps → ∀ kv ∈ ps, kv.2.NoInfo) →
        Thing.fromString C env serdeJsonExact s = none ∧ Thing.fromString C env serdeJsonExact p = none) :=
  C66_reread sep once (C69_stable he hi) hc hj (C66_lasts C71_lawful hj) hd ht hx hh hm hn hl

/-- C71: the same with any set of protocol bindings; then every HTTP response has to name headers, too. -/
theorem C71_bindings {l : List Binding} (hnd : l.Nodup) {t : Thing (Binding.stackTypes l)} (he : env.Rfc5646Tags)
    (hi : env.Rfc3339Times) {j : Json} (hj : ThingText serdeJsonExact j text) (hd : j.NoDup)
    (ht : Thing.fromString (Binding.stack l) env serdeJsonExact text = some t) (hh : 1 ≤ h) (hm : 1 ≤ m)
    (hn : t.NestsWithin (Binding.stack l) h m) (hlim : 2 * h + m ≤ 123) :
    ∃ s p, t.toString (Binding.stack l) env serdeJsonExact = some s ∧ t.toStringPretty (Binding.stack l) env serdeJsonExact = some p ∧
      (Binding.ThingHeadersGiven l t ∧ (∀ ps, t.properties = some ps → ∀ kv ∈ ps, kv.2.NoInfo) →
        Thing.fromString (Binding.stack l) env serdeJsonExact s = some t.stored ∧
        Thing.fromString (Binding.stack l) env serdeJsonExact p = some t.stored) ∧
      (¬ (Binding.ThingHeadersGiven l t ∧ ∀ ps, t.properties = some ps → ∀ kv ∈ ps, kv.2.NoInfo) →
        Thing.fromString (Binding.stack l) env serdeJsonExact s = none ∧
        Thing.fromString (Binding.stack l) env serdeJsonExact p = none) :=
  C66_bindings hnd (C69_stable he hi) hj (C66_lasts C71_lawful hj) hd ht hh hm hn hlim

end

/-! ### Examples -/

theorem Demo.step_parse_exact : Json.parse serdeJsonExact Demo.stepText = some Demo.stepTree := by decide +kernel

/-- `9007199254740991.0` is read as itself, and so is a number with more digits than fit into 64 bits. -/
example : serdeJsonExact.read "9007199254740991.0".toList = some Demo.fBig := by
  obtain ⟨_, _, _, _, -, -, -, -, -, -, h⟩ := C71_lawful.keeps Demo.fBig (by decide)
  rwa [C71_same_texts, C70_lost.2.1] at h

example : serdeJsonExact.read "0.1000000000000000055511151231257827021181583404541015625".toList = some Demo.fTenth ∧
    serdeJsonExact.read "1e400".toList = none ∧ serdeJsonExact.read "-1e-400".toList = some ⟨0x8000000000000000, by decide⟩ := by
  decide +kernel

example : serdeJsonExact.read "0.1".toList = some Demo.fTenth :=
  (C71_read Demo.tenth_text).1.2 ⟨Demo.nearest_of (by decide) (by decide +kernel), by decide⟩

/-- The bound that is lost otherwise is kept. -/
example : ((Thing.fromString (X := Demo.X) .nil Demo.tagEnv serdeJsonExact Demo.bigText).bind fun t =>
    (t.toString .nil Demo.tagEnv serdeJsonExact).bind fun s => (Thing.fromString (X := Demo.X) .nil Demo.tagEnv serdeJsonExact s).map
      Demo.upperBound) = some (some Demo.fBig) := by decide +kernel

/-- It is read, and read again from what is written. -/
example : ∃ t str, Thing.fromString (X := Demo.X) .nil Demo.tagEnv serdeJsonExact Demo.stepText = some t ∧
    t.toString .nil Demo.tagEnv serdeJsonExact = some str ∧ Thing.fromString .nil Demo.tagEnv serdeJsonExact str = some t.stored := by
  obtain ⟨t, s, n, ht, h⟩ : ∃ t s n, fromStr (X := Demo.X) .nil Demo.tagEnv Demo.stepTree = some t ∧ Demo.StepThing t s n :=
    ⟨_, _, _, rfl, ⟨rfl, rfl, rfl, rfl, rfl⟩, rfl, rfl, rfl, ⟨rfl, rfl⟩, rfl, rfl, rfl⟩
  have hr : Thing.fromString (X := Demo.X) .nil Demo.tagEnv serdeJsonExact Demo.stepText = some t := by
    rw [fromString_parse Demo.step_parse_exact, ht]
  have hn := h.nestsWithin
  obtain ⟨str, p, e1, -, e2, -⟩ := C71_reread Demo.tag_tags Demo.tag_times Demo.nil_separate Demo.nil_writeOnce
    (Demo.nil_numbers _) (thingText_parse Demo.step_parse_exact rfl) Demo.step_noDup hr
    (C50_extensions (C69_stable Demo.tag_tags Demo.tag_times) Demo.nil_lawful ((C62_limit _).2 t ht)) (Nat.le_refl 1) (Nat.le_refl 1) hn
    (by decide)
  exact ⟨t, str, hr, e1, (e2 (by rw [h.absent.1]; nofun)).1⟩

/-- Also with a protocol binding. -/
example : ∃ t str, Thing.fromString (Binding.stack [.http]) Demo.tagEnv serdeJsonExact Demo.stepText = some t ∧
    t.toString (Binding.stack [.http]) Demo.tagEnv serdeJsonExact = some str ∧
    Thing.fromString (Binding.stack [.http]) Demo.tagEnv serdeJsonExact str = some t.stored := by
  obtain ⟨t, s, n, ht, h⟩ : ∃ t s n, fromStr (Binding.stack [.http]) Demo.tagEnv Demo.stepTree = some t ∧ Demo.StepThing t s n :=
    ⟨_, _, _, rfl, ⟨rfl, rfl, rfl, rfl, rfl⟩, rfl, rfl, rfl, ⟨rfl, rfl⟩, rfl, rfl, rfl⟩
  have hr : Thing.fromString (Binding.stack [.http]) Demo.tagEnv serdeJsonExact Demo.stepText = some t := by
    rw [fromString_parse Demo.step_parse_exact, ht]
  obtain ⟨n1, n2⟩ := h.nests
  have hn : t.NestsWithin (Binding.stack [.http]) 1 2 := (C62_bindings (Nat.le_refl 2)).2
    ⟨n1, fun p s x hs hx => by
      obtain ⟨-, a, b, c⟩ := n2 p s x hs hx
      exact ⟨fun v hv => Nat.le_succ_of_le (a v hv), fun v hv => Nat.le_succ_of_le (b v hv),
        fun l hl v hv => Nat.le_succ_of_le (c l hl v hv)⟩, by rw [h.security]; nofun, by rw [h.context]; exact Nat.zero_le _⟩
  obtain ⟨str, p, e1, -, e2, -⟩ := C71_bindings (by decide) Demo.tag_tags Demo.tag_times (thingText_parse Demo.step_parse_exact rfl)
    Demo.step_noDup hr (Nat.le_refl 1) (by decide) hn (by decide)
  obtain ⟨h1, h2, h3, h4, -⟩ := h.absent
  refine ⟨t, str, hr, e1, (e2 ⟨fun ctx f r hf _ => ?_, by rw [h1]; nofun⟩).1⟩
  cases hf <;> simp_all

end Wot
