import Verif.Lemmas.JsonStruct
import Verif.Lemmas.Numbers
import Verif.Props.DemoDeep
import Verif.Props.Nesting
import Verif.Props.Reread
/-
C65, C66: the characters of JSON texts and of the texts of Things.
-/
namespace Wot

/-! ### C65: JSON texts -/

section
variable {fl : FloatText} {i j : Json} {text : String}

/-- C65: a text is read as a tree just when the grammar of JSON relates them. -/
theorem C65_read : Json.parse fl text = some j ↔ JsonText fl j text := parse_iff

/-- C65: the grammar is unambiguous. -/
theorem C65_unambiguous (h : JsonText fl i text) (h' : JsonText fl j text) : i = j :=
  Option.some.inj ((parse_iff.2 h).symm.trans (parse_iff.2 h'))

/-- C65: white space around a text does not matter. -/
theorem C65_white_space {v w : String} (hv : IsSpace v.toList) (hw : IsSpace w.toList) :
    Json.parse fl (v ++ text ++ w) = Json.parse fl text := by
  have add : ∀ {j}, JsonText fl j text → JsonText fl j (v ++ text ++ w) := by
    rintro j ⟨a, cs, b, ha, h, hb, e⟩
    refine ⟨v.toList ++ a, cs, b ++ w.toList, ?_, h, ?_, by simp [e]⟩ <;>
      intro c hc <;> rcases List.mem_append.1 hc with hc | hc
    · exact hv c hc
    · exact ha c hc
    · exact hb c hc
    · exact hw c hc
  have drop : ∀ {j}, Json.parse fl (v ++ text ++ w) = some j → Json.parse fl text = some j := by
    intro j h
    exact parse_iff.2 (jsonText_strip hv hw (parse_iff.1 h))
  cases h : Json.parse fl text with
  | some j => exact parse_iff.2 (add (parse_iff.1 h))
  | none =>
    cases h' : Json.parse fl (v ++ text ++ w) with
    | none => rfl
    | some j => rw [drop h'] at h; cases h

/-- C65: what is written, compact or with line breaks, is a text of the tree. -/
theorem C65_written (h : j.NumbersKept fl) :
    JsonText fl j (String.ofList (j.compact fl)) ∧ JsonText fl j (String.ofList (j.pretty fl 0)) :=
  ⟨⟨[], _, [], space_nil, compact_text j h, space_nil, by simp⟩,
    ⟨[], _, [], space_nil, pretty_text j 0 h, space_nil, by simp⟩⟩

/-- C65: so it is read back. -/
theorem C65_read_back (h : j.NumbersKept fl) :
    Json.parse fl (String.ofList (j.compact fl)) = some j ∧ Json.parse fl (String.ofList (j.pretty fl 0)) = some j :=
  ⟨parse_iff.2 (C65_written h).1, parse_iff.2 (C65_written h).2⟩

/-- C65: and different trees have different texts. -/
theorem C65_injective (hi : i.NumbersKept fl) (hj : j.NumbersKept fl) :
    (i.compact fl = j.compact fl → i = j) ∧ (i.pretty fl 0 = j.pretty fl 0 → i = j) := by
  refine ⟨fun h => ?_, fun h => ?_⟩
  · exact C65_unambiguous (C65_written hi).1 (h ▸ (C65_written hj).1)
  · exact C65_unambiguous (C65_written hi).2 (h ▸ (C65_written hj).2)

end

/-! ### C66: the texts of Things -/

section
variable {X : ExtTypes} {C : ExtCodecs X} {env : SerdeEnv} {fl : FloatText} {t : Thing X} {text : String} {h m : Nat}

/-- C66: from a JSON text a Thing is read just when it is read from the tree that the grammar relates to the text, and
the limit on nesting permits it. (Things are also read from some texts that are not JSON texts in this sense: see C74.) -/
theorem C66_reads {j : Json} (h : JsonText fl j text) :
    (Thing.fromString C env fl text : Option (Thing X)) = fromStr C env j := fromString_text h

/-- C66: how the tree is spelled - white space, escapes, the notation of numbers - does not matter. -/
theorem C66_any_spelling {j : Json} {text' : String} (h : JsonText fl j text) (h' : JsonText fl j text') :
    (Thing.fromString C env fl text : Option (Thing X)) = Thing.fromString C env fl text' := by
  rw [C66_reads h, C66_reads h']

/-- C66: the string that is written for a Thing is the text of its tree. -/
theorem C66_written (hn : t.NumbersKept fl C)
    (hs : t.toString C env fl = some text ∨ t.toStringPretty C env fl = some text) :
    ∃ j, toText C env t = some j ∧ JsonText fl j text := by
  rcases hs with hs | hs <;> obtain ⟨j, hj, rfl⟩ := Option.map_eq_some_iff.1 hs
  · exact ⟨j, hj, (C65_written (nums_thing hn hj)).1⟩
  · exact ⟨j, hj, (C65_written (nums_thing hn hj)).2⟩

/-- C66: a Thing is read back from the string that is written for it, compact or with line breaks, if the numbers in it have
texts from which they are read, it is not nested too deep and no property has information twice. -/
theorem C66_read_back (sep : C.Separate) (once : C.WriteOnce) (hk : Kept env C t) (hh : 1 ≤ h) (hm : 1 ≤ m)
    (hd : t.NestsWithin C h m) (hl : 2 * h + m ≤ 123) (hn : t.NumbersKept fl C)
    (hs : t.toString C env fl = some text ∨ t.toStringPretty C env fl = some text) :
    ((∀ ps, t.properties = some ps → ∀ kv ∈ ps, ¬ kv.2.RepeatsInfo) →
      Thing.fromString C env fl text = some t.stored) ∧
    (Thing.fromString C env fl text = some t ↔
      t.Lossless ∧ ∀ ps, t.properties = some ps → ∀ kv ∈ ps, kv.2.NoInfo) := by
  obtain ⟨j, hj, ht⟩ := C66_written hn hs
  have e : (Thing.fromString C env fl text : Option (Thing X)) = fromStr C env j := by
    exact C66_reads ht
  rw [e]
  exact C62_read_back sep once hk hh hm hd hl hj

/-- C66: in particular the Things that builders make: they are written, and read back from both strings. -/
theorem C66_built (sep : C.Separate) (once : C.WriteOnce) {title : String} {hist : List (ThingOp X)}
    {b : ThingBuilder X} (hr : Reachable X title hist b) (hb : b.build env.toEnv = .ok t) (ht : env.TagsStable)
    (hv : ValuesKept env C t) (hw : Writable env C t) (hh : 1 ≤ h) (hm : 1 ≤ m) (hd : t.NestsWithin C h m)
    (hl : 2 * h + m ≤ 123) (hn : t.NumbersKept fl C)
    (hi : ∀ ps, t.properties = some ps → ∀ kv ∈ ps, ¬ kv.2.RepeatsInfo) :
    ∃ s p, t.toString C env fl = some s ∧ t.toStringPretty C env fl = some p ∧
      Thing.fromString C env fl s = some t.stored ∧ Thing.fromString C env fl p = some t.stored := by
  obtain ⟨j, hj⟩ := C48_writable.2.2 hw
  have h1 : t.toString C env fl = some (String.ofList (j.compact fl)) := by rw [Thing.toString, hj]; rfl
  have h2 : t.toStringPretty C env fl = some (String.ofList (j.pretty fl 0)) := by rw [Thing.toStringPretty, hj]; rfl
  have hk := hr.kept hb ht hv
  exact ⟨_, _, h1, h2, (C66_read_back sep once hk hh hm hd hl hn (.inl h1)).1 hi,
    (C66_read_back sep once hk hh hm hd hl hn (.inr h2)).1 hi⟩

/-- C66: if every float is read as it is written, everything in a text lasts. -/
theorem C66_lasts (hf : fl.Lawful) {j : Json} (hj : ThingText fl j text) : j.NumbersLast fl := thing_last hf hj

/-- C66: a Thing that has been read from a text can be written again, if the numbers in the text last. From what is
written the Thing is read again (as it is stored) if no property has human readable information, and otherwise
nothing. -/
theorem C66_reread (sep : C.Separate) (once : C.WriteOnce) (hs : env.Stable) (hc : C.NumbersKept fl)
    {j : Json} (hj : ThingText fl j text) (hf : j.NumbersLast fl) (hd : j.NoDup) (ht : Thing.fromString C env fl text = some t)
    (he : ExtensionsKept C t) (hh : 1 ≤ h) (hm : 1 ≤ m) (hn : t.NestsWithin C h m) (hl : 2 * h + m ≤ 123) :
    ∃ s p, t.toString C env fl = some s ∧ t.toStringPretty C env fl = some p ∧
      ((∀ ps, t.properties = some ps → ∀ kv ∈ ps, kv.2.NoInfo) →
        Thing.fromString C env fl s = some t.stored ∧ Thing.fromString C env fl p = some t.stored) ∧
      (¬ (∀ ps, t.properties = some ps → ∀ kv ∈ ps, kv.2.NoInfo) →
        Thing.fromString C env fl s = none ∧ Thing.fromString C env fl p = none) := by
  have hr : fromText C env j = some t := fromString_from hj ht
  have hk := (thing_from hs (.last fl) hf hr).numbersKept hc
  obtain ⟨i, hi, h1, h2⟩ := C50_text sep once hs hd hr he
  have hi' : fromStr C env i = fromText C env i :=
    (C62_limit i).1 (Nat.le_trans (C62_bound hh hm hn hi) (by omega))
  obtain ⟨w1, w2⟩ := C65_written (nums_thing hk hi)
  have e : ∀ {s}, JsonText fl i s → (Thing.fromString C env fl s : Option (Thing X)) = fromText C env i := by
    intro s hs
    rw [C66_reads hs, ← hi']
  refine ⟨_, _, by rw [Thing.toString, hi]; rfl, by rw [Thing.toStringPretty, hi]; rfl, fun hq => ?_, fun hq => ?_⟩
  · rw [e w1, e w2]; exact ⟨h1 hq, h1 hq⟩
  · rw [e w1, e w2]; exact ⟨h2 hq, h2 hq⟩

/-- C66: with any set of protocol bindings, a Thing that has been read from a text whose numbers last can be written again. From both strings the
Thing is read again if every HTTP response in it names headers and no property has human readable information, and otherwise
nothing. -/
theorem C66_bindings {l : List Binding} (hl : l.Nodup) {t : Thing (Binding.stackTypes l)} (hs : env.Stable)
    {j : Json} (hj : ThingText fl j text) (hf : j.NumbersLast fl) (hd : j.NoDup)
    (ht : Thing.fromString (Binding.stack l) env fl text = some t) (hh : 1 ≤ h) (hm : 1 ≤ m)
    (hn : t.NestsWithin (Binding.stack l) h m) (hlim : 2 * h + m ≤ 123) :
    ∃ s p, t.toString (Binding.stack l) env fl = some s ∧ t.toStringPretty (Binding.stack l) env fl = some p ∧
      (Binding.ThingHeadersGiven l t ∧ (∀ ps, t.properties = some ps → ∀ kv ∈ ps, kv.2.NoInfo) →
        Thing.fromString (Binding.stack l) env fl s = some t.stored ∧
        Thing.fromString (Binding.stack l) env fl p = some t.stored) ∧
      (¬ (Binding.ThingHeadersGiven l t ∧ ∀ ps, t.properties = some ps → ∀ kv ∈ ps, kv.2.NoInfo) →
        Thing.fromString (Binding.stack l) env fl s = none ∧ Thing.fromString (Binding.stack l) env fl p = none) := by
  have hr : fromText (Binding.stack l) env j = some t := fromString_from hj ht
  have hk := (thing_from hs (.last fl) hf hr).numbersKept (Binding.stack_nums l)
  obtain ⟨-, i, -, hi, -, -, h1, h2⟩ := C50_bindings hl hs hd hr
  have hi' : fromStr (Binding.stack l) env i = fromText (Binding.stack l) env i :=
    (C62_limit i).1 (Nat.le_trans (C62_bound hh hm hn hi) (by omega))
  obtain ⟨w1, w2⟩ := C65_written (nums_thing hk hi)
  have e : ∀ {s}, JsonText fl i s →
      (Thing.fromString (Binding.stack l) env fl s : Option (Thing _)) = fromText (Binding.stack l) env i := by
    intro s hs
    rw [C66_reads hs, ← hi']
  refine ⟨_, _, by rw [Thing.toString, hi]; rfl, by rw [Thing.toStringPretty, hi]; rfl, fun hq => ?_, fun hq => ?_⟩
  · rw [e w1, e w2]; exact ⟨h1 hq, h1 hq⟩
  · rw [e w1, e w2]; exact ⟨h2 hq, h2 hq⟩

/-- C66: two Things with the same string are stored alike. -/
theorem C66_injective (sep : C.Separate) {t' : Thing X} (hk : Kept env C t) (hk' : Kept env C t')
    (hn : t.NumbersKept fl C) (hn' : t'.NumbersKept fl C)
    (hs : t.toString C env fl = some text) (hs' : t'.toString C env fl = some text) : t.stored = t'.stored := by
  obtain ⟨j, hj, h⟩ := C66_written hn (.inl hs)
  obtain ⟨j', hj', h'⟩ := C66_written hn' (.inl hs')
  cases C65_unambiguous h h'
  exact Option.some.inj ((thing_stored sep hk hj _ (.of_norm j)).symm.trans (thing_stored sep hk' hj' _ (.of_norm j)))

end

/-! ### Examples -/

namespace Demo

/-- The texts of three floats. -/
def floats : FloatText where
  write f := if f = f0 then "0.0".toList else if f = f100 then "100.0".toList else "1.5".toList
  read cs :=
    if cs = "0.0".toList ∨ cs = "0e0".toList then some f0
    else if cs = "100.0".toList ∨ cs = "1E+2".toList then some f100
    else if cs = "1.5".toList then some ⟨0x3FF8000000000000, by decide⟩ else none

theorem keeps_f0 : floats.Keeps f0 :=
  ⟨[], ['0'], ['.', '0'], [], rfl, by simp, ⟨⟨by simp, by simp⟩, by simp⟩, .inr ⟨['0'], rfl, by simp, by simp⟩, .inl rfl,
    by simp, rfl⟩

theorem keeps_f100 : floats.Keeps f100 :=
  ⟨[], ['1', '0', '0'], ['.', '0'], [], rfl, by simp, ⟨⟨by simp, by simp⟩, by simp⟩, .inr ⟨['0'], rfl, by simp, by simp⟩,
    .inl rfl, by simp, rfl⟩

theorem quiet_schema {p : Position} {s x : DS X} (hs : quietThing.HasSchema p s) (hx : Within x s) :
    x = s ∧ x.head.constant = none ∧ x.head.default = none ∧ x.head.enumeration = none ∧ x.oneOf = none ∧
      x.subtype = some (.number { minimum := some (.inclusive f0), maximum := some (.inclusive f100) }) := by
  obtain ⟨u, hu, rfl⟩ := (quiet_reachable.hasSchema quiet_ok).1 hs
  obtain ⟨y, hy, rfl⟩ := within_mapLang.1 hx
  cases hu with
  | property h1 =>
    cases List.mem_singleton.1 h1
    rcases within_iff.1 hy with rfl | ⟨l, hl, -⟩ | ⟨st, hst, c, hc, -⟩
    · exact ⟨rfl, rfl, rfl, rfl, rfl, rfl⟩
    · cases hl
    · cases hst; cases hc
  | input h1 h2 => cases List.mem_singleton.1 h1
  | output h1 h2 => cases List.mem_singleton.1 h1
  | subscription h1 h2 => cases List.mem_singleton.1 h1
  | data h1 h2 => cases List.mem_singleton.1 h1
  | dataResponse h1 h2 => cases List.mem_singleton.1 h1
  | cancellation h1 h2 => cases List.mem_singleton.1 h1
  | uriVariable h1 => cases h1
  | propertyUriVariable h1 h2 => cases List.mem_singleton.1 h1; cases h2
  | actionUriVariable h1 h2 => cases List.mem_singleton.1 h1
  | eventUriVariable h1 h2 => cases List.mem_singleton.1 h1
  | schemaDefinition h1 => cases h1

theorem quiet_nests : quietThing.NestsWithin ExtCodecs.nil 1 1 where
  schemas p s hs k hk := by
    cases hk with
    | one => exact Nat.le_refl 1
    | more hc _ =>
      obtain ⟨-, -, -, -, h1, h2⟩ := quiet_schema hs (.self s)
      rcases holds_child.1 hc with ⟨l, hl, -⟩ | ⟨st, hst, hc⟩
      · rw [h1] at hl; cases hl
      · rw [h2] at hst; cases hst; cases hc
  values p s x hs hx := by
    obtain ⟨-, h1, h2, h3, -, h4⟩ := quiet_schema hs hx
    rw [h1, h2, h3, h4]
    refine ⟨nofun, nofun, nofun, ?_, nofun, nofun⟩
    intro es h; cases h; nofun
  forms _ _ _ := ⟨fun es h => by cases h; nofun, fun _ _ es h => by cases h; nofun⟩
  interactions _ _ es h := by cases h; nofun
  properties _ _ _ _ es h := by cases h; nofun
  actions _ _ _ _ es h := by cases h; nofun
  events _ _ _ _ es h := by cases h; nofun
  security := by intro n s _ _ h; cases h
  context := Nat.zero_le _
  other es h := by cases h; nofun

theorem quiet_numbers {fl : FloatText} (h0 : fl.Keeps f0) (h100 : fl.Keeps f100) :
    quietThing.NumbersKept fl ExtCodecs.nil where
  floats p s x n f hs hx hn hu _ := by
    obtain ⟨-, -, -, -, -, h⟩ := quiet_schema hs hx
    rw [h] at hn
    cases hn
    rcases hu with h | h | h | h | h <;> cases h
    · exact h100
    · exact h0
  values p s x hs hx := by
    obtain ⟨-, h1, h2, h3, -, h4⟩ := quiet_schema hs hx
    rw [h1, h2, h3, h4]
    refine ⟨nofun, nofun, nofun, ?_, nofun, nofun⟩
    intro es h; cases h; nofun
  forms _ _ _ := ⟨fun es h => by cases h; nofun, fun _ _ es h => by cases h; nofun⟩
  interactions _ _ es h := by cases h; nofun
  properties _ _ _ _ es h := by cases h; nofun
  actions _ _ _ _ es h := by cases h; nofun
  events _ _ _ _ es h := by cases h; nofun
  security := by intro n s _ _ h; cases h
  context := by intro n h; cases h
  other es h := by cases h; nofun

/-- The text of the Thing with one property. -/
def quietText : String :=
  "{\"@context\":\"https://www.w3.org/2022/wot/td/v1.1\",\"title\":\"Lamp\",\"properties\":{\"temperature\":{\"forms\":" ++
  "[{\"op\":[\"readproperty\",\"observeproperty\"],\"href\":\"/temp\"}],\"readOnly\":true,\"writeOnly\":false," ++
  "\"type\":\"number\",\"maximum\":100.0,\"minimum\":0.0,\"observable\":true}},\"security\":[],\"securityDefinitions\":{}}"

end Demo

/-- Texts of all floats: the number of the bits, with a fraction. -/
def Demo.allFloats : FloatText where
  write f := decimal f.bits.val ++ ['.', '0']
  read cs :=
    if h : digitsValue (cs.take (cs.length - 2)) < 2^64 then
      if (F64.mk ⟨_, h⟩).isFinite then some ⟨⟨_, h⟩⟩ else none
    else none

theorem Demo.allFloats_lawful : Demo.allFloats.Lawful where
  keeps f hf := by
    refine ⟨[], decimal f.bits.val, ['.', '0'], [], by simp [allFloats], by simp, (decimal_integer _).1,
      .inr ⟨['0'], rfl, by simp, by simp⟩, .inl rfl, by simp, ?_⟩
    have e : digitsValue (decimal f.bits.val) = f.bits.val := (decimal_digits _).2.2.1
    have hlt : f.bits.val < 2^64 := f.bits.isLt
    have ht : ∀ x : List Char, (x ++ ['.', '0']).take ((x ++ ['.', '0']).length - 2) = x := by simp
    simp only [allFloats, ht]
    rw [dif_pos (by rw [e]; exact hlt)]
    have : (F64.mk ⟨digitsValue (decimal f.bits.val), by rw [e]; exact hlt⟩) = f := by
      cases f with
      | mk b => simp only [F64.mk.injEq]; exact Fin.ext e
    rw [this, if_pos hf]
  finite cs f h := by
    simp only [allFloats] at h
    split at h
    · split at h
      · next hf => cases h; exact hf
      · cases h
    · cases h

theorem Demo.nil_numbers (fl : FloatText) : ExtCodecs.nil.NumbersKept fl := by
  constructor <;> (intro a es h; cases h; nofun)

/-- It is written, and read back, also from the text with line breaks. -/
example : Demo.quietThing.toString .nil Demo.senv Demo.floats = some Demo.quietText ∧
    Thing.fromString .nil Demo.senv Demo.floats Demo.quietText = some Demo.quietThing.stored ∧
    ∃ p, Demo.quietThing.toStringPretty .nil Demo.senv Demo.floats = some p ∧
      Thing.fromString .nil Demo.senv Demo.floats p = some Demo.quietThing.stored := by
  obtain ⟨s, p, h1, h2, h3, h4⟩ := C66_built Demo.nil_separate Demo.nil_writeOnce Demo.quiet_reachable Demo.quiet_ok
    Demo.tagsStable Demo.quiet_values Demo.quiet_writable (Nat.le_refl 1) (Nat.le_refl 1) Demo.quiet_nests
    (by decide) (Demo.quiet_numbers Demo.keeps_f0 Demo.keeps_f100) (fun m hm kv hkv hr => by
      have := Demo.quiet_noInfo m hm kv hkv
      simp_all [PropertyAffordance.NoInfo, PropertyAffordance.RepeatsInfo])
  have h : Demo.quietThing.toString .nil Demo.senv Demo.floats = some Demo.quietText := by
    decide +kernel
  rw [h] at h1
  cases h1
  exact ⟨h, h3, p, h2, h4⟩

/-- Floats of which one is read as its neighbour. -/
def Demo.roughFloats : FloatText where
  write := Demo.floats.write
  read cs := if cs = "100.0".toList then some ⟨0x4059000000000001, by decide⟩ else Demo.floats.read cs

/-- The upper bound of the first property, if it is a number. -/
def Demo.upperBound (t : Thing Demo.X) : Option F64 :=
  t.properties.bind fun ps => ps.head?.bind fun kv => kv.2.dataSchema.subtype.bind fun
    | .number n => n.maximum.map Maximum.bound
    | _ => none

/-- The law of floats is needed: if a bound is read in a different last place, as serde_json may do without its feature
`float_roundtrip`, a different Thing is read without any error. -/
theorem C66_law_needed : ∃ fl text t', Demo.quietThing.toString .nil Demo.senv fl = some text ∧
    Thing.fromString .nil Demo.senv fl text = some t' ∧ t' ≠ Demo.quietThing.stored := by
  have h1 : ((Thing.fromString .nil Demo.senv Demo.roughFloats Demo.quietText).bind Demo.upperBound) =
      some ⟨0x4059000000000001, by decide⟩ := by decide +kernel
  obtain ⟨t', ht, h2⟩ := Option.bind_eq_some_iff.1 h1
  refine ⟨Demo.roughFloats, Demo.quietText, t', by decide +kernel, ht, fun e => ?_⟩
  rw [e] at h2
  exact absurd h2 (by decide +kernel)

/-- A text with white space, escapes, surrogates and numbers in several notations. -/
example : Json.parse Demo.floats " {\"a\\u00e9\" : [1, -2 , \"\\ud83d\\ude00\\n\", 1E+2, 18446744073709551615 ] }\n" =
    some (.obj [("aé", .arr [.num (.pos 1), .num (.neg 1), .str "😀\n", .num (.float Demo.f100),
      .num (.pos 18446744073709551615)])]) := by decide +kernel

/-- Leading zeros, missing digits, commas at the end, control characters, lonely surrogates, and anything after the value are
not accepted. -/
example : ∀ text ∈ ["[01]", "[1.]", "[.5]", "[1e]", "[+1]", "[1,]", "[,1]", "[1 2]", "{\"a\":1,}", "{\"a\" 1}", "{a:1}",
    "\"\n\"", "\"\\ud83d\"", "\"\\ude00\"", "\"\\x\"", "\"", "[", "nul", "1 1", ""],
    Json.parse Demo.floats text = none := by decide +kernel

/-- A tree is written and read back. -/
example : (Json.obj [("k\t\"", .arr [.num (.float Demo.f100), .obj [], .null])]).NumbersKept Demo.floats ∧
    String.ofList ((Json.obj [("k\t\"", .arr [.num (.float Demo.f100), .obj [], .null])]).compact Demo.floats) =
      "{\"k\\t\\\"\":[100.0,{},null]}" ∧
    String.ofList ((Json.obj [("k\t\"", .arr [.num (.float Demo.f100), .obj [], .null])]).pretty Demo.floats 0) =
      "{\n  \"k\\t\\\"\": [\n    100.0,\n    {},\n    null\n  ]\n}" := by
  refine ⟨nums_obj ?_, by decide +kernel, by decide +kernel⟩
  intro kv hkv
  cases List.mem_singleton.1 hkv
  refine nums_arr ?_
  simp only [List.mem_cons, List.not_mem_nil, or_false]
  rintro j (rfl | rfl | rfl)
  · exact nums_num Demo.keeps_f100
  · exact nums_obj nofun
  · exact nums_null

/-- A text of a Thing, with members in unusual order, white space and escapes. -/
def Demo.looseText : String :=
  " { \"title\" : \"L\\u0061mp\",\n \"security\": [ ], \"securityDefinitions\": {},\n\t" ++
  "\"@context\": \"https:\\/\\/www.w3.org/2022/wot/td/v1.1\" } "

/-- It is read, and written in the usual way; from what is written, the same is read. -/
example : ∃ t s, Thing.fromString (X := Demo.X) .nil Demo.senv Demo.allFloats Demo.looseText = some t ∧
    t.title = "Lamp" ∧ t.toString .nil Demo.senv Demo.allFloats = some s ∧
    s = "{\"@context\":\"https://www.w3.org/2022/wot/td/v1.1\",\"title\":\"Lamp\",\"security\":[],\"securityDefinitions\":{}}" ∧
    Thing.fromString .nil Demo.senv Demo.allFloats s = some t.stored := by
  let d : Json := .obj [("title", .str "Lamp"), ("security", .arr []), ("securityDefinitions", .obj []),
    ("@context", .str "https://www.w3.org/2022/wot/td/v1.1")]
  have hp : Json.parse Demo.allFloats Demo.looseText = some d := by decide +kernel
  obtain ⟨t, ht, h1, h2, h3, h4, h5, h6, h7, h8, h9, hw⟩ : ∃ t, fromStr (X := Demo.X) .nil Demo.senv d = some t ∧
      t.title = "Lamp" ∧ t.properties = none ∧ t.actions = none ∧ t.events = none ∧ t.forms = none ∧
      t.uriVariables = none ∧ t.schemaDefinitions = none ∧ t.securityDefinitions = [] ∧ t.context = .str tdContext11 ∧
      t.toString .nil Demo.senv Demo.allFloats = some "{\"@context\":\"https://www.w3.org/2022/wot/td/v1.1\",\"title\":\"Lamp\",\"security\":[],\"securityDefinitions\":{}}" :=
    ⟨_, rfl, rfl, rfl, rfl, rfl, rfl, rfl, rfl, rfl, rfl, by decide +kernel⟩
  have hs : ∀ {p s}, ¬ t.HasSchema p s := by intro p s h; cases h <;> simp_all
  have hr : Thing.fromString (X := Demo.X) .nil Demo.senv Demo.allFloats Demo.looseText = some t := by
    rw [fromString_parse hp]; exact ht
  have hn : t.NestsWithin ExtCodecs.nil 1 1 :=
    { schemas := fun p s h => (hs h).elim
      values := fun p s x h => (hs h).elim
      forms := fun _ _ _ => ⟨fun es h => by cases h; nofun, fun _ _ es h => by cases h; nofun⟩
      interactions := fun _ _ es h => by cases h; nofun
      properties := fun _ _ _ _ es h => by cases h; nofun
      actions := fun _ _ _ _ es h => by cases h; nofun
      events := fun _ _ _ _ es h => by cases h; nofun
      security := by rw [h8]; intro n s _ _ h; cases h
      context := by rw [h9]; exact Nat.zero_le _
      other := fun es h => by cases h; nofun }
  obtain ⟨s, p, e1, -, e2, -⟩ := C66_reread Demo.nil_separate Demo.nil_writeOnce Demo.stable
    (Demo.nil_numbers _) (thingText_parse hp rfl) (C66_lasts Demo.allFloats_lawful (thingText_parse hp rfl)) (by simp [d, Json.NoDup, Json.NoDupList, Json.NoDupMembers]) hr
    (C50_extensions Demo.stable Demo.nil_lawful ((C62_limit d).2 t ht)) (Nat.le_refl 1) (Nat.le_refl 1) hn (by decide)
  rw [hw] at e1
  cases e1
  exact ⟨t, _, hr, h1, hw, rfl, (e2 (by rw [h2]; nofun)).1⟩

/-- A text with HTTP headers, or without. -/
def Demo.webText (headers : String) : String :=
  "{\"title\":\"Lamp\",\"security\":[],\"securityDefinitions\":{},\"forms\":[{\"href\":\"/\",\"op\":\"readallproperties\"," ++
  "\"response\":{\"contentType\":\"\",\"htv:headers\":[" ++ headers ++ "]}}]}"

/-- Its tree. -/
def Demo.webTree (headers : List Json) : Json :=
  .obj [("title", .str "Lamp"), ("security", .arr []), ("securityDefinitions", .obj []),
    ("forms", .arr [.obj [("href", .str "/"), ("op", .str "readallproperties"),
      ("response", .obj [("contentType", .str ""), ("htv:headers", .arr headers)])]])]

theorem Demo.web_text {headers : String} {hs : List Json} {t : Thing (Binding.stackTypes [.http])}
    (hp : Json.parse Demo.allFloats (Demo.webText headers) = some (Demo.webTree hs)) (hd : (Demo.webTree hs).NoDup)
    (ht : fromStr (Binding.stack [.http]) Demo.senv (Demo.webTree hs) = some t)
    (h : t.properties = none ∧ t.actions = none ∧ t.events = none ∧ t.uriVariables = none ∧ t.schemaDefinitions = none ∧
      t.securityDefinitions = [] ∧ t.context = .str tdContext11) :
    ∃ s, t.toString (Binding.stack [.http]) Demo.senv Demo.allFloats = some s ∧
      (Binding.ThingHeadersGiven [.http] t →
        Thing.fromString (Binding.stack [.http]) Demo.senv Demo.allFloats s = some t.stored) ∧
      (¬ Binding.ThingHeadersGiven [.http] t →
        Thing.fromString (Binding.stack [.http]) Demo.senv Demo.allFloats s = none) := by
  obtain ⟨h1, h2, h3, h4, h5, h6, h7⟩ := h
  have hs : ∀ {p s}, ¬ t.HasSchema p s := by intro p s h; cases h <;> simp_all
  have hr : Thing.fromString (Binding.stack [.http]) Demo.senv Demo.allFloats (Demo.webText headers) = some t := by
    rw [fromString_parse hp]; exact ht
  have hn : t.NestsWithin (Binding.stack [.http]) 1 2 := (C62_bindings (Nat.le_refl 2)).2
    ⟨fun _ _ h => (hs h).elim, fun _ _ _ h => (hs h).elim, by rw [h6]; nofun, by rw [h7]; exact Nat.zero_le _⟩
  have hi : ∀ ps, t.properties = some ps → ∀ kv ∈ ps, kv.2.NoInfo := by rw [h1]; nofun
  obtain ⟨s, p, e1, -, e2, e3⟩ := C66_bindings (by decide) Demo.stable (thingText_parse hp rfl)
    (C66_lasts Demo.allFloats_lawful (thingText_parse hp rfl)) hd hr (Nat.le_refl 1) (by decide) hn (by decide)
  exact ⟨s, e1, fun hg => (e2 ⟨hg, hi⟩).1, fun hg => (e3 fun h => hg h.1).1⟩

/-- With a header it can be read, written and read again. -/
example : ∃ t s, Thing.fromString (Binding.stack [.http]) Demo.senv Demo.allFloats (Demo.webText "{}") = some t ∧
    t.toString (Binding.stack [.http]) Demo.senv Demo.allFloats = some s ∧
    Thing.fromString (Binding.stack [.http]) Demo.senv Demo.allFloats s = some t.stored := by
  have hp : Json.parse Demo.allFloats (Demo.webText "{}") = some (Demo.webTree [.obj []]) := by decide +kernel
  obtain ⟨t, ht, hfacts, hf⟩ : ∃ t, fromStr (Binding.stack [.http]) Demo.senv (Demo.webTree [.obj []]) = some t ∧
      (t.properties = none ∧ t.actions = none ∧ t.events = none ∧ t.uriVariables = none ∧ t.schemaDefinitions = none ∧
        t.securityDefinitions = [] ∧ t.context = .str tdContext11) ∧
      t.forms.map (fun l => l.map fun f => f.response.map fun r => r.other.head.headers.length) = some [some 1] :=
    ⟨_, rfl, ⟨rfl, rfl, rfl, rfl, rfl, rfl, rfl⟩, rfl⟩
  obtain ⟨s, e1, e2, -⟩ := Demo.web_text hp (by simp [Demo.webTree, Json.NoDup, Json.NoDupList, Json.NoDupMembers]) ht hfacts
  refine ⟨t, s, by rw [fromString_parse hp]; exact ht, e1, e2 fun ctx f r h hr => ?_⟩
  obtain ⟨h1, h2, h3, -⟩ := hfacts
  cases h with
  | thing hl hm =>
    rw [hl] at hf
    simp only [Option.map_some, Option.some.injEq] at hf
    have := List.mem_map_of_mem (f := fun f : Form (Binding.stackTypes [.http]) =>
      f.response.map fun r => r.other.head.headers.length) hm
    rw [hf] at this
    simp only [List.mem_singleton, hr, Option.map_some, Option.some.injEq] at this
    exact ⟨fun e => (by rw [e] at this; cases this), trivial⟩
  | property hl => rw [h1] at hl; cases hl
  | action hl => rw [h2] at hl; cases hl
  | event hl => rw [h3] at hl; cases hl

/-- Without headers it can be read and written, but from what is written nothing is read. -/
example : ∃ t s, Thing.fromString (Binding.stack [.http]) Demo.senv Demo.allFloats (Demo.webText "") = some t ∧
    t.toString (Binding.stack [.http]) Demo.senv Demo.allFloats = some s ∧
    Thing.fromString (Binding.stack [.http]) Demo.senv Demo.allFloats s = none := by
  have hp : Json.parse Demo.allFloats (Demo.webText "") = some (Demo.webTree []) := by decide +kernel
  obtain ⟨t, f, r, ht, hfacts, hf, hr, hh⟩ : ∃ t f r, fromStr (Binding.stack [.http]) Demo.senv (Demo.webTree []) = some t ∧
      (t.properties = none ∧ t.actions = none ∧ t.events = none ∧ t.uriVariables = none ∧ t.schemaDefinitions = none ∧
        t.securityDefinitions = [] ∧ t.context = .str tdContext11) ∧
      t.forms = some [f] ∧ f.response = some r ∧ r.other.head.headers = [] :=
    ⟨_, _, _, rfl, ⟨rfl, rfl, rfl, rfl, rfl, rfl, rfl⟩, rfl, rfl, rfl⟩
  obtain ⟨s, e1, -, e2⟩ := Demo.web_text hp (by simp [Demo.webTree, Json.NoDup, Json.NoDupList, Json.NoDupMembers]) ht hfacts
  exact ⟨t, s, by rw [fromString_parse hp]; exact ht, e1, e2 fun h =>
    (h _ f r (.thing hf (List.mem_singleton.2 rfl)) hr).1 hh⟩

end Wot
