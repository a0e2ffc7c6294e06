import Verif.Lemmas.Writable
import Verif.Props.DemoStore
/-
C28: Things and JSON values. C29: Things and JSON text. C48: which Things can be written.
-/
namespace Wot

variable {X : ExtTypes} {C : ExtCodecs X} {env : SerdeEnv} {title : String} {h : List (ThingOp X)}
  {b : ThingBuilder X} {t : Thing X}

/-! ### C48 -/

/-- A Thing can be written, as a value and as text, just when its instants have an RFC 3339 form, the data
of its custom security schemes are objects or `null`, and its extensions can be written. -/
theorem C48_writable :
    ((∃ v, toValue C env t = some v) ↔ Writable env C t) ∧
    ((∃ v, toText C env t = some v) ↔ Writable env C t) := by
  refine ⟨?_, can_thing⟩
  rw [← can_thing]
  constructor
  · rintro ⟨v, hv⟩
    obtain ⟨j, hj, _⟩ := Option.map_eq_some_iff.1 hv
    exact ⟨j, hj⟩
  · rintro ⟨j, hj⟩
    exact ⟨j.norm, by rw [toValue, hj]; rfl⟩

example : ∃ v, toValue .nil Demo.senv Demo.thing = some v := C48_writable.1.2 Demo.writable

/-- A custom security scheme whose data is neither an object nor `null` makes writing fail. -/
theorem C48_custom_data {n scheme : String} {data : Json} {s : SecurityScheme}
    (hs : (n, s) ∈ t.securityDefinitions) (hd : s.subtype = .unknown scheme data) (h1 : data ≠ .null)
    (h2 : ∀ m, data ≠ .obj m) : toValue C env t = none ∧ toText C env t = none := by
  have hno : ¬ Writable env C t := fun h => by
    rcases h.security n s scheme data hs hd with h | ⟨m, h⟩
    · exact h1 h
    · exact h2 m h
  constructor
  · cases hv : toValue C env t with
    | none => rfl
    | some v => exact absurd (C48_writable.1.1 ⟨v, hv⟩) hno
  · cases hv : toText C env t with
    | none => rfl
    | some v => exact absurd (C48_writable.2.1 ⟨v, hv⟩) hno

/-- Such Things can be built: `security(|b| b.custom("acme").data("secret"))`. -/
example : ∃ b t s, Reachable .nil "Lamp" [.common (.security b)] (Demo.run [.common (.security b)]) ∧
    (Demo.run [.common (.security b)]).build Demo.env = .ok t ∧ ("acme", s) ∈ t.securityDefinitions ∧
    s.subtype = .unknown "acme" (.str "secret") := by
  refine ⟨⟨none, none, none, none, none, .unknown "acme" (.str "secret"), false⟩, _,
    ⟨none, none, none, none, .unknown "acme" (.str "secret")⟩,
    Demo.run_reachable _ ?_, rfl, List.mem_singleton.2 rfl, rfl⟩
  intro op h
  cases List.mem_singleton.1 h
  exact ⟨[.custom "acme", .data (.str "secret")], rfl⟩

/-! ### C28 -/

/-- A storable Thing is read back from the JSON value it is written as. -/
theorem C28_value_round_trip (sep : C.Separate) (hst : Storable env C t) {v : Json}
    (hv : toValue C env t = some v) : fromValue C env v = some t := by
  obtain ⟨j, hj, rfl⟩ := Option.map_eq_some_iff.1 hv
  exact thing_rt sep hst hj _ (.of_norm j)

/-- What comes back, also if something is lost: `null` values in schemas, infinite numbers and NaN are
gone, explicitly empty lists of operations are the default, custom security schemes without data have an
empty object, and the two parts of a property have the same human readable information. -/
theorem C28_what_comes_back (sep : C.Separate) (hk : Kept env C t) {v : Json}
    (hv : toValue C env t = some v) : fromValue C env v = some t.stored := by
  obtain ⟨j, hj, rfl⟩ := Option.map_eq_some_iff.1 hv
  exact thing_stored sep hk hj _ (.of_norm j)

/-- So the Thing itself comes back just when there is nothing of this kind in it. -/
theorem C28_exact (sep : C.Separate) (hk : Kept env C t) {v : Json} (hv : toValue C env t = some v) :
    fromValue C env v = some t ↔ t.Lossless := by
  rw [C28_what_comes_back sep hk hv, Option.some.injEq, thing_eq_self]

/-- A Thing from a builder is written and read back, provided the values handed to the builder are
storable and can be written, and the parser of language tags accepts what it returns. -/
theorem C28_built (sep : C.Separate) (hr : Reachable X title h b) (hb : b.build env.toEnv = .ok t)
    (hl : env.TagsStable) (hv : ValuesKept env C t) (hw : Writable env C t) :
    ∃ v, toValue C env t = some v ∧ fromValue C env v = some t.stored ∧
      (fromValue C env v = some t ↔ ValuesLossless t) := by
  obtain ⟨v, h1⟩ := C48_writable.1.2 hw
  have hk := hr.kept hb hl hv
  exact ⟨v, h1, C28_what_comes_back sep hk h1, (C28_exact sep hk h1).trans (hr.lossless_iff hb)⟩

example : ∃ v, toValue .nil Demo.senv Demo.thing = some v ∧ fromValue .nil Demo.senv v = some Demo.thing :=
  let ⟨v, h1, _, h2⟩ := C28_built Demo.nil_separate Demo.reachable Demo.built Demo.tagsStable
    Demo.valuesKept Demo.writable
  ⟨v, h1, h2.2 Demo.valuesLossless⟩

/-- Storable Things written as the same value are the same. -/
theorem C28_injective (sep : C.Separate) {t' : Thing X} (hst : Storable env C t)
    (hst' : Storable env C t') {v : Json} (hv : toValue C env t = some v)
    (hv' : toValue C env t' = some v) : t = t' := by
  have := (C28_value_round_trip sep hst hv).symm.trans (C28_value_round_trip sep hst' hv')
  injection this

/-- A storable Thing is read from every document that says what it is written as: members can come in
any order, and repeated members can be left out. -/
theorem C28_any_document (sep : C.Separate) (hst : Storable env C t) {j d : Json}
    (hj : toText C env t = some j) (hd : Represents d j) :
    fromText C env d = some t ∧ fromValue C env d = some t :=
  ⟨thing_rt sep hst hj d hd, thing_rt sep hst hj d hd⟩

example : ∃ j, toText .nil Demo.senv Demo.thing = some j ∧ Represents j.norm j :=
  let ⟨j, hj⟩ := C48_writable.2.2 Demo.writable
  ⟨j, hj, .of_norm j⟩

/-! ### C29 -/

/-- The full statement: every Thing from a builder, as in `C28_built`, is read back from its text. -/
def TextRoundTrip : Prop :=
  ∀ (X : ExtTypes) (C : ExtCodecs X) (env : SerdeEnv) (title : String) (h : List (ThingOp X))
    (b : ThingBuilder X) (t : Thing X), C.Separate → C.WriteOnce → Reachable X title h b →
    b.build env.toEnv = .ok t → env.TagsStable → ValuesKept env C t → ValuesLossless t → Writable env C t →
    ∃ j, toText C env t = some j ∧ fromText C env j = some t

theorem PropertyAffordance.NoInfo.noRepeat {p : PropertyAffordance X} (h : p.NoInfo) : ¬ p.RepeatsInfo := by
  obtain ⟨h1, h2, h3, h4, h5⟩ := h
  simp [PropertyAffordance.RepeatsInfo, h1, h2, h3, h4, h5]

/-- A Thing is never read back from its text if one of its properties carries the same information in its
interaction part and in its data schema. -/
theorem C29_text_fails {m : HMap (PropertyAffordance X)} {n : String} {p : PropertyAffordance X}
    (hm : t.properties = some m) (hp : (n, p) ∈ m) (hi : p.RepeatsInfo) {j : Json}
    (hj : toText C env t = some j) : fromText C env j = none := thing_twice hm hp hi hj

/-- Without such a property, as much of the Thing is read back from its text as from its value. -/
theorem C29_text_round_trip_partial (sep : C.Separate) (once : C.WriteOnce) (hk : Kept env C t)
    (hi : ∀ m, t.properties = some m → ∀ kv ∈ m, ¬ kv.2.RepeatsInfo) {j : Json}
    (hj : toText C env t = some j) : fromText C env j = some t.stored :=
  thing_stored sep hk hj j (.refl (noDup_thing sep once hk hi hj))

/-- Things are read back from their text just when nothing of them is lost, and no property carries human
readable information in its interaction part. -/
theorem C29_exact (sep : C.Separate) (once : C.WriteOnce) (hk : Kept env C t) {j : Json}
    (hj : toText C env t = some j) :
    fromText C env j = some t ↔ t.Lossless ∧ ∀ m, t.properties = some m → ∀ kv ∈ m, kv.2.NoInfo := by
  constructor
  · intro hf
    have hno : ∀ m, t.properties = some m → ∀ kv ∈ m, ¬ kv.2.RepeatsInfo := fun m hm kv hkv hr => by
      rw [C29_text_fails hm hkv hr hj] at hf; cases hf
    rw [C29_text_round_trip_partial sep once hk hno hj, Option.some.injEq, thing_eq_self] at hf
    refine ⟨hf, fun m hm kv hkv => ?_⟩
    have hp := hf.properties m hm kv hkv
    have hno := hno m hm kv hkv
    have same : ∀ {α : Type} {a b : Option α}, a = b → ¬ (a.isSome ∧ b.isSome) → a = none := by
      intro α a b e h
      subst e
      cases a with
      | none => rfl
      | some x => exact absurd ⟨rfl, rfl⟩ h
    exact ⟨same hp.attype fun h => hno (.inl h), same hp.title fun h => hno (.inr (.inl h)),
      same hp.titles fun h => hno (.inr (.inr (.inl h))),
      same hp.description fun h => hno (.inr (.inr (.inr (.inl h)))),
      same hp.descriptions fun h => hno (.inr (.inr (.inr (.inr h))))⟩
  · rintro ⟨hl, hi⟩
    rw [C29_text_round_trip_partial sep once hk (fun m hm kv hkv => (hi m hm kv hkv).noRepeat) hj,
      thing_eq_self.2 hl]

example : ∃ j, toText .nil Demo.senv Demo.quietThing = some j ∧
    fromText .nil Demo.senv j = some Demo.quietThing :=
  let ⟨j, hj⟩ := C48_writable.2.2 Demo.quiet_writable
  ⟨j, hj, (C29_exact Demo.nil_separate Demo.nil_writeOnce Demo.quiet_storable.kept hj).2
    ⟨Demo.quiet_storable.lossless, Demo.quiet_noInfo⟩⟩

example : ∃ j, toText .nil Demo.senv Demo.thing = some j ∧ fromText .nil Demo.senv j = none := by
  obtain ⟨j, hj⟩ := C48_writable.2.2 Demo.writable
  obtain ⟨m, hm, hp⟩ := (Demo.reachable.hasProperty Demo.built).2
    ⟨Demo.property, (by simp [Demo.history] : ThingOp.property "temperature" Demo.property ∈ Demo.history), rfl⟩
  exact ⟨j, hj, C29_text_fails hm hp (.inr (.inl ⟨rfl, rfl⟩)) hj⟩

/-- So the full statement is false. -/
theorem C29_false : ¬ TextRoundTrip := by
  intro H
  obtain ⟨j, hj, hr⟩ := H _ _ _ _ _ _ _ Demo.nil_separate Demo.nil_writeOnce Demo.reachable Demo.built
    Demo.tagsStable Demo.valuesKept Demo.valuesLossless Demo.writable
  obtain ⟨m, hm, hp⟩ := (Demo.reachable.hasProperty Demo.built).2
    ⟨Demo.property, (by simp [Demo.history] : ThingOp.property "temperature" Demo.property ∈ Demo.history), rfl⟩
  rw [C29_text_fails hm hp (.inr (.inl ⟨rfl, rfl⟩)) hj] at hr
  cases hr

end Wot
