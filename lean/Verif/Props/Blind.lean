import Verif.Lemmas.Blind
import Verif.Props.Buildable
import Verif.Props.Access
import Verif.Props.Offers
import Verif.Props.Readers
import Verif.Props.DemoBinding
/-
C85: extension values make no difference to anything else.
-/
namespace Wot

variable {X Y : ExtTypes} {env : Env} {t : Thing X} {t' : Thing Y}

/-! ### Two Things that differ only in their extension values -/

/-- One of them can be built just when the other can, with the builder for its own extensions. -/
theorem C85_built (e : t.plain = t'.plain) :
    (∃ title h b, Reachable X title h b ∧ b.build env = .ok t) ↔
      ∃ title h b, Reachable Y title h b ∧ b.build env = .ok t' := by
  rw [C63_things, C63_things, ← Blind.buildable_ext (e := .plain), ← Blind.buildable_ext (t := t') (e := .plain)]
  exact (congrArg (Buildable env) e).to_iff

/-- The same clients can use their forms. -/
theorem C85_access (e : t.plain = t'.plain) (has : String → Prop) (p : Place) : t.Opens has p ↔ t'.Opens has p := by
  rw [← Blind.opens_ext (e := .plain), ← Blind.opens_ext (t := t') (e := .plain)]
  exact (congrArg (fun t => t.Opens has p) e).to_iff

/-- Their forms offer the same operations. -/
theorem C85_operations (e : t.plain = t'.plain) (p : Place) (o : FormOperation) : t.Offers p o ↔ t'.Offers p o := by
  rw [← Blind.offers_ext (e := .plain), ← Blind.offers_ext (t := t') (e := .plain)]
  exact (congrArg (fun t => t.Offers p o) e).to_iff

/-- They have data schemas at the same places, which admit the same values. -/
theorem C85_values (e : t.plain = t'.plain) {path : List String} {s : DS X} (h : t.SchemaAt path s) :
    ∃ s', t'.SchemaAt path s' ∧ ∀ V v, s'.Admits V v ↔ s.Admits V v := by
  have h' : t.plain.SchemaAt path (DS.withExt .plain s) := Blind.schemaAt_ext.2 ⟨s, h, rfl⟩
  rw [e] at h'
  obtain ⟨s', hs', e'⟩ := Blind.schemaAt_ext.1 h'
  refine ⟨s', hs', fun V v => ?_⟩
  have h1 : (DS.withExt .plain s).Admits V = s.Admits V := Blind.admits_ext
  have h2 : (DS.withExt .plain s').Admits V = s'.Admits V := Blind.admits_ext
  rw [← h1, ← h2, e']

/-! ### A Thing in different programs -/

/-- The Thing with other extension values, or those of another program, differs only in these. -/
theorem C85_changed (f : ExtMap X Y) : (t.withExt f).plain = t.plain := Blind.plain_ext f

/-- So it can be built just when the Thing itself can; in particular, a Thing that can be built with extensions can be built
without. -/
theorem C85_changed_built (f : ExtMap X Y) :
    (∃ title h b, Reachable Y title h b ∧ b.build env = .ok (t.withExt f)) ↔
      ∃ title h b, Reachable X title h b ∧ b.build env = .ok t :=
  C85_built (C85_changed f)

/-- A program without extensions that gets a Thing built by one with extensions sees the same forms, which the same clients
can use and which offer the same operations. -/
theorem C85_passed_on {env : SerdeEnv} {C : ExtCodecs X} {v : Json} {title : String} {h : List (ThingOp X)}
    {b : ThingBuilder X} (d : ExtDefaults X) (sep : C.Separate) (hr : Reachable X title h b)
    (hb : b.build env.toEnv = .ok t) (hk : Kept env C t) (hv : toValue C env t = some v) :
    ∃ t', fromValue .nil env v = some t' ∧ (∀ has p, t'.Opens has p ↔ t.Opens has p) ∧
      ∀ p o, t'.Offers p o ↔ t.Offers p o := by
  have hw : Buildable env.toEnv t := (C63_things _ _).1 ⟨_, _, _, hr, hb⟩
  refine ⟨_, C83_plain d sep hk hv, fun has p => Blind.opens_ext.trans Blind.opens_stored, fun p o =>
    Blind.offers_ext.trans (Blind.offers_stored fun p x hx => (hw.eachForm _ x (hasForm_of_formAt hx)).1.op)⟩

/-- Programs whose extensions accept the same documents see the same in them. -/
theorem C85_readers {env : SerdeEnv} {C : ExtCodecs X} {D : ExtCodecs Y} {f : ExtMap X Y} {v : Json}
    (hf : f.Each FollowsExactly C D) (h : fromValue C env v = some t) (h' : fromValue D env v = some t') :
    (∀ has p, t'.Opens has p ↔ t.Opens has p) ∧ (∀ p o, t'.Offers p o ↔ t.Offers p o) ∧
    ∀ path s, t.SchemaAt path s → ∃ s', t'.SchemaAt path s' ∧ ∀ V w, s'.Admits V w ↔ s.Admits V w := by
  rw [(C83_agree hf v).1, h] at h'
  cases h'
  have e : t.plain = (t.withExt f).plain := (C85_changed f).symm
  exact ⟨fun has p => (C85_access e has p).symm, fun p o => (C85_operations e p o).symm, fun _ _ hs => C85_values e hs⟩

/-! ### Examples -/

/-- The Things with HTTP and CoAP that have different message headers differ only in extension values; so do the one with
HTTP and CoAP and the one with neither. -/
theorem Demo.web_same (hs hs' : List Http.MessageHeader) :
    (Demo.webThing hs).plain = (Demo.webThing hs').plain ∧ (Demo.webThing hs).plain = (Demo.webThing hs).plain.plain :=
  ⟨rfl, rfl⟩

/-- So what can be built with HTTP and CoAP can be built without extensions. -/
example : ∃ title h b, Reachable .nil title h b ∧
    b.build Demo.senv.toEnv = .ok (Demo.webThing [{ fieldName := some "Age" }]).plain :=
  (C85_built (Demo.web_same _ []).2).1 ⟨_, _, _, Demo.web_reachable _, Demo.web_ok _⟩

/-- The form reads all properties, with and without the headers, -/
example : (Demo.webThing []).Offers (.thing 0) .readAllProperties :=
  (C85_operations (Demo.web_same [{ fieldName := some "Age" }] []).1 _ _).1 ⟨_, rfl, List.mem_singleton.2 rfl⟩

open Binding in
/-- and for a program without extensions that reads the document. -/
example : ∃ v t, toValue (stack Demo.web) Demo.senv (Demo.webThing [{ fieldName := some "Age" }]) = some v ∧
    fromValue .nil Demo.senv v = some t ∧ t.Offers (.thing 0) .readAllProperties ∧
    ∀ has, t.Opens has (.thing 0) ↔ (Demo.webThing [{ fieldName := some "Age" }]).Opens has (.thing 0) := by
  have hn : Demo.web.Nodup := by decide
  have hr := Demo.web_reachable [{ fieldName := some "Age" }]
  obtain ⟨j, -, hj, -⟩ := C36_things hn hr (Demo.web_ok _) Demo.tagsStable (Demo.web_plain _)
  have hk := hr.kept (Demo.web_ok _) Demo.tagsStable
    (valuesKept hn (Demo.web_plain _) (Demo.web_headers.2 nofun))
  obtain ⟨t, ht, h1, h2⟩ := C85_passed_on (.cons Coap.defaults (.cons Http.defaults .nil)) (stack_separate Demo.web) hr
    (Demo.web_ok _) hk hj
  exact ⟨_, t, hj, ht, (h2 _ _).2 ⟨_, rfl, List.mem_singleton.2 rfl⟩, fun has => h1 has _⟩

/-- The data schema of a property, in a program that has something to say about Things. -/
example : ∃ s s', Demo.thing.SchemaAt ["properties", "temperature"] s ∧
    (Demo.thing.withExt (X := .nil) (Y := Demo.ThingExt) ⟨fun _ => "any", id, id, id, id, id, id, id, id, id⟩).SchemaAt
      ["properties", "temperature"] s' ∧ ∀ V v, s'.Admits V v ↔ s.Admits V v :=
  have ⟨s', h⟩ := C85_values (X := .nil) (t := Demo.thing) (C85_changed _).symm (.property rfl rfl)
  ⟨_, s', .property rfl rfl, h⟩

/-- Things that differ in anything else are not alike in this sense. -/
example : Demo.thing.plain ≠ { Demo.thing with title := "Other" }.plain := fun h => by
  have : Demo.thing.title = "Other" := congrArg Thing.title h
  exact absurd this (by decide)

end Wot
