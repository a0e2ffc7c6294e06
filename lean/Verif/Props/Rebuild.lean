import Verif.Lemmas.BuildableStored
import Verif.Props.Buildable
import Verif.Props.RoundTrip
/-
C64: What was built, written and read back can be built again.
-/
namespace Wot

section
variable {X : ExtTypes} {C : ExtCodecs X} {env : SerdeEnv} {title : String} {h : List (ThingOp X)}
  {b : ThingBuilder X} {t : Thing X}

/-- C64: a Thing from a builder is written as a value and read back. What is read can be built, by some
sequence of calls, just when no data schema in the Thing has the constant `null`. -/
theorem C64_value (sep : C.Separate) (hr : Reachable X title h b) (hb : b.build env.toEnv = .ok t)
    (hl : env.TagsStable) (hv : ValuesKept env C t) (hw : Writable env C t) :
    ∃ v t', toValue C env t = some v ∧ fromValue C env v = some t' ∧
      ((∃ title' h' b', Reachable X title' h' b' ∧ b'.build env.toEnv = .ok t') ↔ t.NoNullConst) := by
  obtain ⟨v, h1, h2, -⟩ := C28_built sep hr hb hl hv hw
  exact ⟨v, t.stored, h1, h2, by
    rw [C63_things]; exact buildable_stored_iff ((C63_things _ _).1 ⟨_, _, _, hr, hb⟩)⟩

/-- C64: the same if it is written as text, if anything can be read from the text at all. -/
theorem C64_text (sep : C.Separate) (once : C.WriteOnce) (hr : Reachable X title h b)
    (hb : b.build env.toEnv = .ok t) (hl : env.TagsStable) (hv : ValuesKept env C t) {j : Json}
    (hj : toText C env t = some j) {t' : Thing X} (ht : fromText C env j = some t') :
    (∃ title' h' b', Reachable X title' h' b' ∧ b'.build env.toEnv = .ok t') ↔ t.NoNullConst := by
  have hn : ∀ m, t.properties = some m → ∀ kv ∈ m, ¬ kv.2.RepeatsInfo := fun m hm kv hkv hi => by
    rw [C29_text_fails hm hkv hi hj] at ht; cases ht
  rw [C29_text_round_trip_partial sep once (hr.kept hb hl hv) hn hj] at ht
  cases ht
  rw [C63_things]
  exact buildable_stored_iff ((C63_things _ _).1 ⟨_, _, _, hr, hb⟩)


end

/-! ### Examples -/

namespace Demo

theorem noNullConst : thing.NoNullConst := fun p s x hs hx => (valuesLossless.schemas p s x hs hx).constant

/-- A data schema with the constant `null`. -/
def nullSchema : UDS X := (specialise (DataSchemaBuilder.empty ()) (.constant .null)).toUnchecked

def nullHistory : List (ThingOp X) := [.schemaDefinition "nothing" nullSchema]

theorem null_reachable : Reachable X "Lamp" nullHistory (run nullHistory) := by
  refine run_reachable _ fun op h => ?_
  cases List.mem_singleton.1 h
  exact .conv (.start _ (.empty _ _) nofun)

/-- The Thing it is used in. -/
def nullThing : Thing X := (History.supplied "Lamp" nullHistory ()).result env

theorem null_built : (run nullHistory).build env = .ok nullThing := rfl

theorem nullThing_schemas {p : Position} {s x : DS X} (hs : nullThing.HasSchema p s) (hx : Within x s) :
    x = nullSchema.mapLang (langResult env) := by
  obtain ⟨u, hu, rfl⟩ := (null_reachable.hasSchema null_built).1 hs
  have : u = nullSchema := by
    cases hu with
    | schemaDefinition h =>
      obtain ⟨kv, h3, h4⟩ := List.mem_filterMap.1 (lastOf_mem h)
      cases List.mem_singleton.1 (show kv ∈ [("nothing", nullSchema)] from h3)
      split at h4 <;> cases h4
      rfl
    | uriVariable h => cases h
    | property h => exact absurd h (by simp [nullHistory])
    | propertyUriVariable h => exact absurd h (by simp [nullHistory])
    | input h => exact absurd h (by simp [nullHistory])
    | output h => exact absurd h (by simp [nullHistory])
    | actionUriVariable h => exact absurd h (by simp [nullHistory])
    | _ h => exact absurd h (by simp [nullHistory])
  subst this
  rcases within_iff.1 hx with rfl | ⟨l, hl, -⟩ | ⟨st, hst, -⟩
  · rfl
  · exact absurd hl nofun
  · exact absurd hst nofun

theorem nullThing_valuesKept : ValuesKept senv ExtCodecs.nil nullThing where
  created := by intro d s h; cases h
  modified := by intro d s h; cases h
  schemas p s x hs hx := by
    rw [nullThing_schemas hs hx]
    exact ⟨fun v e => by cases e; trivial, nofun, nofun, ExtCodec.nil_reads, nofun, nofun⟩
  security kv hkv := absurd (show kv ∈ [] from hkv) List.not_mem_nil
  forms := fun _ _ _ => ⟨ExtCodec.nil_reads, fun _ _ => ExtCodec.nil_reads⟩
  interactions := fun _ _ => ExtCodec.nil_reads
  properties := fun _ _ _ _ => ExtCodec.nil_reads
  actions := fun _ _ _ _ => ExtCodec.nil_reads
  events := fun _ _ _ _ => ExtCodec.nil_reads
  other := ExtCodec.nil_reads

end Demo

/-- The Thing of the examples is read back as one that can be built. -/
example : ∃ v t', toValue .nil Demo.senv Demo.thing = some v ∧ fromValue .nil Demo.senv v = some t' ∧
    ∃ title h b, Reachable Demo.X title h b ∧ b.build Demo.senv.toEnv = .ok t' :=
  let ⟨v, t', h1, h2, h3⟩ := C64_value Demo.nil_separate Demo.reachable Demo.built Demo.tagsStable
    Demo.valuesKept Demo.writable
  ⟨v, t', h1, h2, h3.2 Demo.noNullConst⟩

/-- C64: the exception is needed. A Thing with the constant `null` is built, written and read back, but no
sequence of calls builds what is read. -/
theorem C64_null_lost : ∃ title h b t v t', Reachable Demo.X title h b ∧ b.build Demo.env = .ok t ∧
    toValue .nil Demo.senv t = some v ∧ fromValue .nil Demo.senv v = some t' ∧
    ¬ ∃ title h b, Reachable Demo.X title h b ∧ b.build Demo.env = .ok t' := by
  obtain ⟨v, t', h1, h2, h3⟩ := C64_value Demo.nil_separate Demo.null_reachable Demo.null_built Demo.tagsStable
    Demo.nullThing_valuesKept (C48_writable.1.1 ⟨_, rfl⟩)
  refine ⟨_, _, _, _, v, t', Demo.null_reachable, Demo.null_built, h1, h2, fun hb => ?_⟩
  exact h3.1 hb .schemaDefinition _ _ (.schemaDefinition (m := [("nothing", _)]) rfl (List.mem_singleton.2 rfl))
    (.self _) rfl

end Wot
