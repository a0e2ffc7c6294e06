import Verif.Lemmas.RenameStored
import Verif.Props.Rename
import Verif.Props.RenameAccess
import Verif.Props.Equality
/-
C90: writing, reading and comparing Things does not depend on names.
-/
namespace Wot

variable {X : ExtTypes} {C : ExtCodecs X} {env : SerdeEnv} {E : ExtEq X} {t u : Thing X} {r : Renaming}

/-- A Thing under new names can be written just when it can be written under the old ones. -/
theorem C90_written (hf : r.Faithful) (ht : t.Maps) :
    ((∃ v, toValue C env (r.thing t) = some v) ↔ ∃ v, toValue C env t = some v) ∧
    ((∃ v, toText C env (r.thing t) = some v) ↔ ∃ v, toText C env t = some v) := by
  rw [C48_writable.1, C48_writable.1, C48_writable.2, C48_writable.2]
  exact ⟨Renamed.writable hf ht, Renamed.writable hf ht⟩

/-- What is read back then is, under the new names, what is read back of the Thing under the old ones. -/
theorem C90_read_back (hf : r.Faithful) (ht : t.Maps) (sep : C.Separate) (hk : Kept env C t) {v v' : Json}
    (hv : toValue C env t = some v) (hv' : toValue C env (r.thing t) = some v') :
    ∃ u, fromValue C env v = some u ∧ fromValue C env v' = some (r.thing u) := by
  refine ⟨t.stored, C28_what_comes_back sep hk hv, ?_⟩
  rw [C28_what_comes_back sep ((Renamed.kept hf ht).2 hk) hv', Renamed.stored]

/-- Something is lost under the new names just when it is under the old ones. -/
theorem C90_lossless (hf : r.Faithful) (ht : t.Maps) (sep : C.Separate) (hk : Kept env C t) {v v' : Json}
    (hv : toValue C env t = some v) (hv' : toValue C env (r.thing t) = some v') :
    fromValue C env v' = some (r.thing t) ↔ fromValue C env v = some t := by
  rw [C28_exact sep hk hv, C28_exact sep ((Renamed.kept hf ht).2 hk) hv', Renamed.lossless hf ht]

/-- The same for text, with which some Things cannot be read back at all (C29). -/
theorem C90_text (hf : r.Faithful) (ht : t.Maps) (sep : C.Separate) (once : C.WriteOnce) (hk : Kept env C t) {j j' : Json}
    (hj : toText C env t = some j) (hj' : toText C env (r.thing t) = some j') :
    fromText C env j' = (fromText C env j).map r.thing := by
  have hi := Renamed.all_maps (u := r.property) (hf.affordance .property) ht.properties (P := fun p => ¬ p.RepeatsInfo)
  by_cases h : ∀ m, t.properties = some m → ∀ kv ∈ m, ¬ kv.2.RepeatsInfo
  · rw [C29_text_round_trip_partial sep once hk h hj,
      C29_text_round_trip_partial sep once ((Renamed.kept hf ht).2 hk) (hi.2 h) hj', Renamed.stored]
    rfl
  · have h' : ¬ ∀ m, (r.thing t).properties = some m → ∀ kv ∈ m, ¬ kv.2.RepeatsInfo := fun a => h (hi.1 a)
    simp only [Classical.not_forall, Classical.not_not] at h h'
    obtain ⟨m, hm, ⟨n, p⟩, hp, h1⟩ := h
    obtain ⟨m', hm', ⟨n', p'⟩, hp', h1'⟩ := h'
    rw [C29_text_fails hm hp h1 hj, C29_text_fails hm' hp' h1' hj']
    rfl

/-- Two Things are equal under the new names just when they are under the old ones. -/
theorem C90_equal (hf : r.Faithful) (hE : E.Exact) (ht : t.Maps) (hu : u.Maps) :
    (r.thing t).eq E (r.thing u) = t.eq E u := by
  rw [Bool.eq_iff_iff, C57_equal_iff hE (Renamed.maps hf ht) (Renamed.maps hf hu), C57_equal_iff hE ht hu, Renamed.canonical,
    Renamed.canonical, Renamed.canonical_injective hf ht hu, Renamed.noNaN hf ht, Renamed.noNaN hf hu]

/-- So this is how it is for the Things of a program and of the same program with other names. -/
theorem C90_program {title : String} {h : List (ThingOp X)} {b b' : ThingBuilder X} (hf : r.Faithful)
    (hr : Reachable X title h b) (hr' : Reachable X title (r.calls h) b') (ho : b'.other = b.other)
    (hb : b.build env.toEnv = .ok t) (sep : C.Separate) (hl : env.TagsStable) (hv : ValuesKept env C t) {v : Json}
    (hw : toValue C env t = some v) :
    ∃ t' v' u, b'.build env.toEnv = .ok t' ∧ toValue C env t' = some v' ∧ fromValue C env v = some u ∧
      fromValue C env v' = some (r.thing u) := by
  have ht := C49_built hr hb
  obtain ⟨v', hw'⟩ := (C90_written (C := C) (env := env) hf ht).1.2 ⟨v, hw⟩
  obtain ⟨u, h1, h2⟩ := C90_read_back hf ht sep (hr.kept hb hl hv) hw hw'
  exact ⟨r.thing t, v', u, C87_thing hf hr hr' ho hb, hw', h1, h2⟩

/-! ### Examples -/

namespace Demo

theorem thing_maps : thing.Maps := C49_built reachable built

/-- The example Thing under its new names is written and read back. -/
example : ∃ v v', toValue .nil senv thing = some v ∧ toValue .nil senv (prefixed.thing thing) = some v' ∧
    fromValue .nil senv v' = some (prefixed.thing thing) ∧ v ≠ v' := by
  obtain ⟨v, hv⟩ := C48_writable.1.2 writable
  obtain ⟨v', hv'⟩ := (C90_written (C := .nil) (env := senv) prefixed_faithful thing_maps).1.2 ⟨v, hv⟩
  have h1 := C28_value_round_trip nil_separate storable hv
  have h2 := (C90_lossless prefixed_faithful thing_maps nil_separate storable.kept hv hv').2 h1
  refine ⟨v, v', hv, hv', h2, fun e => ?_⟩
  rw [← e, h1] at h2
  exact absurd (congrArg (fun o => o.map fun t : Thing .nil => t.securityDefinitions.keys) h2) (by decide +kernel)

/-- As a text it is not read back, under any names. -/
example : ∃ j', toText .nil senv (prefixed.thing thing) = some j' ∧ fromText .nil senv j' = none := by
  obtain ⟨j, hj⟩ := C48_writable.2.2 writable
  obtain ⟨j', hj'⟩ := (C90_written (C := .nil) (env := senv) prefixed_faithful thing_maps).2.2 ⟨j, hj⟩
  obtain ⟨m, hm, hp⟩ := (reachable.hasProperty built).2
    ⟨property, (by simp [history] : ThingOp.property "temperature" property ∈ history), rfl⟩
  refine ⟨j', hj', ?_⟩
  rw [C90_text prefixed_faithful thing_maps nil_separate nil_writeOnce storable.kept hj hj',
    C29_text_fails hm hp (.inr (.inl ⟨rfl, rfl⟩)) hj]
  rfl

/-- The other example Thing is. -/
example : ∃ j', toText .nil senv (prefixed.thing quietThing) = some j' ∧
    fromText .nil senv j' = some (prefixed.thing quietThing) := by
  have hm : quietThing.Maps := C49_built quiet_reachable quiet_ok
  obtain ⟨j, hj⟩ := C48_writable.2.2 quiet_writable
  obtain ⟨j', hj'⟩ := (C90_written (C := .nil) (env := senv) prefixed_faithful hm).2.2 ⟨j, hj⟩
  refine ⟨j', hj', ?_⟩
  rw [C90_text prefixed_faithful hm nil_separate nil_writeOnce quiet_storable.kept hj hj',
    (C29_exact nil_separate nil_writeOnce quiet_storable.kept hj).2 ⟨quiet_storable.lossless, quiet_noInfo⟩]
  rfl

/-- The Things are different under the new names as they were under the old ones. -/
example : (prefixed.thing thing).eq .nil (prefixed.thing quietThing) = thing.eq .nil quietThing :=
  C90_equal prefixed_faithful ExtEq.nil_exact thing_maps (C49_built quiet_reachable quiet_ok)

/-- The renamed example program. -/
example : ∃ b' t' v', Reachable Demo.X "Lamp" (prefixed.calls history) b' ∧ b'.build senv.toEnv = .ok t' ∧
    toValue .nil senv t' = some v' ∧ fromValue .nil senv v' = some (prefixed.thing thing) := by
  obtain ⟨v, hv⟩ := C48_writable.1.2 writable
  obtain ⟨b', hr', ho⟩ := C87_calls prefixed reachable
  obtain ⟨t', v', u, h1, h2, h3, h4⟩ :=
    C90_program prefixed_faithful reachable hr' ho built nil_separate tagsStable valuesKept hv
  rw [C28_value_round_trip nil_separate storable hv] at h3
  cases h3
  exact ⟨b', t', v', hr', h1, h2, h4⟩

end Demo
end Wot
