import Verif.Lemmas.ProtocolThing
import Verif.Lemmas.ProtocolText
import Verif.Lemmas.Stored
import Verif.Props.DemoBinding
/-
C36: the protocol bindings.
-/
namespace Wot

open Binding

variable {l : List Binding} {env : SerdeEnv}

/-- A form with any set of protocol bindings is written. It is read back, in whatever order its members
come, if its HTTP response, if any, names headers; otherwise it cannot be read. -/
theorem C36_forms (hn : l.Nodup) (f : Form (stackTypes l)) :
    ∃ j, serForm (stack l) f = some j ∧
      ((∀ r, f.response = some r → AllHeadersGiven l r.other) →
        ∀ d, Represents d j → deForm (stack l) d = some f.stored) ∧
      (∀ r, f.response = some r → ¬ AllHeadersGiven l r.other →
        ∀ d, Represents d j → deForm (stack l) d = none) ∧
      (f.op ≠ .custom [] → f.stored = f) := by
  obtain ⟨_, _, _, _, _, hf, hre, _⟩ := stack_writes l
  have hw : ∃ j, serForm (stack l) f = some j := by
    obtain ⟨m, hm⟩ := hf f.other
    cases hc : f.response with
    | none => exact ⟨_, by simp only [serForm, bind, pure, hc, hm, optOpt, Option.bind_some]; rfl⟩
    | some r =>
      obtain ⟨n, hn⟩ := hre r.other
      exact ⟨_, by simp only [serForm, bind, pure, hc, hm, hn, optOpt, serResponse, Option.bind_some,
        Option.map_some]; rfl⟩
  obtain ⟨j, hj⟩ := hw
  refine ⟨j, hj, fun hr => ?_, fun r hfr hg => ?_, form_eq_self.2⟩
  · exact (form_rt (stack_separate l)
      ⟨fun r h => stack_response_reads hn (hr r h), stack_form_reads hn f.other⟩ hj).2
  · exact form_bad (stack_separate l) (stack_tidy hn) hfr
      (fun m es hm hc => stack_response_none hn hg hm hc) hj

example : ∃ j, serForm (stack Demo.web) (Demo.webForm [{ fieldName := some "Age" }]).result = some j ∧
    deForm (stack Demo.web) j.norm = some (Demo.webForm [{ fieldName := some "Age" }]).result := by
  obtain ⟨j, hj, hr, _, hs⟩ := C36_forms (l := Demo.web) (by decide)
    (Demo.webForm [{ fieldName := some "Age" }]).result
  refine ⟨j, hj, ?_⟩
  rw [hr (by rintro r ⟨⟩; exact ⟨trivial, nofun, trivial⟩) _ (.of_norm j), hs (by decide)]

/-- A Thing with any set of protocol bindings is written. It is read back, as much as any Thing is, if
every HTTP response in it names headers; otherwise nothing can be read. -/
theorem C36_things (hn : l.Nodup) {title : String} {h : List (ThingOp (stackTypes l))}
    {b : ThingBuilder (stackTypes l)} {t : Thing (stackTypes l)} (hr : Reachable _ title h b)
    (hb : b.build env.toEnv = .ok t) (hl : env.TagsStable) (hp : PlainValues env t) :
    ∃ j, toText (stack l) env t = some j ∧ toValue (stack l) env t = some j.norm ∧
      (ThingHeadersGiven l t → ∀ d, Represents d j → fromText (stack l) env d = some t.stored) ∧
      (¬ ThingHeadersGiven l t → ∀ d, Represents d j → fromText (stack l) env d = none) ∧
      (t.stored = t ↔ ValuesLossless t) := by
  obtain ⟨j, hj⟩ := can_thing.2 (writable hp)
  refine ⟨j, hj, by rw [toValue, hj]; rfl, fun hg d hd => ?_, fun hg d hd => ?_,
    thing_eq_self.trans (hr.lossless_iff hb)⟩
  · exact thing_stored (stack_separate l) (hr.kept hb hl (valuesKept hn hp hg)) hj d hd
  · simp only [ThingHeadersGiven, Classical.not_forall] at hg
    obtain ⟨ctx, f, r, hf, hfr, hg⟩ := hg
    exact thing_bad (stack_separate l) (stack_tidy hn) (hr.sorted hb) hf (fun j hj =>
      form_bad (stack_separate l) (stack_tidy hn) hfr (fun m es hm hc => stack_response_none hn hg hm hc) hj)
      hj d hd

/-- From its text it is read back if, besides, no property carries the same information twice; otherwise nothing can be
read. -/
theorem C36_text (hn : l.Nodup) {title : String} {h : List (ThingOp (stackTypes l))}
    {b : ThingBuilder (stackTypes l)} {t : Thing (stackTypes l)} (hr : Reachable _ title h b)
    (hb : b.build env.toEnv = .ok t) (hl : env.TagsStable) (hp : PlainValues env t) :
    ∃ j, toText (stack l) env t = some j ∧
      (ThingHeadersGiven l t ∧ (∀ m, t.properties = some m → ∀ kv ∈ m, ¬ kv.2.RepeatsInfo) →
        fromText (stack l) env j = some t.stored) ∧
      (¬ (ThingHeadersGiven l t ∧ ∀ m, t.properties = some m → ∀ kv ∈ m, ¬ kv.2.RepeatsInfo) →
        fromText (stack l) env j = none) := by
  obtain ⟨j, hj, -, h1, h2, -⟩ := C36_things hn hr hb hl hp
  have dup : (∀ m, t.properties = some m → ∀ kv ∈ m, ¬ kv.2.RepeatsInfo) → j.NoDup := fun hi =>
    noDup_bindings hn (hr.kept hb hl (relaxed_values hn hp)) hi hj
  refine ⟨j, hj, fun hg => h1 hg.1 j (.refl (dup hg.2)), fun hg => ?_⟩
  by_cases hi : ∀ m, t.properties = some m → ∀ kv ∈ m, ¬ kv.2.RepeatsInfo
  · exact h2 (fun h => hg ⟨h, hi⟩) j (.refl (dup hi))
  · simp only [Classical.not_forall] at hi
    obtain ⟨m, hm, kv, hkv, hi⟩ := hi
    exact thing_twice hm hkv (Classical.not_not.1 hi) hj

example : ∃ j, toText (stack Demo.web) Demo.senv (Demo.webThing [{ fieldName := some "Age" }]) = some j ∧
    fromText (stack Demo.web) Demo.senv j.norm =
      some (Demo.webThing [{ fieldName := some "Age" }]).stored := by
  obtain ⟨j, hj, _, hr, _⟩ := C36_things (l := Demo.web) (by decide)
    (Demo.web_reachable [{ fieldName := some "Age" }]) (Demo.web_ok _) Demo.tagsStable (Demo.web_plain _)
  exact ⟨j, hj, hr (Demo.web_headers.2 nofun) _ (.of_norm j)⟩

example : ∃ v, toValue (stack Demo.web) Demo.senv (Demo.webThing []) = some v ∧
    fromValue (stack Demo.web) Demo.senv v = none := by
  obtain ⟨j, hj, hv, _, hr, _⟩ := C36_things (l := Demo.web) (by decide)
    (Demo.web_reachable []) (Demo.web_ok _) Demo.tagsStable (Demo.web_plain _)
  exact ⟨_, hv, hr (fun h => Demo.web_headers.1 h rfl) _ (.of_norm j)⟩

/-- From the text of the Thing with headers it is read back, from that of the Thing without nothing is read. -/
example : (∃ j, toText (stack Demo.web) Demo.senv (Demo.webThing [{ fieldName := some "Age" }]) = some j ∧
      fromText (stack Demo.web) Demo.senv j = some (Demo.webThing [{ fieldName := some "Age" }]).stored) ∧
    ∃ j, toText (stack Demo.web) Demo.senv (Demo.webThing []) = some j ∧ fromText (stack Demo.web) Demo.senv j = none := by
  obtain ⟨j, hj, hr, _⟩ := C36_text (l := Demo.web) (by decide)
    (Demo.web_reachable [{ fieldName := some "Age" }]) (Demo.web_ok _) Demo.tagsStable (Demo.web_plain _)
  obtain ⟨i, hi, _, hn⟩ := C36_text (l := Demo.web) (by decide)
    (Demo.web_reachable []) (Demo.web_ok _) Demo.tagsStable (Demo.web_plain _)
  exact ⟨⟨j, hj, hr ⟨Demo.web_headers.2 nofun, nofun⟩⟩, i, hi, hn fun h => Demo.web_headers.1 h.1 rfl⟩

end Wot
