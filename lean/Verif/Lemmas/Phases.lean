import Verif.Lemmas.Build
/-
The error reported by `build` comes from the first phase in which anything is wrong.
-/
namespace Wot

variable {X : ExtTypes} {α β : Type}

/-- `x` succeeds with `r` and nothing is violated, or fails with a violation of the first list entry
that is violated at all; it does not panic. -/
def OutcomeP (x : Except Failure α) (Vs : List (Error → Prop)) (r : α) : Prop :=
  match x with
  | .ok a => a = r ∧ ∀ V ∈ Vs, ∀ e, ¬ V e
  | .error (.err e) => ∃ pre V post, Vs = pre ++ V :: post ∧ V e ∧ ∀ V' ∈ pre, ∀ e', ¬ V' e'
  | .error .panic => False

namespace OutcomeP

theorem last {x : Except Failure α} {V : Error → Prop} {r : α} (g : α → β) (h : OutcomeF x V r) :
    OutcomeP (do let a ← x; Pure.pure (g a)) [V] (g r) := by
  match x, h with
  | .ok a, h => exact ⟨congrArg g h.1, by simpa using h.2⟩
  | .error (.err e), h => exact ⟨[], V, [], rfl, h, by simp⟩

theorem bind {x : Except Failure α} {V : Error → Prop} {r : α} {f : α → Except Failure β}
    {Vs : List (Error → Prop)} {r' : β} (h : OutcomeF x V r)
    (h' : (∀ e, ¬ V e) → OutcomeP (f r) Vs r') : OutcomeP (x >>= f) (V :: Vs) r' := by
  match x, h with
  | .error (.err e), h => exact ⟨[], V, Vs, rfl, h, by simp⟩
  | .ok a, h =>
    obtain ⟨rfl, hv⟩ := h
    have := h' hv
    show OutcomeP (f a) _ _
    match hf : f a, this with
    | .ok b, this =>
      refine ⟨this.1, fun W hW => ?_⟩
      rcases List.mem_cons.1 hW with rfl | hW
      · exact hv
      · exact this.2 W hW
    | .error (.err e), this =>
      obtain ⟨pre, W, post, h1, h2, h3⟩ := this
      refine ⟨V :: pre, W, post, by rw [h1]; rfl, h2, fun W' hW' => ?_⟩
      rcases List.mem_cons.1 hW' with rfl | hW'
      · exact hv
      · exact h3 W' hW'

theorem bind_infallible {x : Except Failure α} {r : α} {f : α → Except Failure β}
    {Vs : List (Error → Prop)} {r' : β} (h : OutcomeF x (fun _ => False) r)
    (h' : OutcomeP (f r) Vs r') : OutcomeP (x >>= f) Vs r' := by
  match x, h with
  | .ok a, h => obtain ⟨rfl, -⟩ := h; exact h'

end OutcomeP

/-- All phases, in order. -/
def Phase.all : List Phase :=
  [.securityDefinitions, .comboReferences, .schemaDefinitions, .thingForms, .uriVariableTypes,
   .uriVariableLanguages, .properties, .actions, .events, .links, .titles, .descriptions]

theorem Phase.mem_all (p : Phase) : p ∈ Phase.all := by cases p <;> decide

theorem Phase.all_sorted : Phase.all.Pairwise (fun p q => p.index < q.index) := by decide

namespace ThingBuilder

theorem outcome_phases (env : Env) (b : ThingBuilder X) (wf : b.WF) :
    OutcomeP (b.build env) (Phase.all.map (b.Fault env)) (b.result env) := by

  unfold build
  have hlinks : Outcome (tryOpt (tryMap (UncheckedLink.tryInto env)) b.links)
      (fun e => ∃ ls, b.links = some ls ∧ ∃ l ∈ ls, LinkViolation env l e)
      (b.links.map (List.map (linkResult env))) :=
    Outcome.tryOpt fun ls _ => Outcome.tryMap fun l _ => outcome_link env l
  have hdef : ∀ n, (HMap.collect (b.securityDefinitions.map
      fun kv => (kv.1, schemeResult env kv.2))).contains n = true ↔ b.Defined n :=
    fun n => contains_collect _ _ n
  have hdec : ∀ n, (HMap.mapVals (Schema.mapLang (langResult env)) b.schemaDefinitions).contains n
      = true ↔ b.Declared n := by
    intro n
    rw [HMap.contains_iff, HMap.keys_mapVals]
    rfl
  have huri := outcome_tryIntoMap env b.uriVariables fun m hm =>
    ⟨wf.uriVariables m hm, fun kv hkv => wf.schemas _ (.inr (.inl (.thing hm hkv)))⟩
  have hsch := outcome_tryMapVals (Vi := fun s => LangViolation env (SchemaKey s)) env
    wf.schemaDefinitions fun kv hkv =>
      outcome_tryInto env kv.2 (wf.schemas _ (.inr (.inr (.schemaDefinition hkv))))
  have hres : b.result env =
      { context := contextResult b.context, id := b.id, attype := b.attype, title := b.title,
        titles := b.titles.map (langResult env), description := b.description,
        descriptions := b.descriptions.map (langResult env), version := b.version,
        created := b.created, modified := b.modified, support := b.support, base := b.base,
        properties := mapResult (PropertyBuilder.result env) b.properties,
        actions := mapResult (ActionBuilder.result env) b.actions,
        events := mapResult (EventBuilder.result env) b.events,
        links := b.links.map (List.map (linkResult env)),
        forms := b.forms.map (List.map FormBuilder.result), security := b.security,
        securityDefinitions :=
          HMap.collect (b.securityDefinitions.map fun kv => (kv.1, schemeResult env kv.2)),
        uriVariables := b.uriVariables.map (HMap.mapVals (Schema.mapLang (langResult env))),
        profile := nonEmpty b.profile,
        schemaDefinitions :=
          nonEmpty (HMap.mapVals (Schema.mapLang (langResult env)) b.schemaDefinitions),
        other := b.other } := by
    unfold result
    simp only [nonEmpty_eq]
    congr 1
    cases b.schemaDefinitions <;> simp [HMap.mapVals]
  rw [hres]
  refine OutcomeP.bind (.orFail (outcome_secDefs env b.securityDefinitions)) fun h1 =>
    OutcomeP.bind (.orFail (outcome_checkCombos env b ?_)) fun _ =>
    OutcomeP.bind (.orFail hsch) fun _ =>
    OutcomeP.bind (.orFail (b.outcome_forms hdef hdec)) fun _ =>
    OutcomeP.bind_infallible (outcome_context env b.context wf.context wf.contextMaps)
    (OutcomeP.bind (.orFail (outcome_checkUriVariables env b.uriVariables)) fun _ =>
    OutcomeP.bind (.orFail huri) fun _ =>
    OutcomeP.bind (.orFail (b.outcome_properties env wf hdef)) fun _ =>
    OutcomeP.bind (.orFail (b.outcome_actions env wf hdef)) fun _ =>
    OutcomeP.bind (.orFail (b.outcome_events env wf hdef)) fun _ =>
    OutcomeP.bind (.orFail hlinks) fun _ =>
    OutcomeP.bind (.orFail (outcome_buildLang env b.titles)) fun _ =>
    OutcomeP.last _ (.orFail (outcome_buildLang env b.descriptions)))
  exact (not_twice_iff _).1 fun n hn => h1 _ (.inr ⟨n, rfl, hn⟩)

/-- A failing build reports something wrong in the first phase in which anything is wrong. -/
theorem first_fault (env : Env) (b : ThingBuilder X) (wf : b.WF) {e : Error}
    (h : b.build env = .error (.err e)) :
    ∃ p, b.Fault env p e ∧ ∀ q : Phase, q.index < p.index → ∀ e', ¬ b.Fault env q e' := by
  have := outcome_phases env b wf
  rw [h] at this
  obtain ⟨pre, V, post, h1, h2, h3⟩ := this
  obtain ⟨pre', tl, ha, rfl, htl⟩ := List.map_eq_append_iff.1 h1
  obtain ⟨p, post', rfl, rfl, rfl⟩ := List.map_eq_cons_iff.1 htl
  refine ⟨p, h2, fun q hq => h3 _ (List.mem_map_of_mem ?_)⟩
  have hs := Phase.all_sorted
  rw [ha, List.pairwise_append] at hs
  have hm := Phase.mem_all q
  rw [ha] at hm
  rcases List.mem_append.1 hm with hm | hm
  · exact hm
  · rcases List.mem_cons.1 hm with rfl | hm
    · omega
    · have := List.rel_of_pairwise_cons hs.2.1 hm
      omega

theorem fault_iff (env : Env) (b : ThingBuilder X) (e : Error) :
    (∃ p, b.Fault env p e) ↔ b.Violates env e := by
  constructor
  · rintro ⟨p, hp⟩
    apply steps_violates
    unfold Steps
    cases p <;> simp only [Fault] at hp <;> simp only [hp, true_or, or_true, and_self]
  · intro h
    rcases violates_steps h with h | h | h | h | h | h | h | h | h | h | h | h | h
    · exact ⟨.securityDefinitions, h⟩
    · exact ⟨.comboReferences, h⟩
    · exact ⟨.schemaDefinitions, h⟩
    · exact ⟨.thingForms, h⟩
    · exact h.elim
    · exact ⟨.uriVariableTypes, h⟩
    · exact ⟨.uriVariableLanguages, h⟩
    · exact ⟨.properties, h⟩
    · exact ⟨.actions, h⟩
    · exact ⟨.events, h⟩
    · exact ⟨.links, h⟩
    · exact ⟨.titles, h⟩
    · exact ⟨.descriptions, h⟩

end ThingBuilder
end Wot
