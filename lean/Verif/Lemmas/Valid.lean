import Verif.Lemmas.Built
import Verif.Spec.Valid
/-
Validity of a history is validity of the builder it leads to.
-/
namespace Wot

variable {X : ExtTypes} {title : String} {h : List (ThingOp X)} {b : ThingBuilder X}

theorem Reachable.affordanceInfo (hr : Reachable X title h b) {i : HumanReadableInfo} :
    b.AffordanceInfo i ↔ History.HasInfo h i := by
  constructor
  · intro hi
    cases hi with
    | property h1 => exact .property (History.mem_properties.1 (hr.properties ▸ h1))
    | action h1 => exact .action (History.mem_actions.1 (hr.actions ▸ h1))
    | event h1 => exact .event (History.mem_events.1 (hr.events ▸ h1))
  · intro hi
    cases hi with
    | property h1 => exact .property (hr.properties ▸ History.mem_properties.2 h1)
    | action h1 => exact .action (hr.actions ▸ History.mem_actions.2 h1)
    | event h1 => exact .event (hr.events ▸ History.mem_events.2 h1)

theorem keyOf_collect {o : Option (List (String × String))} {k : String} :
    KeyOf (o.map fun c => (⟨HMap.collect c⟩ : MultiLanguageBuilder)) k ↔
      ∃ c, o = some c ∧ k ∈ c.map (·.1) := by
  unfold KeyOf
  cases o with
  | none => simp
  | some c => simp only [Option.map_some, Option.some.injEq, exists_eq_left', HMap.mem_keys_collect]

theorem Reachable.langKey (hr : Reachable X title h b) {k : String} :
    b.LangKey k ↔ History.LangKey h k := by
  have ht : b.titles = (lastOf (History.titles h)).map fun c => ⟨HMap.collect c⟩ := by
    rw [hr.supplied]; rfl
  have hd : b.descriptions = (lastOf (History.descriptions h)).map fun c => ⟨HMap.collect c⟩ := by
    rw [hr.supplied]; rfl
  constructor
  · intro hk
    cases hk with
    | titles h1 => rw [ht, keyOf_collect] at h1; obtain ⟨c, h1, h2⟩ := h1; exact .titles h1 h2
    | descriptions h1 =>
      rw [hd, keyOf_collect] at h1; obtain ⟨c, h1, h2⟩ := h1; exact .descriptions h1 h2
    | security h1 h2 =>
      rw [hr.securityDefinitions] at h1
      obtain ⟨s, hs, he⟩ := List.mem_map.1 h1
      cases he
      exact .security hs h2
    | affordanceTitles h1 h2 => exact .infoTitles (hr.affordanceInfo.1 h1) h2
    | affordanceDescriptions h1 h2 => exact .infoDescriptions (hr.affordanceInfo.1 h1) h2
    | schema h1 h2 => obtain ⟨p, h1⟩ := hr.anySchema.1 h1; exact .schema h1 h2
    | hreflang h1 h2 h3 =>
      rw [hr.links] at h1
      exact .hreflang (someList_mem.1 ⟨_, h1, h2⟩) h3
  · intro hk
    cases hk with
    | titles h1 h2 => exact .titles (by rw [ht, keyOf_collect]; exact ⟨_, h1, h2⟩)
    | descriptions h1 h2 => exact .descriptions (by rw [hd, keyOf_collect]; exact ⟨_, h1, h2⟩)
    | security h1 h2 =>
      exact .security (by rw [hr.securityDefinitions]; exact List.mem_map_of_mem h1) h2
    | infoTitles h1 h2 => exact .affordanceTitles (hr.affordanceInfo.2 h1) h2
    | infoDescriptions h1 h2 => exact .affordanceDescriptions (hr.affordanceInfo.2 h1) h2
    | schema h1 h2 => exact .schema (hr.anySchema.2 ⟨_, h1⟩) h2
    | hreflang h1 h2 =>
      obtain ⟨m, h3, h4⟩ := someList_mem.2 h1
      exact .hreflang (hr.links ▸ h3) h4 h2

theorem Reachable.comboReference (hr : Reachable X title h b) {n : String} :
    b.ComboReference n ↔ ∃ s ∈ History.securities h, s.subtype.References n := by
  unfold ThingBuilder.ComboReference
  rw [hr.securityDefinitions]
  constructor
  · rintro ⟨k, s, h1, h2⟩
    obtain ⟨s, hs, he⟩ := List.mem_map.1 h1
    cases he
    exact ⟨s, hs, h2⟩
  · rintro ⟨s, hs, h2⟩
    exact ⟨_, _, List.mem_map_of_mem hs, h2⟩

theorem Reachable.mem_links (hr : Reachable X title h b) {l : UncheckedLink} :
    (∃ ls, b.links = some ls ∧ l ∈ ls) ↔ l ∈ History.links h := by
  rw [hr.links]; exact someList_mem

theorem Reachable.violates (hr : Reachable X title h b) {env : Env} {e : Error} :
    b.Violates env e ↔ History.Violates env h e := by
  cases e with
  | duplicatedSecurityDefinition n =>
    simp only [ThingBuilder.Violates, History.Violates, hr.securityNames]
  | missingOpInForm => simp only [ThingBuilder.Violates, History.Violates, hr.thingForm]
  | invalidOpInForm ctx o =>
    simp only [ThingBuilder.Violates, History.Violates, hr.thingForm, hr.affordanceForm]
    refine and_congr_right fun _ => ⟨?_, ?_⟩
    · rintro (⟨rfl, f, h1, h2⟩ | ⟨ty, f, rfl, h1, h2⟩)
      · exact ⟨f, hasForm_thing.2 h1, h2⟩
      · exact ⟨f, h1, h2⟩
    · rintro ⟨f, h1, h2⟩
      rcases hasForm_context h1 with rfl | ⟨ty, rfl⟩
      · exact .inl ⟨rfl, f, hasForm_thing.1 h1, h2⟩
      · exact .inr ⟨ty, f, rfl, h1, h2⟩
  | undefinedSecurity n =>
    simp only [ThingBuilder.Violates, History.Violates, hr.defined, hr.anyForm]
    refine and_congr_right fun _ => ⟨?_, ?_⟩
    · rintro ⟨f, ⟨ctx, h1⟩, h2⟩; exact ⟨ctx, f, h1, h2⟩
    · rintro ⟨ctx, f, h1, h2⟩; exact ⟨f, ⟨ctx, h1⟩, h2⟩
  | invalidMinMax =>
    simp only [ThingBuilder.Violates, History.Violates, hr.checkedSchema]
    constructor
    · rintro ⟨s, x, ⟨p, h1, h2⟩, h3, h4⟩; exact ⟨p, s, x, h1, h2, h3, h4⟩
    · rintro ⟨p, s, x, h1, h2, h3, h4⟩; exact ⟨s, x, ⟨p, h1, h2⟩, h3, h4⟩
  | nanMinMax =>
    simp only [ThingBuilder.Violates, History.Violates, hr.checkedSchema]
    constructor
    · rintro ⟨s, x, ⟨p, h1, h2⟩, h3, h4⟩; exact ⟨p, s, x, h1, h2, h3, h4⟩
    · rintro ⟨p, s, x, h1, h2, h3, h4⟩; exact ⟨s, x, ⟨p, h1, h2⟩, h3, h4⟩
  | invalidMultipleOf =>
    simp only [ThingBuilder.Violates, History.Violates, hr.checkedSchema]
    constructor
    · rintro ⟨s, x, ⟨p, h1, h2⟩, h3, h4⟩; exact ⟨p, s, x, h1, h2, h3, h4⟩
    · rintro ⟨p, s, x, h1, h2, h3, h4⟩; exact ⟨s, x, ⟨p, h1, h2⟩, h3, h4⟩
  | duplicatedAffordance ty n =>
    cases ty <;> simp only [ThingBuilder.Violates, History.Violates, hr.properties, hr.actions, hr.events]
  | missingSchemaDefinition n =>
    simp only [ThingBuilder.Violates, History.Violates, hr.declared, hr.defined, hr.thingForm,
      hr.comboReference]
  | invalidUriVariables => simp only [ThingBuilder.Violates, History.Violates, hr.uriVariable]
  | invalidLanguageTag k => simp only [ThingBuilder.Violates, History.Violates, hr.langKey]
  | sizesWithRelNotIcon =>
    simp only [ThingBuilder.Violates, History.Violates, ← hr.mem_links]
    constructor
    · rintro ⟨ls, l, h1, h2, h3⟩; exact ⟨l, ⟨ls, h1, h2⟩, h3⟩
    · rintro ⟨l, ⟨ls, h1, h2⟩, h3⟩; exact ⟨ls, l, h1, h2, h3⟩

theorem Reachable.valid (hr : Reachable X title h b) {env : Env} :
    b.Valid env ↔ History.Valid env h := by
  constructor
  · intro v
    exact
      { securityNames := hr.securityNames ▸ v.securityNames
        comboReferences := fun s hs n hn => hr.defined.1 (v.comboReferences n (hr.comboReference.2 ⟨s, hs, hn⟩))
        formSecurity := fun ctx f n hf hn => hr.defined.1 (v.formSecurity f n (hr.anyForm.2 ⟨ctx, hf⟩) hn)
        thingForms := fun f hf => by
          obtain ⟨l, hl, _⟩ := v.thingForms f (hr.thingForm.2 hf)
          rw [hl]; intro hc; cases hc
        operations := fun ctx f o hf ho => by
          rcases hasForm_context hf with rfl | ⟨ty, rfl⟩
          · obtain ⟨l, hl, h1⟩ := v.thingForms f (hr.thingForm.2 (hasForm_thing.1 hf))
            obtain ⟨l', hl', ho⟩ := ho
            rw [hl] at hl'; cases hl'
            exact h1 o ho
          · exact v.affordanceForms ty f o (hr.affordanceForm.2 hf) ho
        responseSchemas := fun f n hf hn => hr.declared.1 (v.responseSchemas f n (hr.thingForm.2 hf) hn)
        schemas := fun p s hp hs => v.schemas s (hr.checkedSchema.2 ⟨p, hp, hs⟩)
        uriVariables := fun s hs => v.uriVariables s (hr.uriVariable.2 hs)
        propertyNames := hr.properties ▸ v.propertyNames
        actionNames := hr.actions ▸ v.actionNames
        eventNames := hr.events ▸ v.eventNames
        languages := fun k hk => v.languages k (hr.langKey.2 hk)
        linkSizes := fun l hl => by
          obtain ⟨ls, h1, h2⟩ := hr.mem_links.2 hl
          exact v.linkSizes ls l h1 h2 }
  · intro v
    exact
      { securityNames := hr.securityNames ▸ v.securityNames
        comboReferences := fun n hn => by
          obtain ⟨s, hs, hn⟩ := hr.comboReference.1 hn
          exact hr.defined.2 (v.comboReferences s hs n hn)
        formSecurity := fun f n hf hn => by
          obtain ⟨ctx, hf⟩ := hr.anyForm.1 hf
          exact hr.defined.2 (v.formSecurity ctx f n hf hn)
        thingForms := fun f hf => by
          have hf := hr.thingForm.1 hf
          have h1 := v.thingForms f hf
          cases ho : f.op with
          | default => exact absurd ho h1
          | custom l => exact ⟨l, rfl, fun o h2 => v.operations .thing f o (.thing hf) ⟨l, ho, h2⟩⟩
        affordanceForms := fun ty f o hf ho => v.operations _ f o (hr.affordanceForm.1 hf) ho
        responseSchemas := fun f n hf hn => hr.declared.2 (v.responseSchemas f n (hr.thingForm.1 hf) hn)
        schemas := fun s hs => by
          obtain ⟨p, hp, hs⟩ := hr.checkedSchema.1 hs
          exact v.schemas p s hp hs
        uriVariables := fun s hs => v.uriVariables s (hr.uriVariable.1 hs)
        propertyNames := hr.properties ▸ v.propertyNames
        actionNames := hr.actions ▸ v.actionNames
        eventNames := hr.events ▸ v.eventNames
        languages := fun k hk => v.languages k (hr.langKey.1 hk)
        linkSizes := fun ls l h1 h2 => v.linkSizes l (hr.mem_links.1 ⟨ls, h1, h2⟩) }

/-- The exact outcome of `build`, in terms of the history. -/
theorem Reachable.outcome (hr : Reachable X title h b) (env : Env) :
    (∃ t, b.build env = .ok t) ∧ History.Valid env h ∧ (∀ e, ¬ History.Violates env h e) ∨
    (∃ e, b.build env = .error (.err e) ∧ History.Violates env h e) ∧ ¬ History.Valid env h := by
  have ho := ThingBuilder.outcome_build env b hr.wf
  unfold OutcomeF at ho
  cases h2 : b.build env with
  | ok t =>
    rw [h2] at ho
    exact .inl ⟨⟨_, rfl⟩, hr.valid.1 ((hr.ok_iff env _).1 h2).1, fun e he => ho.2 e (hr.violates.2 he)⟩
  | error f =>
    rw [h2] at ho
    cases f with
    | err e =>
      refine .inr ⟨⟨e, rfl, hr.violates.1 ho⟩, fun hv => ?_⟩
      have := (hr.ok_iff env _).2 ⟨hr.valid.2 hv, rfl⟩
      rw [h2] at this; cases this
    | panic => exact ho.elim

/-- `build` succeeds on a valid history. -/
theorem Reachable.build_of_valid (hr : Reachable X title h b) {env : Env} (hv : History.Valid env h) :
    b.build env = .ok (b.result env) := (hr.ok_iff env _).2 ⟨hr.valid.2 hv, rfl⟩

/-- A Thing is only built from a valid history. -/
theorem Reachable.valid_of_build (hr : Reachable X title h b) {env : Env} {t : Thing X}
    (hb : b.build env = .ok t) : History.Valid env h := hr.valid.1 ((hr.ok_iff env _).1 hb).1


theorem Reachable.defined_eq (hr : Reachable X title h b) : b.Defined = History.Defines h :=
  funext fun _ => propext hr.defined
theorem Reachable.declared_eq (hr : Reachable X title h b) : b.Declared = History.Declares h :=
  funext fun _ => propext hr.declared

theorem Reachable.iviolation (hr : Reachable X title h b) {ty : AffordanceType}
    {i : PartialInteraction X X.interaction} {e : Error} :
    b.IViolation ty i e ↔ History.InteractionFault h ty i e := by
  unfold ThingBuilder.IViolation History.InteractionFault
  rw [hr.defined_eq]

theorem langViolation_keyOf {env : Env} {o : Option (List (String × String))} {e : Error} :
    LangViolation env (KeyOf (o.map fun c => (⟨HMap.collect c⟩ : MultiLanguageBuilder))) e ↔
      ∃ c, o = some c ∧ LangViolation env (· ∈ c.map (·.1)) e := by
  unfold LangViolation
  simp only [keyOf_collect]
  constructor
  · rintro ⟨k, ⟨c, h1, h2⟩, h3⟩; exact ⟨c, h1, k, h2, h3⟩
  · rintro ⟨c, h1, k, h2, h3⟩; exact ⟨k, ⟨c, h1, h2⟩, h3⟩

theorem Reachable.fault (hr : Reachable X title h b) {env : Env} {p : Phase} {e : Error} :
    b.Fault env p e ↔ History.Fault env h p e := by
  cases p with
  | securityDefinitions =>
    simp only [ThingBuilder.Fault, History.Fault, hr.securityNames]
    refine or_congr ?_ Iff.rfl
    rw [hr.securityDefinitions]
    simp only [List.mem_map]
    constructor
    · rintro ⟨_, ⟨s, hs, rfl⟩, hv⟩; exact ⟨s, hs, hv⟩
    · rintro ⟨s, hs, hv⟩; exact ⟨_, ⟨s, hs, rfl⟩, hv⟩
  | comboReferences =>
    simp only [ThingBuilder.Fault, History.Fault, hr.comboReference, hr.defined]
    constructor
    · rintro ⟨n, ⟨s, hs, h1⟩, h2⟩; exact ⟨s, hs, n, h1, h2⟩
    · rintro ⟨s, hs, n, h1, h2⟩; exact ⟨n, ⟨s, hs, h1⟩, h2⟩
  | schemaDefinitions =>
    simp only [ThingBuilder.Fault, History.Fault]
    constructor
    · rintro ⟨⟨n, s⟩, h1, h2⟩
      rw [hr.schemaDefinitions, mem_collect_iff] at h1
      exact ⟨s, .schemaDefinition h1, h2⟩
    · rintro ⟨s, h1, h2⟩
      cases h1 with
      | @schemaDefinition n _ h1 =>
        rw [← mem_collect_iff, ← hr.schemaDefinitions] at h1
        exact ⟨(n, s), h1, h2⟩
  | thingForms =>
    simp only [ThingBuilder.Fault, History.Fault, hr.thingForm, hr.defined_eq, hr.declared_eq]
  | uriVariableTypes =>
    simp only [ThingBuilder.Fault, History.Fault, ← hr.thingUriVariable]
    refine and_congr_right fun _ => ⟨?_, ?_⟩
    · rintro ⟨m, hm, ⟨n, s⟩, h1, h2⟩; exact ⟨n, s, ⟨m, hm, h1⟩, h2⟩
    · rintro ⟨n, s, ⟨m, hm, h1⟩, h2⟩; exact ⟨m, hm, (n, s), h1, h2⟩
  | uriVariableLanguages =>
    simp only [ThingBuilder.Fault, History.Fault, ← hr.thingUriVariable]
    constructor
    · rintro ⟨m, hm, ⟨n, s⟩, h1, h2⟩; exact ⟨n, s, ⟨m, hm, h1⟩, h2⟩
    · rintro ⟨n, s, ⟨m, hm, h1⟩, h2⟩; exact ⟨m, hm, (n, s), h1, h2⟩
  | properties =>
    simp only [ThingBuilder.Fault, ThingBuilder.PViolation, ThingBuilder.SViolation, History.Fault,
      hr.properties, hr.iviolation, Prod.exists, History.mem_properties, List.mem_singleton,
      Option.some.injEq]
    refine or_congr ?_ Iff.rfl
    refine exists_congr fun n => exists_congr fun p => and_congr_right fun _ => or_congr Iff.rfl
      (or_congr ⟨?_, ?_⟩ Iff.rfl)
    · rintro ⟨s, x, rfl, h1⟩; exact ⟨x, h1⟩
    · rintro ⟨x, h1⟩; exact ⟨_, x, rfl, h1⟩
  | actions =>
    simp only [ThingBuilder.Fault, ThingBuilder.AViolation, ThingBuilder.SViolation, History.Fault,
      hr.actions, hr.iviolation, Prod.exists, History.mem_actions, List.mem_cons, List.not_mem_nil,
      or_false, @eq_comm _ (some _)]
  | events =>
    simp only [ThingBuilder.Fault, ThingBuilder.EViolation, ThingBuilder.SViolation, History.Fault,
      hr.events, hr.iviolation, Prod.exists, History.mem_events, List.mem_cons, List.not_mem_nil,
      or_false, @eq_comm _ (some _)]
  | links =>
    simp only [ThingBuilder.Fault, History.Fault, ← hr.mem_links]
    constructor
    · rintro ⟨ls, h1, l, h2, h3⟩; exact ⟨l, ⟨ls, h1, h2⟩, h3⟩
    · rintro ⟨l, ⟨ls, h1, h2⟩, h3⟩; exact ⟨ls, h1, l, h2, h3⟩
  | titles =>
    have ht : b.titles = (lastOf (History.titles h)).map fun c => ⟨HMap.collect c⟩ := by
      rw [hr.supplied]; rfl
    simp only [ThingBuilder.Fault, History.Fault, ht]
    exact langViolation_keyOf
  | descriptions =>
    have hd : b.descriptions = (lastOf (History.descriptions h)).map fun c => ⟨HMap.collect c⟩ := by
      rw [hr.supplied]; rfl
    simp only [ThingBuilder.Fault, History.Fault, hd]
    exact langViolation_keyOf

theorem Reachable.fault_iff (hr : Reachable X title h b) {env : Env} {e : Error} :
    (∃ p, History.Fault env h p e) ↔ History.Violates env h e := by
  simp only [← hr.fault, ← hr.violates]
  exact ThingBuilder.fault_iff env b e

/-- A failing build reports something wrong in the first phase in which anything is wrong. -/
theorem Reachable.first_fault (hr : Reachable X title h b) {env : Env} {e : Error}
    (hb : b.build env = .error (.err e)) :
    ∃ p, History.Fault env h p e ∧ History.NothingBefore env h p := by
  obtain ⟨p, h1, h2⟩ := ThingBuilder.first_fault env b hr.wf hb
  exact ⟨p, hr.fault.1 h1, fun q hq e' he => h2 q hq e' (hr.fault.2 he)⟩

/-- A violation makes `build` fail. -/
theorem Reachable.fails (hr : Reachable X title h b) {env : Env} {e : Error}
    (hv : History.Violates env h e) :
    ∃ e', b.build env = .error (.err e') ∧ History.Violates env h e' := by
  rcases hr.outcome env with ⟨_, _, h1⟩ | ⟨h1, _⟩
  · exact absurd hv (h1 e)
  · exact h1

theorem Phase.index_inj {p q : Phase} (h : p.index = q.index) : p = q := by
  cases p <;> cases q <;> first | rfl | cases h

/-- If something is wrong in a phase and nothing before it, the error is from that phase. -/
theorem Reachable.fails_in (hr : Reachable X title h b) {env : Env} {p : Phase} {e : Error}
    (hf : History.Fault env h p e) (hn : History.NothingBefore env h p) :
    ∃ e', b.build env = .error (.err e') ∧ History.Fault env h p e' := by
  obtain ⟨e', hb, -⟩ := hr.fails (hr.fault_iff.1 ⟨p, hf⟩)
  obtain ⟨q, h1, h2⟩ := hr.first_fault hb
  refine ⟨e', hb, ?_⟩
  rcases Nat.lt_trichotomy q.index p.index with hlt | heq | hgt
  · exact absurd h1 (hn q hlt e')
  · cases Phase.index_inj heq; exact h1
  · exact absurd hf (h2 p hgt e)

end Wot
