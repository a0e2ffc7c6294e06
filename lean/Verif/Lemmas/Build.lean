import Verif.Lemmas.BuildParts
/-
`build`, characterised as a whole.
-/
namespace Wot

variable {X : ExtTypes}

namespace ThingBuilder

theorem outcome_forms {V : Type} (b : ThingBuilder X) {secDefs : HMap V}
    (hd : ∀ n, secDefs.contains n = true ↔ b.Defined n) {W : Type} {schemaDefs : HMap W}
    (hs : ∀ n, schemaDefs.contains n = true ↔ b.Declared n) :
    Outcome (tryOpt (tryMap (buildThingForm secDefs schemaDefs)) b.forms)
      (fun e => ∃ f, b.ThingForm f ∧ ThingFormViolation b.Defined b.Declared f e)
      (b.forms.map (List.map FormBuilder.result)) := by
  have h : Outcome (tryOpt (tryMap (buildThingForm secDefs schemaDefs)) b.forms)
      (fun e => ∃ l, b.forms = some l ∧ ∃ f ∈ l, ThingFormViolation b.Defined b.Declared f e)
      (b.forms.map (List.map FormBuilder.result)) :=
    Outcome.tryOpt fun l hl => Outcome.tryMap fun f _ => outcome_buildThingForm hd hs f
  refine h.congrV fun e => ?_
  constructor
  · rintro ⟨l, hl, f, hf, hv⟩; exact ⟨f, ⟨l, hl, hf⟩, hv⟩
  · rintro ⟨f, ⟨l, hl, hf⟩, hv⟩; exact ⟨l, hl, f, hf, hv⟩

theorem outcome_properties {V : Type} (env : Env) (b : ThingBuilder X) (wf : b.WF) {secDefs : HMap V}
    (hd : ∀ n, secDefs.contains n = true ↔ b.Defined n) :
    Outcome (buildProperties env secDefs b.properties) (PViolation b env)
      (mapResult (PropertyBuilder.result env) b.properties) := by
  refine Outcome.congrV (outcome_tryBuildAffordance
    (V1 := fun p => b.IViolation .property p.interaction)
    (V2 := fun p => SViolation [some p.schema])
    (V3 := fun p => LangViolation env (PropertyKey p)) b.properties
    (fun kv _ => outcome_interactionCheck env hd isPropertyOp_iff kv.2.interaction)
    (fun kv _ => (outcome_checkPartial env kv.2).congrV fun e => ?_)
    (fun kv hkv => outcome_property env kv.2 (wf.propertyUriVariables _ _ hkv)
      (fun uv huv => wf.schemas _ (.inr (.inl (.property hkv huv))))
      (wf.schemas _ (.inl (.property hkv))))) fun e => Iff.rfl
  simp [SViolation]

theorem outcome_actions {V : Type} (env : Env) (b : ThingBuilder X) (wf : b.WF) {secDefs : HMap V}
    (hd : ∀ n, secDefs.contains n = true ↔ b.Defined n) :
    Outcome (buildActions env secDefs b.actions) (AViolation b env)
      (mapResult (ActionBuilder.result env) b.actions) := by
  unfold buildActions
  exact outcome_tryBuildAffordance
    (ci := fun a => a.interaction.part.check env secDefs .action isActionOp)
    (cs := fun a => checkSchemas env [a.input, a.output])
    (V1 := fun p => b.IViolation .action p.interaction.part)
    (V2 := fun p => SViolation [p.input, p.output])
    (V3 := fun p => LangViolation env (ActionKey p)) b.actions
    (fun kv _ => outcome_interactionCheck env hd isActionOp_iff kv.2.interaction.part)
    (fun kv _ => outcome_checkSchemas env _)
    (fun kv hkv => outcome_action env kv.2 (wf.actionUriVariables _ _ hkv)
      (fun uv huv => wf.schemas _ (.inr (.inl (.action hkv huv))))
      (fun s hs => wf.schemas _ (.inl (.input hkv hs)))
      (fun s hs => wf.schemas _ (.inl (.output hkv hs))))

theorem outcome_events {V : Type} (env : Env) (b : ThingBuilder X) (wf : b.WF) {secDefs : HMap V}
    (hd : ∀ n, secDefs.contains n = true ↔ b.Defined n) :
    Outcome (buildEvents env secDefs b.events) (EViolation b env)
      (mapResult (EventBuilder.result env) b.events) := by
  unfold buildEvents
  exact outcome_tryBuildAffordance
    (ci := fun e => e.interaction.part.check env secDefs .event isEventOp)
    (cs := fun e => checkSchemas env [e.subscription, e.data, e.cancellation])
    (V1 := fun p => b.IViolation .event p.interaction.part)
    (V2 := fun p => SViolation [p.subscription, p.data, p.cancellation])
    (V3 := fun p => LangViolation env (EventKey p)) b.events
    (fun kv _ => outcome_interactionCheck env hd isEventOp_iff kv.2.interaction.part)
    (fun kv _ => outcome_checkSchemas env _)
    (fun kv hkv => outcome_event env kv.2 (wf.eventUriVariables _ _ hkv)
      (fun uv huv => wf.schemas _ (.inr (.inl (.event hkv huv))))
      (fun s hs => wf.schemas _ (.inl (.subscription hkv hs)))
      (fun s hs => wf.schemas _ (.inl (.data hkv hs)))
      (fun s hs => wf.schemas _ (.inl (.cancellation hkv hs)))
      (fun s hs => wf.schemas _ (.inr (.inr (.dataResponse hkv hs)))))

/-- All the violations found on the way, in the order of the checks. -/
def Steps (env : Env) (b : ThingBuilder X) (e : Error) : Prop :=
  ((∃ kv ∈ b.securityDefinitions, LangViolation env (KeyOf kv.2.descriptions) e) ∨
    ∃ n, e = .duplicatedSecurityDefinition n ∧ Twice (b.securityDefinitions.map (·.1)) n) ∨
  (∃ n, b.ComboReference n ∧ ¬ b.Defined n ∧ e = .missingSchemaDefinition n) ∨
  (∃ kv ∈ b.schemaDefinitions, LangViolation env (SchemaKey kv.2) e) ∨
  (∃ f, b.ThingForm f ∧ ThingFormViolation b.Defined b.Declared f e) ∨
  False ∨
  (e = .invalidUriVariables ∧ ∃ m, b.uriVariables = some m ∧ ∃ kv ∈ m, kv.2.ArrayOrObject) ∨
  (∃ m, b.uriVariables = some m ∧ ∃ kv ∈ m, LangViolation env (SchemaKey kv.2) e) ∨
  PViolation b env e ∨ AViolation b env e ∨ EViolation b env e ∨
  (∃ ls, b.links = some ls ∧ ∃ l ∈ ls, LinkViolation env l e) ∨
  LangViolation env (KeyOf b.titles) e ∨ LangViolation env (KeyOf b.descriptions) e

theorem outcome_steps (env : Env) (b : ThingBuilder X) (wf : b.WF) :
    OutcomeF (b.build env) (Steps env b) (b.result env) := by
  unfold build
  have hlinks : Outcome (tryOpt (tryMap (UncheckedLink.tryInto env)) b.links)
      (fun e => ∃ ls, b.links = some ls ∧ ∃ l ∈ ls, LinkViolation env l e)
      (b.links.map (List.map (linkResult env))) :=
    Outcome.tryOpt fun ls _ => Outcome.tryMap fun l _ => outcome_link env l
  have hdef : ∀ n, (HMap.collect (b.securityDefinitions.map
      fun kv => (kv.1, schemeResult env kv.2))).contains n = true ↔ b.Defined n :=
    fun n => contains_collect _ _ n
  have hdec : ∀ n, (HMap.mapVals (Schema.mapLang (langResult env)) b.schemaDefinitions).contains n
      = true ↔ b.Declared n := by
    intro n
    rw [HMap.contains_iff, HMap.keys_mapVals]
    rfl
  have huri := outcome_tryIntoMap env b.uriVariables fun m hm =>
    ⟨wf.uriVariables m hm, fun kv hkv => wf.schemas _ (.inr (.inl (.thing hm hkv)))⟩
  have hsch := outcome_tryMapVals (Vi := fun s => LangViolation env (SchemaKey s)) env
    wf.schemaDefinitions fun kv hkv =>
      outcome_tryInto env kv.2 (wf.schemas _ (.inr (.inr (.schemaDefinition hkv))))
  refine (OutcomeF.bind (.orFail (outcome_secDefs env b.securityDefinitions)) fun h1 =>
    OutcomeF.bind (.orFail (outcome_checkCombos env b ?_)) fun _ =>
    OutcomeF.bind (.orFail hsch) fun _ =>
    OutcomeF.bind (.orFail (b.outcome_forms hdef hdec)) fun _ =>
    OutcomeF.bind (outcome_context env b.context wf.context wf.contextMaps) fun _ =>
    OutcomeF.bind (.orFail (outcome_checkUriVariables env b.uriVariables)) fun _ =>
    OutcomeF.bind (.orFail huri) fun _ =>
    OutcomeF.bind (.orFail (b.outcome_properties env wf hdef)) fun _ =>
    OutcomeF.bind (.orFail (b.outcome_actions env wf hdef)) fun _ =>
    OutcomeF.bind (.orFail (b.outcome_events env wf hdef)) fun _ =>
    OutcomeF.bind (.orFail hlinks) fun _ =>
    OutcomeF.bind (.orFail (outcome_buildLang env b.titles)) fun _ =>
    OutcomeF.map _ (.orFail (outcome_buildLang env b.descriptions))).congr (fun e => Iff.rfl) fun _ => ?_
  · exact (not_twice_iff _).1 fun n hn => h1 _ (.inr ⟨n, rfl, hn⟩)
  · unfold result
    simp only [nonEmpty_eq]
    congr 1
    cases b.schemaDefinitions <;> simp [HMap.mapVals]

theorem sviolation_violates {env : Env} {b : ThingBuilder X} {l : List (Option (UDS X))}
    (hl : ∀ s, some s ∈ l → b.CheckedSchema s) {e : Error} (h : SViolation l e) :
    b.Violates env e := by
  obtain ⟨s, x, hs, hx, ⟨rfl, h⟩ | ⟨rfl, h⟩ | ⟨rfl, h⟩⟩ := h
  all_goals exact ⟨s, x, hl s hs, hx, h⟩

theorem iviolation_violates {env : Env} {b : ThingBuilder X} {ty : AffordanceType}
    {i : PartialInteraction X X.interaction} (hf : ∀ f ∈ i.forms, b.AffordanceForm ty f)
    (hu : ∀ kv ∈ i.uriVariables, b.UriVariable kv.2) {e : Error} (h : b.IViolation ty i e) :
    b.Violates env e := by
  rcases h with ⟨f, hff, ⟨o, ho, hn, rfl⟩ | ⟨n, hn, hd, rfl⟩⟩ | ⟨⟨kv, hkv, h⟩, rfl⟩
  · exact ⟨hn, .inr ⟨ty, f, rfl, hf f hff, ho⟩⟩
  · exact ⟨hd, f, .inr ⟨ty, hf f hff⟩, hn⟩
  · exact ⟨kv.2, hu kv hkv, h⟩

theorem lang_violates {env : Env} {b : ThingBuilder X} {K : String → Prop}
    (hk : ∀ k, K k → b.LangKey k) {e : Error} (h : LangViolation env K e) : b.Violates env e := by
  obtain ⟨k, h1, h2, rfl⟩ := h
  exact ⟨hk k h1, h2⟩

theorem steps_violates {env : Env} {b : ThingBuilder X} {e : Error} (h : Steps env b e) :
    b.Violates env e := by
  rcases h with (⟨kv, hkv, h⟩ | ⟨n, rfl, h⟩) | ⟨n, h1, h2, rfl⟩ | ⟨kv, hkv, h⟩ |
    ⟨f, hf, h⟩ | h | ⟨rfl, m, hm, kv, hkv, h⟩ | ⟨m, hm, kv, hkv, h⟩ |
    (⟨kv, hkv, h | h | h⟩ | ⟨n, rfl, h⟩) | (⟨kv, hkv, h | h | h⟩ | ⟨n, rfl, h⟩) |
    (⟨kv, hkv, h | h | h⟩ | ⟨n, rfl, h⟩) | ⟨ls, hls, l, hl, h⟩ | h | h
  · exact lang_violates (fun k hk => .security hkv hk) h
  · exact h
  · exact .inr ⟨h2, h1⟩
  · exact lang_violates (fun k hk => .schema (.inr (.inr (.schemaDefinition hkv))) hk) h
  · rcases h with ⟨n, hn, hd, rfl⟩ | ⟨h, rfl⟩ | ⟨o, ho, hn, rfl⟩ | ⟨n, hn, hd, rfl⟩
    · exact ⟨hd, f, .inl hf, hn⟩
    · exact ⟨f, hf, h⟩
    · exact ⟨hn, .inl ⟨rfl, f, hf, ho⟩⟩
    · exact .inl ⟨hd, f, hf, hn⟩
  · exact h.elim
  · exact ⟨kv.2, .thing hm hkv, h⟩
  · exact lang_violates (fun k hk => .schema (.inr (.inl (.thing hm hkv))) hk) h
  · exact iviolation_violates (fun f hf => .property hkv hf) (fun uv huv => .property hkv huv) h
  · refine sviolation_violates (fun s hs => ?_) h
    simp only [List.mem_singleton, Option.some.injEq] at hs
    exact hs ▸ .property hkv
  · refine lang_violates (fun k hk => ?_) h
    rcases hk with hk | ⟨uv, huv, hk⟩
    · exact .schema (.inl (.property hkv)) hk
    · exact .schema (.inr (.inl (.property hkv huv))) hk
  · exact h
  · exact iviolation_violates (fun f hf => .action hkv hf) (fun uv huv => .action hkv huv) h
  · refine sviolation_violates (fun s hs => ?_) h
    simp only [List.mem_cons, List.not_mem_nil, or_false] at hs
    rcases hs with hs | hs
    · exact .input hkv hs.symm
    · exact .output hkv hs.symm
  · refine lang_violates (fun k hk => ?_) h
    rcases hk with (hk | hk | ⟨uv, huv, hk⟩) | ⟨s, hs | hs, hk⟩
    · exact .affordanceTitles (.action hkv) hk
    · exact .affordanceDescriptions (.action hkv) hk
    · exact .schema (.inr (.inl (.action hkv huv))) hk
    · exact .schema (.inl (.input hkv hs)) hk
    · exact .schema (.inl (.output hkv hs)) hk
  · exact h
  · exact iviolation_violates (fun f hf => .event hkv hf) (fun uv huv => .event hkv huv) h
  · refine sviolation_violates (fun s hs => ?_) h
    simp only [List.mem_cons, List.not_mem_nil, or_false] at hs
    rcases hs with hs | hs | hs
    · exact .subscription hkv hs.symm
    · exact .data hkv hs.symm
    · exact .cancellation hkv hs.symm
  · refine lang_violates (fun k hk => ?_) h
    rcases hk with (hk | hk | ⟨uv, huv, hk⟩) | ⟨s, hs | hs | hs | hs, hk⟩
    · exact .affordanceTitles (.event hkv) hk
    · exact .affordanceDescriptions (.event hkv) hk
    · exact .schema (.inr (.inl (.event hkv huv))) hk
    · exact .schema (.inl (.subscription hkv hs)) hk
    · exact .schema (.inl (.data hkv hs)) hk
    · exact .schema (.inl (.cancellation hkv hs)) hk
    · exact .schema (.inr (.inr (.dataResponse hkv hs))) hk
  · exact h
  · rcases h with ⟨h1, h2, rfl⟩ | h
    · exact ⟨ls, l, hls, hl, h1, h2⟩
    · exact lang_violates (fun k hk => .hreflang hls hl hk) h
  · exact lang_violates (fun k hk => .titles hk) h
  · exact lang_violates (fun k hk => .descriptions hk) h

theorem violates_steps {env : Env} {b : ThingBuilder X} {e : Error} (h : b.Violates env e) :
    Steps env b e := by
  -- names for the alternatives
  have pP : PViolation b env e → Steps env b e := fun h =>
    .inr (.inr (.inr (.inr (.inr (.inr (.inr (.inl h)))))))
  have pA : AViolation b env e → Steps env b e := fun h =>
    .inr (.inr (.inr (.inr (.inr (.inr (.inr (.inr (.inl h))))))))
  have pE : EViolation b env e → Steps env b e := fun h =>
    .inr (.inr (.inr (.inr (.inr (.inr (.inr (.inr (.inr (.inl h)))))))))
  have pF : ∀ f, b.ThingForm f → ThingFormViolation b.Defined b.Declared f e → Steps env b e :=
    fun f hf h => .inr (.inr (.inr (.inl ⟨f, hf, h⟩)))
  have pI : ∀ ty f, b.AffordanceForm ty f → AffFormViolation b.Defined ty f e → Steps env b e := by
    intro ty f hf h
    cases hf with
    | property h1 h2 => exact pP (.inl ⟨_, h1, .inl (.inl ⟨f, h2, h⟩)⟩)
    | action h1 h2 => exact pA (.inl ⟨_, h1, .inl (.inl ⟨f, h2, h⟩)⟩)
    | event h1 h2 => exact pE (.inl ⟨_, h1, .inl (.inl ⟨f, h2, h⟩)⟩)
  have pS : ∀ s x, b.CheckedSchema s → Within x s → SchemaViolation x e → Steps env b e := by
    intro s x hs hx h
    cases hs with
    | property h1 => exact pP (.inl ⟨_, h1, .inr (.inl ⟨_, x, by simp, hx, h⟩)⟩)
    | input h1 h2 => exact pA (.inl ⟨_, h1, .inr (.inl ⟨s, x, by simp [h2], hx, h⟩)⟩)
    | output h1 h2 => exact pA (.inl ⟨_, h1, .inr (.inl ⟨s, x, by simp [h2], hx, h⟩)⟩)
    | subscription h1 h2 => exact pE (.inl ⟨_, h1, .inr (.inl ⟨s, x, by simp [h2], hx, h⟩)⟩)
    | data h1 h2 => exact pE (.inl ⟨_, h1, .inr (.inl ⟨s, x, by simp [h2], hx, h⟩)⟩)
    | cancellation h1 h2 => exact pE (.inl ⟨_, h1, .inr (.inl ⟨s, x, by simp [h2], hx, h⟩)⟩)
  cases e with
  | duplicatedSecurityDefinition n => exact .inl (.inr ⟨n, rfl, h⟩)
  | missingOpInForm =>
    obtain ⟨f, hf, h⟩ := h
    exact pF f hf (.inr (.inl ⟨h, rfl⟩))
  | invalidOpInForm ctx o =>
    obtain ⟨hn, ⟨rfl, f, hf, ho⟩ | ⟨ty, f, rfl, hf, ho⟩⟩ := h
    · exact pF f hf (.inr (.inr (.inl ⟨o, ho, hn, rfl⟩)))
    · exact pI ty f hf (.inl ⟨o, ho, hn, rfl⟩)
  | undefinedSecurity n =>
    obtain ⟨hd, f, hf | ⟨ty, hf⟩, hn⟩ := h
    · exact pF f hf (.inl ⟨n, hn, hd, rfl⟩)
    · exact pI ty f hf (.inr ⟨n, hn, hd, rfl⟩)
  | invalidMinMax =>
    obtain ⟨s, x, hs, hx, h⟩ := h
    exact pS s x hs hx (.inl ⟨rfl, h⟩)
  | nanMinMax =>
    obtain ⟨s, x, hs, hx, h⟩ := h
    exact pS s x hs hx (.inr (.inl ⟨rfl, h⟩))
  | invalidMultipleOf =>
    obtain ⟨s, x, hs, hx, h⟩ := h
    exact pS s x hs hx (.inr (.inr ⟨rfl, h⟩))
  | duplicatedAffordance ty n =>
    cases ty with
    | property => exact pP (.inr ⟨n, rfl, h⟩)
    | action => exact pA (.inr ⟨n, rfl, h⟩)
    | event => exact pE (.inr ⟨n, rfl, h⟩)
  | missingSchemaDefinition n =>
    rcases h with ⟨hd, f, hf, hn⟩ | ⟨hd, hn⟩
    · exact pF f hf (.inr (.inr (.inr ⟨n, hn, hd, rfl⟩)))
    · exact .inr (.inl ⟨n, hn, hd, rfl⟩)
  | invalidUriVariables =>
    obtain ⟨s, hs, h⟩ := h
    cases hs with
    | thing h1 h2 => exact .inr (.inr (.inr (.inr (.inr (.inl ⟨rfl, _, h1, _, h2, h⟩)))))
    | property h1 h2 => exact pP (.inl ⟨_, h1, .inl (.inr ⟨⟨_, h2, h⟩, rfl⟩)⟩)
    | action h1 h2 => exact pA (.inl ⟨_, h1, .inl (.inr ⟨⟨_, h2, h⟩, rfl⟩)⟩)
    | event h1 h2 => exact pE (.inl ⟨_, h1, .inl (.inr ⟨⟨_, h2, h⟩, rfl⟩)⟩)
  | invalidLanguageTag k =>
    obtain ⟨hk, hp⟩ := h
    have w : ∀ {K : String → Prop}, K k → LangViolation env K (.invalidLanguageTag k) :=
      fun hk => ⟨k, hk, hp, rfl⟩
    have wP : ∀ {n : String} {p : PropertyBuilder X}, (n, p) ∈ b.properties → PropertyKey p k →
        Steps env b (.invalidLanguageTag k) := fun h1 hk => pP (.inl ⟨_, h1, .inr (.inr (w hk))⟩)
    have wA : ∀ {n : String} {p : ActionBuilder X}, (n, p) ∈ b.actions → ActionKey p k →
        Steps env b (.invalidLanguageTag k) := fun h1 hk => pA (.inl ⟨_, h1, .inr (.inr (w hk))⟩)
    have wE : ∀ {n : String} {p : EventBuilder X}, (n, p) ∈ b.events → EventKey p k →
        Steps env b (.invalidLanguageTag k) := fun h1 hk => pE (.inl ⟨_, h1, .inr (.inr (w hk))⟩)
    cases hk with
    | titles hk =>
      exact .inr (.inr (.inr (.inr (.inr (.inr (.inr (.inr (.inr (.inr (.inr (.inl (w hk))))))))))))
    | descriptions hk =>
      exact .inr (.inr (.inr (.inr (.inr (.inr (.inr (.inr (.inr (.inr (.inr (.inr (w hk))))))))))))
    | security h1 hk => exact .inl (.inl ⟨_, h1, w hk⟩)
    | affordanceTitles hi hk =>
      cases hi with
      | property h1 => exact wP h1 (.inl ⟨_, .self _, .inl hk⟩)
      | action h1 => exact wA h1 (.inl (.inl hk))
      | event h1 => exact wE h1 (.inl (.inl hk))
    | affordanceDescriptions hi hk =>
      cases hi with
      | property h1 => exact wP h1 (.inl ⟨_, .self _, .inr hk⟩)
      | action h1 => exact wA h1 (.inl (.inr (.inl hk)))
      | event h1 => exact wE h1 (.inl (.inr (.inl hk)))
    | schema hs hk =>
      rcases hs with hs | hs | hs
      · cases hs with
        | property h1 => exact wP h1 (.inl hk)
        | input h1 h2 => exact wA h1 (.inr ⟨_, .inl h2, hk⟩)
        | output h1 h2 => exact wA h1 (.inr ⟨_, .inr h2, hk⟩)
        | subscription h1 h2 => exact wE h1 (.inr ⟨_, .inl h2, hk⟩)
        | data h1 h2 => exact wE h1 (.inr ⟨_, .inr (.inl h2), hk⟩)
        | cancellation h1 h2 => exact wE h1 (.inr ⟨_, .inr (.inr (.inl h2)), hk⟩)
      · cases hs with
        | thing h1 h2 => exact .inr (.inr (.inr (.inr (.inr (.inr (.inl ⟨_, h1, _, h2, w hk⟩))))))
        | property h1 h2 => exact wP h1 (.inr ⟨_, h2, hk⟩)
        | action h1 h2 => exact wA h1 (.inl (.inr (.inr ⟨_, h2, hk⟩)))
        | event h1 h2 => exact wE h1 (.inl (.inr (.inr ⟨_, h2, hk⟩)))
      · cases hs with
        | schemaDefinition h1 => exact .inr (.inr (.inl ⟨_, h1, w hk⟩))
        | dataResponse h1 h2 => exact wE h1 (.inr ⟨_, .inr (.inr (.inr h2)), hk⟩)
    | hreflang h1 h2 hk =>
      exact .inr (.inr (.inr (.inr (.inr (.inr (.inr (.inr (.inr (.inr (.inl
        ⟨_, h1, _, h2, .inr (w hk)⟩))))))))))
  | sizesWithRelNotIcon =>
    obtain ⟨ls, l, h1, h2, h3, h4⟩ := h
    exact .inr (.inr (.inr (.inr (.inr (.inr (.inr (.inr (.inr (.inr (.inl
      ⟨_, h1, _, h2, .inl ⟨h3, h4, rfl⟩⟩))))))))))

/-- `build` succeeds with `result` when nothing is violated, and otherwise reports a violation. -/
theorem outcome_build (env : Env) (b : ThingBuilder X) (wf : b.WF) :
    OutcomeF (b.build env) (b.Violates env) (b.result env) :=
  (outcome_steps env b wf).congr (fun _ => ⟨steps_violates, violates_steps⟩) fun _ => rfl

theorem valid_iff (env : Env) (b : ThingBuilder X) : b.Valid env ↔ ∀ e, ¬ b.Violates env e := by
  constructor
  · intro v e h
    cases e with
    | duplicatedSecurityDefinition n => exact (not_twice_iff _).2 v.securityNames n h
    | missingOpInForm =>
      obtain ⟨f, hf, h⟩ := h
      obtain ⟨l, hl, _⟩ := v.thingForms f hf
      rw [h] at hl
      cases hl
    | invalidOpInForm ctx o =>
      obtain ⟨hn, ⟨rfl, f, hf, l, hl, ho⟩ | ⟨ty, f, rfl, hf, ho⟩⟩ := h
      · obtain ⟨l', hl', h'⟩ := v.thingForms f hf
        rw [hl] at hl'
        cases hl'
        exact hn (h' o ho)
      · exact hn (v.affordanceForms ty f o hf ho)
    | undefinedSecurity n =>
      obtain ⟨hd, f, hf, hn⟩ := h
      exact hd (v.formSecurity f n hf hn)
    | invalidMinMax =>
      obtain ⟨s, x, hs, hx, h⟩ := h
      exact (not_violation_iff x).2 (v.schemas s hs x hx) _ (.inl ⟨rfl, h⟩)
    | nanMinMax =>
      obtain ⟨s, x, hs, hx, h⟩ := h
      exact (not_violation_iff x).2 (v.schemas s hs x hx) _ (.inr (.inl ⟨rfl, h⟩))
    | invalidMultipleOf =>
      obtain ⟨s, x, hs, hx, h⟩ := h
      exact (not_violation_iff x).2 (v.schemas s hs x hx) _ (.inr (.inr ⟨rfl, h⟩))
    | duplicatedAffordance ty n =>
      cases ty with
      | property => exact (not_twice_iff _).2 v.propertyNames n h
      | action => exact (not_twice_iff _).2 v.actionNames n h
      | event => exact (not_twice_iff _).2 v.eventNames n h
    | missingSchemaDefinition n =>
      rcases h with ⟨hd, f, hf, hn⟩ | ⟨hd, hn⟩
      · exact hd (v.responseSchemas f n hf hn)
      · exact hd (v.comboReferences n hn)
    | invalidUriVariables =>
      obtain ⟨s, hs, h⟩ := h
      exact v.uriVariables s hs h
    | invalidLanguageTag k =>
      obtain ⟨hk, hp⟩ := h
      obtain ⟨t, ht⟩ := v.languages k hk
      rw [hp] at ht
      cases ht
    | sizesWithRelNotIcon =>
      obtain ⟨ls, l, h1, h2, h3, h4⟩ := h
      exact h4 (v.linkSizes ls l h1 h2 h3)
  · intro h
    have dn : ∀ {p : Prop}, (¬ p → False) → p := fun h => Classical.byContradiction h
    exact {
      securityNames := (not_twice_iff _).1 fun n hn => h (.duplicatedSecurityDefinition n) hn
      comboReferences := fun n hn => dn fun hd => h (.missingSchemaDefinition n) (.inr ⟨hd, hn⟩)
      formSecurity := fun f n hf hn => dn fun hd => h (.undefinedSecurity n) ⟨hd, f, hf, hn⟩
      thingForms := fun f hf => by
        cases ho : f.op with
        | default => exact (h .missingOpInForm ⟨f, hf, ho⟩).elim
        | custom l =>
          exact ⟨l, rfl, fun o hol => dn fun hn =>
            h (.invalidOpInForm .thing o) ⟨hn, .inl ⟨rfl, f, hf, l, ho, hol⟩⟩⟩
      affordanceForms := fun ty f o hf ho => dn fun hn =>
        h (.invalidOpInForm ty.toContext o) ⟨hn, .inr ⟨ty, f, rfl, hf, ho⟩⟩
      responseSchemas := fun f n hf hn => dn fun hd =>
        h (.missingSchemaDefinition n) (.inl ⟨hd, f, hf, hn⟩)
      schemas := fun s hs x hx => (not_violation_iff x).1 fun e he => by
        rcases he with ⟨_, he⟩ | ⟨_, he⟩ | ⟨_, he⟩
        · exact h .invalidMinMax ⟨s, x, hs, hx, he⟩
        · exact h .nanMinMax ⟨s, x, hs, hx, he⟩
        · exact h .invalidMultipleOf ⟨s, x, hs, hx, he⟩
      uriVariables := fun s hs hn => h .invalidUriVariables ⟨s, hs, hn⟩
      propertyNames := (not_twice_iff _).1 fun n hn => h (.duplicatedAffordance .property n) hn
      actionNames := (not_twice_iff _).1 fun n hn => h (.duplicatedAffordance .action n) hn
      eventNames := (not_twice_iff _).1 fun n hn => h (.duplicatedAffordance .event n) hn
      languages := fun k hk => by
        cases hp : env.langParse k with
        | some t => exact ⟨t, rfl⟩
        | none => exact (h (.invalidLanguageTag k) ⟨hk, hp⟩).elim
      linkSizes := fun ls l h1 h2 h3 => dn fun h4 => h .sizesWithRelNotIcon ⟨ls, l, h1, h2, h3, h4⟩ }

/-- The exact condition and result of a successful build. -/
theorem build_ok_iff (env : Env) {b : ThingBuilder X} (wf : b.WF) (t : Thing X) :
    b.build env = .ok t ↔ b.Valid env ∧ t = b.result env := by
  rw [(outcome_build env b wf).ok_iff, valid_iff, and_comm]

end ThingBuilder
end Wot
