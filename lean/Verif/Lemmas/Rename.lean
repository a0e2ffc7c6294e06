import Verif.Lemmas.Valid
import Verif.Lemmas.FloatReread
import Verif.Spec.Rename
/-
What `build` does with renamed calls.
-/
namespace Wot
namespace Renamed

variable {X : ExtTypes} {r : Renaming} {h : List (ThingOp X)} {env : Env} {x : Error}
open History

theorem filterMap_same {α : Type} {F : ThingOp X → Option α} (hF : ∀ op, F (r.call op) = F op) :
    (r.calls h).filterMap F = h.filterMap F := by
  unfold Renaming.calls
  rw [List.filterMap_map]
  exact congrArg (List.filterMap · h) (funext hF)

theorem filterMap_map {α : Type} {F : ThingOp X → Option α} {u : α → α} (hF : ∀ op, F (r.call op) = (F op).map u) :
    (r.calls h).filterMap F = (h.filterMap F).map u := by
  unfold Renaming.calls
  rw [List.filterMap_map, List.map_filterMap]
  exact congrArg (List.filterMap · h) (funext hF)

theorem ids_eq : ids (r.calls h) = ids h :=
  filterMap_same fun op => by
    cases op with
    | common c => cases c <;> rfl
    | _ => rfl
theorem descriptionTexts_eq : descriptionTexts (r.calls h) = descriptionTexts h :=
  filterMap_same fun op => by
    cases op with
    | common c => cases c <;> rfl
    | _ => rfl
theorem versions_eq : versions (r.calls h) = versions h :=
  filterMap_same fun op => by
    cases op with
    | common c => cases c <;> rfl
    | _ => rfl
theorem createds_eq : createds (r.calls h) = createds h :=
  filterMap_same fun op => by
    cases op with
    | common c => cases c <;> rfl
    | _ => rfl
theorem modifieds_eq : modifieds (r.calls h) = modifieds h :=
  filterMap_same fun op => by
    cases op with
    | common c => cases c <;> rfl
    | _ => rfl
theorem supports_eq : supports (r.calls h) = supports h :=
  filterMap_same fun op => by
    cases op with
    | common c => cases c <;> rfl
    | _ => rfl
theorem bases_eq : bases (r.calls h) = bases h :=
  filterMap_same fun op => by
    cases op with
    | common c => cases c <;> rfl
    | _ => rfl
theorem attypes_eq : attypes (r.calls h) = attypes h :=
  filterMap_same fun op => by
    cases op with
    | common c => cases c <;> rfl
    | _ => rfl
theorem titles_eq : titles (r.calls h) = titles h :=
  filterMap_same fun op => by
    cases op with
    | common c => cases c <;> rfl
    | _ => rfl
theorem descriptions_eq : descriptions (r.calls h) = descriptions h :=
  filterMap_same fun op => by
    cases op with
    | common c => cases c <;> rfl
    | _ => rfl
theorem profiles_eq : profiles (r.calls h) = profiles h :=
  filterMap_same fun op => by
    cases op with
    | common c => cases c <;> rfl
    | _ => rfl
theorem contexts_eq : contexts (r.calls h) = contexts h :=
  filterMap_same fun op => by
    cases op with
    | common c => cases c <;> rfl
    | _ => rfl
theorem links_eq : links (r.calls h) = links h :=
  filterMap_same fun op => by
    cases op with
    | common c => cases c <;> rfl
    | _ => rfl
theorem uriVariables_eq : uriVariables (r.calls h) = uriVariables h :=
  filterMap_same fun op => by
    cases op with
    | common c => cases c <;> rfl
    | _ => rfl

theorem securities_eq : securities (r.calls h) = (securities h).map r.securityCall :=
  filterMap_map fun op => by
    cases op with
    | common c => cases c <;> rfl
    | _ => rfl
theorem forms_eq : forms (r.calls h) = (forms h).map r.formCall :=
  filterMap_map fun op => by
    cases op with
    | common c => cases c <;> rfl
    | _ => rfl
theorem properties_eq : properties (r.calls h) = (properties h).map fun kv => (r.affordance .property kv.1, r.propertyCall kv.2) :=
  filterMap_map fun op => by
    cases op with
    | common c => cases c <;> rfl
    | _ => rfl
theorem actions_eq : actions (r.calls h) = (actions h).map fun kv => (r.affordance .action kv.1, r.actionCall kv.2) :=
  filterMap_map fun op => by
    cases op with
    | common c => cases c <;> rfl
    | _ => rfl
theorem events_eq : events (r.calls h) = (events h).map fun kv => (r.affordance .event kv.1, r.eventCall kv.2) :=
  filterMap_map fun op => by
    cases op with
    | common c => cases c <;> rfl
    | _ => rfl
theorem schemaDefinitions_eq : schemaDefinitions (r.calls h) = (schemaDefinitions h).map fun kv => (r.schema kv.1, kv.2) :=
  filterMap_map fun op => by
    cases op with
    | common c => cases c <;> rfl
    | _ => rfl

/-! ### Names -/

theorem count_map {f : String → String} (hf : ∀ m n, f m = f n → m = n) (l : List String) (n : String) :
    (l.map f).count (f n) = l.count n := by
  induction l with
  | nil => rfl
  | cons a l ih =>
    rw [List.map_cons, List.count_cons, List.count_cons, ih]
    congr 1
    by_cases e : a = n
    · subst e; simp
    · have : f a ≠ f n := fun e' => e (hf _ _ e')
      simp [e, this]

theorem twice {f : String → String} (hf : ∀ m n, f m = f n → m = n) {l : List String} {n : String} :
    Twice (l.map f) (f n) ↔ Twice l n := by unfold Twice; rw [count_map hf]

theorem twice_of {f : String → String} {l : List String} {n : String} (ht : Twice (l.map f) n) : ∃ m, n = f m := by
  have : 0 < (l.map f).count n := Nat.lt_of_lt_of_le (by decide) ht
  obtain ⟨m, -, rfl⟩ := List.mem_map.1 (List.count_pos_iff.1 this)
  exact ⟨m, rfl⟩

theorem named_eq {V : Type} {f : String → String} (hf : ∀ m n, f m = f n → m = n) {l : List (String × V)} {n : String} :
    named (f n) (l.map fun kv => (f kv.1, kv.2)) = named n l := by
  unfold named
  rw [List.filterMap_map]
  congr 1; funext kv
  show (if f kv.1 = f n then some kv.2 else none) = _
  by_cases e : kv.1 = n
  · rw [if_pos e, if_pos (congrArg f e)]
  · rw [if_neg e, if_neg fun e' => e (hf _ _ e')]

theorem named_of {V : Type} {f : String → String} {l : List (String × V)} {n : String} {v : V}
    (hl : lastOf (named n (l.map fun kv => (f kv.1, kv.2))) = some v) : ∃ m, n = f m := by
  have hm := lastOf_mem hl
  unfold named at hm
  obtain ⟨kv, h1, h2⟩ := List.mem_filterMap.1 hm
  obtain ⟨kv, -, rfl⟩ := List.mem_map.1 h1
  split at h2
  · next e => exact ⟨_, e.symm⟩
  · cases h2

variable (hr : r.Faithful)
include hr

theorem defines {n : String} : Defines (r.calls h) (r.security n) ↔ Defines h n := by
  unfold Defines
  rw [securities_eq]
  constructor
  · rintro ⟨s, hs, e⟩
    obtain ⟨s', hs', rfl⟩ := List.mem_map.1 hs
    exact ⟨s', hs', hr.security _ _ e⟩
  · rintro ⟨s, hs, rfl⟩
    exact ⟨_, List.mem_map_of_mem hs, rfl⟩

theorem declares {n : String} : Declares (r.calls h) (r.schema n) ↔ Declares h n := by
  unfold Declares
  simp only [← mem_schemaDefinitions, schemaDefinitions_eq, List.mem_map, Prod.mk.injEq, Prod.exists]
  constructor
  · rintro ⟨s, k, s', h1, h2, -⟩
    exact ⟨s', hr.schema _ _ h2 ▸ h1⟩
  · rintro ⟨s, h1⟩
    exact ⟨s, n, s, h1, rfl, rfl⟩

/-! ### Faults -/

omit hr in
theorem names_eq {V : Type} {f : String → String} {u : V → V} (l : List (String × V)) :
    (l.map fun kv => (f kv.1, u kv.2)).map (·.1) = (l.map (·.1)).map f := by
  rw [List.map_map, List.map_map]; rfl

omit hr in
theorem securityNames_eq : (securities (r.calls h)).map securityName = ((securities h).map securityName).map r.security := by
  rw [securities_eq, List.map_map, List.map_map]; rfl

omit hr in
theorem references {s : SchemeSubtype} {n : String} : (r.subtype s).References n ↔ ∃ m, s.References m ∧ n = r.security m := by
  unfold SchemeSubtype.References
  constructor
  · rintro ⟨l, h1, h2⟩
    rcases s with ((_ | _ | (l' | l') | _ | _ | _ | _ | _ | _) | _) <;> rcases h1 with h1 | h1 <;> cases h1
    · obtain ⟨m, hm, rfl⟩ := List.mem_map.1 h2
      exact ⟨m, ⟨l', .inl rfl, hm⟩, rfl⟩
    · obtain ⟨m, hm, rfl⟩ := List.mem_map.1 h2
      exact ⟨m, ⟨l', .inr rfl, hm⟩, rfl⟩
  · rintro ⟨m, ⟨l, rfl | rfl, hm⟩, rfl⟩
    · exact ⟨_, .inl rfl, List.mem_map_of_mem hm⟩
    · exact ⟨_, .inr rfl, List.mem_map_of_mem hm⟩

omit hr in
theorem usesSecurity {f : FormBuilder X} {n : String} : (r.formCall f).UsesSecurity n ↔ ∃ m, f.UsesSecurity m ∧ n = r.security m := by
  unfold FormBuilderF.UsesSecurity
  constructor
  · rintro ⟨l, h1, h2⟩
    obtain ⟨l', hl, rfl⟩ := Option.map_eq_some_iff.1 h1
    obtain ⟨m, hm, rfl⟩ := List.mem_map.1 h2
    exact ⟨m, ⟨l', hl, hm⟩, rfl⟩
  · rintro ⟨m, ⟨l, h1, h2⟩, rfl⟩
    exact ⟨_, congrArg (Option.map _) h1, List.mem_map_of_mem h2⟩

omit hr in
theorem usesSchema {f : FormBuilder X} {n : String} : (r.formCall f).UsesSchema n ↔ ∃ m, f.UsesSchema m ∧ n = r.schema m := by
  unfold FormBuilderF.UsesSchema
  constructor
  · rintro ⟨a, h1, h2⟩
    obtain ⟨a', ha, rfl⟩ := List.mem_map.1 h1
    obtain ⟨m, hm, rfl⟩ := Option.map_eq_some_iff.1 h2
    exact ⟨m, ⟨a', ha, hm⟩, rfl⟩
  · rintro ⟨m, ⟨a, h1, h2⟩, rfl⟩
    exact ⟨_, List.mem_map_of_mem h1, congrArg (Option.map _) h2⟩

theorem thingForm_of {f : FormBuilder X} (hv : ThingFormViolation (Defines h) (Declares h) f x) :
    ThingFormViolation (Defines (r.calls h)) (Declares (r.calls h)) (r.formCall f) (r.error .thingForms x) := by
  rcases hv with ⟨n, h1, h2, rfl⟩ | ⟨h1, rfl⟩ | ⟨o, h1, h2, rfl⟩ | ⟨n, h1, h2, rfl⟩
  · exact .inl ⟨_, usesSecurity.2 ⟨n, h1, rfl⟩, fun h3 => h2 ((defines hr).1 h3), rfl⟩
  · exact .inr (.inl ⟨h1, rfl⟩)
  · exact .inr (.inr (.inl ⟨o, h1, h2, rfl⟩))
  · exact .inr (.inr (.inr ⟨_, usesSchema.2 ⟨n, h1, rfl⟩, fun h3 => h2 ((declares hr).1 h3), rfl⟩))

theorem of_thingForm {f : FormBuilder X} (hv : ThingFormViolation (Defines (r.calls h)) (Declares (r.calls h)) (r.formCall f) x) :
    ∃ y, x = r.error .thingForms y ∧ ThingFormViolation (Defines h) (Declares h) f y := by
  rcases hv with ⟨n, h1, h2, rfl⟩ | ⟨h1, rfl⟩ | ⟨o, h1, h2, rfl⟩ | ⟨n, h1, h2, rfl⟩
  · obtain ⟨m, hm, rfl⟩ := usesSecurity.1 h1
    exact ⟨.undefinedSecurity m, rfl, .inl ⟨m, hm, fun h3 => h2 ((defines hr).2 h3), rfl⟩⟩
  · exact ⟨.missingOpInForm, rfl, .inr (.inl ⟨h1, rfl⟩)⟩
  · exact ⟨.invalidOpInForm _ o, rfl, .inr (.inr (.inl ⟨o, h1, h2, rfl⟩))⟩
  · obtain ⟨m, hm, rfl⟩ := usesSchema.1 h1
    exact ⟨.missingSchemaDefinition m, rfl, .inr (.inr (.inr ⟨m, hm, fun h3 => h2 ((declares hr).2 h3), rfl⟩))⟩

theorem interaction_of {p : Phase} {ty : AffordanceType} {i : PartialInteraction X X.interaction}
    (hv : InteractionFault h ty i x) : InteractionFault (r.calls h) ty (r.interactionCall i) (r.error p x) := by
  rcases hv with ⟨f, hf, ⟨o, h1, h2, rfl⟩ | ⟨n, h1, h2, rfl⟩⟩ | ⟨h1, rfl⟩
  · exact .inl ⟨_, List.mem_map_of_mem hf, .inl ⟨o, h1, h2, rfl⟩⟩
  · exact .inl ⟨_, List.mem_map_of_mem hf, .inr ⟨_, usesSecurity.2 ⟨n, h1, rfl⟩, fun h3 => h2 ((defines hr).1 h3), rfl⟩⟩
  · exact .inr ⟨h1, rfl⟩

theorem of_interaction {p : Phase} {ty : AffordanceType} {i : PartialInteraction X X.interaction}
    (hv : InteractionFault (r.calls h) ty (r.interactionCall i) x) : ∃ y, x = r.error p y ∧ InteractionFault h ty i y := by
  rcases hv with ⟨f, hf, hv⟩ | ⟨h1, rfl⟩
  · obtain ⟨g, hg, rfl⟩ := List.mem_map.1 hf
    rcases hv with ⟨o, h1, h2, rfl⟩ | ⟨n, h1, h2, rfl⟩
    · exact ⟨.invalidOpInForm _ o, rfl, .inl ⟨g, hg, .inl ⟨o, h1, h2, rfl⟩⟩⟩
    · obtain ⟨m, hm, rfl⟩ := usesSecurity.1 h1
      exact ⟨.undefinedSecurity m, rfl, .inl ⟨g, hg, .inr ⟨m, hm, fun h3 => h2 ((defines hr).2 h3), rfl⟩⟩⟩
  · exact ⟨.invalidUriVariables, rfl, .inr ⟨h1, rfl⟩⟩

omit hr in
theorem lang_error {p : Phase} {K : String → Prop} (hv : LangViolation env K x) : r.error p x = x := by
  obtain ⟨k, -, -, rfl⟩ := hv; rfl

omit hr in
theorem schema_error {L D A O : Type} {p : Phase} {s : Schema L D A O} (hv : SchemaViolation s x) : r.error p x = x := by
  rcases hv with ⟨rfl, -⟩ | ⟨rfl, -⟩ | ⟨rfl, -⟩ <;> rfl

omit hr in
theorem link_error {p : Phase} {l : UncheckedLink} (hv : LinkViolation env l x) : r.error p x = x := by
  rcases hv with ⟨-, -, rfl⟩ | hv
  · rfl
  · exact lang_error hv

/-- What is wrong with the calls is wrong with the renamed ones. -/
theorem fault_of {p : Phase} (hf : Fault env h p x) : Fault env (r.calls h) p (r.error p x) := by
  cases p with
  | securityDefinitions =>
    rcases hf with ⟨s, hs, hv⟩ | ⟨n, rfl, hn⟩
    · rw [lang_error hv]
      exact .inl ⟨r.securityCall s, by rw [securities_eq]; exact List.mem_map_of_mem hs, hv⟩
    · exact .inr ⟨_, rfl, by rw [securityNames_eq]; exact (twice hr.security).2 hn⟩
  | comboReferences =>
    obtain ⟨s, hs, n, h1, h2, rfl⟩ := hf
    exact ⟨r.securityCall s, by rw [securities_eq]; exact List.mem_map_of_mem hs, _, references.2 ⟨n, h1, rfl⟩,
      fun h3 => h2 ((defines hr).1 h3), rfl⟩
  | schemaDefinitions =>
    obtain ⟨s, hs, hv⟩ := hf
    rw [lang_error hv]
    cases hs with
    | @schemaDefinition n s h1 =>
      exact ⟨s, .schemaDefinition (n := r.schema n) (by rw [schemaDefinitions_eq, named_eq hr.schema]; exact h1), hv⟩
  | thingForms =>
    obtain ⟨f, h1, hv⟩ := hf
    exact ⟨r.formCall f, mem_forms.1 (by rw [forms_eq]; exact List.mem_map_of_mem (mem_forms.2 h1)), thingForm_of hr hv⟩
  | uriVariableTypes =>
    obtain ⟨rfl, hv⟩ := hf
    exact ⟨rfl, by rw [uriVariables_eq]; exact hv⟩
  | uriVariableLanguages =>
    obtain ⟨n, s, h1, hv⟩ := hf
    rw [lang_error hv]
    exact ⟨n, s, by rw [uriVariables_eq]; exact h1, hv⟩
  | properties =>
    rcases hf with ⟨n, p, h1, hv⟩ | ⟨n, rfl, hn⟩
    · refine .inl ⟨r.affordance .property n, r.propertyCall p, mem_properties.1 (by
        rw [properties_eq]; exact List.mem_map_of_mem (f := fun kv => (r.affordance .property kv.1, r.propertyCall kv.2))
          (mem_properties.2 h1)), ?_⟩
      rcases hv with hv | ⟨y, h2, hv⟩ | hv
      · exact .inl (interaction_of hr hv)
      · rw [schema_error hv]; exact .inr (.inl ⟨y, h2, hv⟩)
      · rw [lang_error hv]; exact .inr (.inr hv)
    · exact .inr ⟨_, rfl, by rw [properties_eq, names_eq]; exact (twice (hr.affordance _)).2 hn⟩
  | actions =>
    rcases hf with ⟨n, p, h1, hv⟩ | ⟨n, rfl, hn⟩
    · refine .inl ⟨r.affordance .action n, r.actionCall p, mem_actions.1 (by
        rw [actions_eq]; exact List.mem_map_of_mem (f := fun kv => (r.affordance .action kv.1, r.actionCall kv.2))
          (mem_actions.2 h1)), ?_⟩
      rcases hv with hv | ⟨s, y, h2, h3, hv⟩ | hv
      · exact .inl (interaction_of hr hv)
      · rw [schema_error hv]; exact .inr (.inl ⟨s, y, h2, h3, hv⟩)
      · rw [lang_error hv]; exact .inr (.inr hv)
    · exact .inr ⟨_, rfl, by rw [actions_eq, names_eq]; exact (twice (hr.affordance _)).2 hn⟩
  | events =>
    rcases hf with ⟨n, p, h1, hv⟩ | ⟨n, rfl, hn⟩
    · refine .inl ⟨r.affordance .event n, r.eventCall p, mem_events.1 (by
        rw [events_eq]; exact List.mem_map_of_mem (f := fun kv => (r.affordance .event kv.1, r.eventCall kv.2))
          (mem_events.2 h1)), ?_⟩
      rcases hv with hv | ⟨s, y, h2, h3, hv⟩ | hv
      · exact .inl (interaction_of hr hv)
      · rw [schema_error hv]; exact .inr (.inl ⟨s, y, h2, h3, hv⟩)
      · rw [lang_error hv]; exact .inr (.inr hv)
    · exact .inr ⟨_, rfl, by rw [events_eq, names_eq]; exact (twice (hr.affordance _)).2 hn⟩
  | links =>
    obtain ⟨l, hl, hv⟩ := hf
    rw [link_error hv]
    exact ⟨l, by rw [links_eq]; exact hl, hv⟩
  | titles =>
    obtain ⟨c, hc, hv⟩ := hf
    rw [lang_error hv]
    exact ⟨c, by rw [titles_eq]; exact hc, hv⟩
  | descriptions =>
    obtain ⟨c, hc, hv⟩ := hf
    rw [lang_error hv]
    exact ⟨c, by rw [descriptions_eq]; exact hc, hv⟩

/-- Nothing else is wrong with the renamed ones. -/
theorem of_fault {p : Phase} (hf : Fault env (r.calls h) p x) : ∃ y, x = r.error p y ∧ Fault env h p y := by
  cases p with
  | securityDefinitions =>
    rcases hf with ⟨s, hs, hv⟩ | ⟨n, rfl, hn⟩
    · rw [securities_eq] at hs
      obtain ⟨s', hs', rfl⟩ := List.mem_map.1 hs
      exact ⟨x, (lang_error hv).symm, .inl ⟨s', hs', hv⟩⟩
    · rw [securityNames_eq] at hn
      obtain ⟨m, rfl⟩ := twice_of hn
      exact ⟨.duplicatedSecurityDefinition m, rfl, .inr ⟨m, rfl, (twice hr.security).1 hn⟩⟩
  | comboReferences =>
    obtain ⟨s, hs, n, h1, h2, rfl⟩ := hf
    rw [securities_eq] at hs
    obtain ⟨s', hs', rfl⟩ := List.mem_map.1 hs
    obtain ⟨m, hm, rfl⟩ := references.1 h1
    exact ⟨.missingSchemaDefinition m, rfl, s', hs', m, hm, fun h3 => h2 ((defines hr).2 h3), rfl⟩
  | schemaDefinitions =>
    obtain ⟨s, hs, hv⟩ := hf
    refine ⟨x, (lang_error hv).symm, s, ?_, hv⟩
    cases hs with
    | @schemaDefinition n s h1 =>
      rw [schemaDefinitions_eq] at h1
      obtain ⟨m, rfl⟩ := named_of h1
      rw [named_eq hr.schema] at h1
      exact .schemaDefinition h1
  | thingForms =>
    obtain ⟨f, h1, hv⟩ := hf
    rw [← mem_forms, forms_eq] at h1
    obtain ⟨g, hg, rfl⟩ := List.mem_map.1 h1
    obtain ⟨y, hy, hv⟩ := of_thingForm hr hv
    exact ⟨y, hy, g, mem_forms.1 hg, hv⟩
  | uriVariableTypes =>
    obtain ⟨rfl, hv⟩ := hf
    rw [uriVariables_eq] at hv
    exact ⟨_, rfl, rfl, hv⟩
  | uriVariableLanguages =>
    obtain ⟨n, s, h1, hv⟩ := hf
    rw [uriVariables_eq] at h1
    exact ⟨x, (lang_error hv).symm, n, s, h1, hv⟩
  | properties =>
    rcases hf with ⟨n, p, h1, hv⟩ | ⟨n, rfl, hn⟩
    · rw [← mem_properties, properties_eq] at h1
      obtain ⟨⟨m, q⟩, hq, e⟩ := List.mem_map.1 h1
      cases e
      rcases hv with hv | ⟨y, h2, hv⟩ | hv
      · obtain ⟨y, hy, hv⟩ := of_interaction hr hv
        exact ⟨y, hy, .inl ⟨m, q, mem_properties.1 hq, .inl hv⟩⟩
      · exact ⟨x, (schema_error hv).symm, .inl ⟨m, q, mem_properties.1 hq, .inr (.inl ⟨y, h2, hv⟩)⟩⟩
      · exact ⟨x, (lang_error hv).symm, .inl ⟨m, q, mem_properties.1 hq, .inr (.inr hv)⟩⟩
    · rw [properties_eq, names_eq] at hn
      obtain ⟨m, rfl⟩ := twice_of hn
      exact ⟨.duplicatedAffordance .property m, rfl, .inr ⟨m, rfl, (twice (hr.affordance _)).1 hn⟩⟩
  | actions =>
    rcases hf with ⟨n, p, h1, hv⟩ | ⟨n, rfl, hn⟩
    · rw [← mem_actions, actions_eq] at h1
      obtain ⟨⟨m, q⟩, hq, e⟩ := List.mem_map.1 h1
      cases e
      rcases hv with hv | ⟨s, y, h2, h3, hv⟩ | hv
      · obtain ⟨y, hy, hv⟩ := of_interaction hr hv
        exact ⟨y, hy, .inl ⟨m, q, mem_actions.1 hq, .inl hv⟩⟩
      · exact ⟨x, (schema_error hv).symm, .inl ⟨m, q, mem_actions.1 hq, .inr (.inl ⟨s, y, h2, h3, hv⟩)⟩⟩
      · exact ⟨x, (lang_error hv).symm, .inl ⟨m, q, mem_actions.1 hq, .inr (.inr hv)⟩⟩
    · rw [actions_eq, names_eq] at hn
      obtain ⟨m, rfl⟩ := twice_of hn
      exact ⟨.duplicatedAffordance .action m, rfl, .inr ⟨m, rfl, (twice (hr.affordance _)).1 hn⟩⟩
  | events =>
    rcases hf with ⟨n, p, h1, hv⟩ | ⟨n, rfl, hn⟩
    · rw [← mem_events, events_eq] at h1
      obtain ⟨⟨m, q⟩, hq, e⟩ := List.mem_map.1 h1
      cases e
      rcases hv with hv | ⟨s, y, h2, h3, hv⟩ | hv
      · obtain ⟨y, hy, hv⟩ := of_interaction hr hv
        exact ⟨y, hy, .inl ⟨m, q, mem_events.1 hq, .inl hv⟩⟩
      · exact ⟨x, (schema_error hv).symm, .inl ⟨m, q, mem_events.1 hq, .inr (.inl ⟨s, y, h2, h3, hv⟩)⟩⟩
      · exact ⟨x, (lang_error hv).symm, .inl ⟨m, q, mem_events.1 hq, .inr (.inr hv)⟩⟩
    · rw [events_eq, names_eq] at hn
      obtain ⟨m, rfl⟩ := twice_of hn
      exact ⟨.duplicatedAffordance .event m, rfl, .inr ⟨m, rfl, (twice (hr.affordance _)).1 hn⟩⟩
  | links =>
    obtain ⟨l, hl, hv⟩ := hf
    rw [links_eq] at hl
    exact ⟨x, (link_error hv).symm, l, hl, hv⟩
  | titles =>
    obtain ⟨c, hc, hv⟩ := hf
    rw [titles_eq] at hc
    exact ⟨x, (lang_error hv).symm, c, hc, hv⟩
  | descriptions =>
    obtain ⟨c, hc, hv⟩ := hf
    rw [descriptions_eq] at hc
    exact ⟨x, (lang_error hv).symm, c, hc, hv⟩

end Renamed
end Wot
