import Verif.Lemmas.History
import Verif.Lemmas.Phases
import Verif.Spec.Thing
/-
Relating a built Thing, the builder and the call history.
-/
namespace Wot

variable {X : ExtTypes}

theorem lastOf_cons {α : Type} (a : α) (l : List α) : lastOf (a :: l) = (lastOf l).or (some a) := by
  induction l generalizing a with
  | nil => rfl
  | cons b l ih =>
    show lastOf (b :: l) = _
    rw [ih b]
    cases lastOf l <;> rfl

theorem lastOf_mem {α : Type} {l : List α} {a : α} (h : lastOf l = some a) : a ∈ l := by
  induction l with
  | nil => cases h
  | cons b l ih =>
    rw [lastOf_cons] at h
    cases hl : lastOf l with
    | none => rw [hl] at h; cases h; simp
    | some c => rw [hl] at h; cases h; exact List.mem_cons_of_mem _ (ih hl)

theorem lastOf_eq_none {α : Type} {l : List α} : lastOf l = none ↔ l = [] := by
  cases l with
  | nil => exact ⟨fun _ => rfl, fun _ => rfl⟩
  | cons a l => rw [lastOf_cons]; cases lastOf l <;> simp

theorem foldl_insert_named {V : Type} (l : List (String × V)) (m : HMap V) (n : String) :
    HMap.get? (l.foldl (fun m kv => HMap.insert kv.1 kv.2 m) m) n =
      (lastOf (History.named n l)).or (m.get? n) := by
  induction l generalizing m with
  | nil => rfl
  | cons kv l ih =>
    rw [List.foldl_cons, ih, HMap.get?_insert]
    unfold History.named
    rw [List.filterMap_cons]
    by_cases h : kv.1 = n
    · rw [if_pos h, if_pos h.symm]
      show _ = (lastOf (kv.2 :: _)).or _
      rw [lastOf_cons]
      cases lastOf (List.filterMap (fun kv => if kv.fst = n then some kv.snd else none) l) <;> rfl
    · rw [if_neg h, if_neg (fun h' => h h'.symm)]

theorem get?_collect {V : Type} (l : List (String × V)) (n : String) :
    HMap.get? (HMap.collect l) n = lastOf (History.named n l) := by
  unfold HMap.collect
  rw [foldl_insert_named]
  cases lastOf (History.named n l) <;> rfl

theorem mem_collect_iff {V : Type} (l : List (String × V)) (n : String) (v : V) :
    (n, v) ∈ HMap.collect l ↔ lastOf (History.named n l) = some v := by
  rw [← get?_collect, HMap.get?_eq_some_iff (HMap.collect_sorted l).nodup]

theorem mem_mapVals {V W : Type} {f : V → W} {m : HMap V} {n : String} {w : W} :
    (n, w) ∈ HMap.mapVals f m ↔ ∃ v, (n, v) ∈ m ∧ w = f v := by
  simp only [HMap.mapVals, List.mem_map, Prod.exists, Prod.mk.injEq]
  constructor
  · rintro ⟨k, v, h, rfl, rfl⟩; exact ⟨v, h, rfl⟩
  · rintro ⟨v, h, rfl⟩; exact ⟨n, v, h, rfl, rfl⟩

theorem mem_mapResult {A T : Type} {f : A → T} {l : List (String × A)} (hn : (l.map (·.1)).Nodup)
    (n : String) (t : T) :
    (∃ m, mapResult f l = some m ∧ (n, t) ∈ m) ↔ ∃ a, (n, a) ∈ l ∧ t = f a := by
  unfold mapResult
  by_cases h : l = []
  · subst h; simp
  · rw [if_neg h]
    simp only [Option.some.injEq, exists_eq_left']
    exact mem_collect f hn n t

theorem mapResult_names {A T : Type} (f : A → T) {l : List (String × A)} (hn : (l.map (·.1)).Nodup) :
    (((mapResult f l).getD []).map (·.1)).Perm (l.map (·.1)) := by
  unfold mapResult
  split
  · rename_i he; subst he; exact .refl _
  · refine (List.perm_ext_iff_of_nodup (HMap.collect_sorted _).nodup hn).2 fun n => ?_
    exact (HMap.contains_iff _ _).symm.trans (contains_collect f l n)

theorem someList_mem {α : Type} {l : List α} {a : α} : (∃ m, someList l = some m ∧ a ∈ m) ↔ a ∈ l := by
  unfold someList
  by_cases h : l = []
  · subst h; simp
  · rw [if_neg h]; simp

/-! ### History and builder -/

namespace History

theorem mem_forms {h : List (ThingOp X)} {f : FormBuilder X} : f ∈ forms h ↔ .form f ∈ h := by
  unfold forms
  rw [List.mem_filterMap]
  constructor
  · rintro ⟨op, ho, h⟩; split at h <;> cases h; exact ho
  · intro hf; exact ⟨_, hf, rfl⟩

theorem mem_properties {h : List (ThingOp X)} {n : String} {p : PropertyBuilder X} :
    (n, p) ∈ properties h ↔ .property n p ∈ h := by
  unfold properties
  rw [List.mem_filterMap]
  constructor
  · rintro ⟨op, ho, h⟩; split at h <;> cases h; exact ho
  · intro hf; exact ⟨_, hf, rfl⟩

theorem mem_actions {h : List (ThingOp X)} {n : String} {p : ActionBuilder X} :
    (n, p) ∈ actions h ↔ .action n p ∈ h := by
  unfold actions
  rw [List.mem_filterMap]
  constructor
  · rintro ⟨op, ho, h⟩; split at h <;> cases h; exact ho
  · intro hf; exact ⟨_, hf, rfl⟩

theorem mem_events {h : List (ThingOp X)} {n : String} {p : EventBuilder X} :
    (n, p) ∈ events h ↔ .event n p ∈ h := by
  unfold events
  rw [List.mem_filterMap]
  constructor
  · rintro ⟨op, ho, h⟩; split at h <;> cases h; exact ho
  · intro hf; exact ⟨_, hf, rfl⟩

theorem mem_schemaDefinitions {h : List (ThingOp X)} {n : String} {s : UDS X} :
    (n, s) ∈ schemaDefinitions h ↔ .schemaDefinition n s ∈ h := by
  unfold schemaDefinitions
  rw [List.mem_filterMap]
  constructor
  · rintro ⟨op, ho, h⟩; split at h <;> cases h; exact ho
  · intro hf; exact ⟨_, hf, rfl⟩

end History

section
variable {title : String} {h : List (ThingOp X)} {b : ThingBuilder X}

theorem Reachable.supplied (hr : Reachable X title h b) : b = History.supplied title h b.other :=
  hr.reach.supplied

theorem Reachable.thingForm (hr : Reachable X title h b) {f : FormBuilder X} :
    b.ThingForm f ↔ .form f ∈ h := by
  rw [hr.supplied]
  exact someList_mem.trans History.mem_forms

theorem Reachable.properties (hr : Reachable X title h b) : b.properties = History.properties h := by
  rw [hr.supplied]; rfl
theorem Reachable.actions (hr : Reachable X title h b) : b.actions = History.actions h := by
  rw [hr.supplied]; rfl
theorem Reachable.events (hr : Reachable X title h b) : b.events = History.events h := by
  rw [hr.supplied]; rfl
theorem Reachable.securityDefinitions (hr : Reachable X title h b) :
    b.securityDefinitions = (History.securities h).map fun s => (securityName s, s.scheme) := by
  rw [hr.supplied]; rfl
theorem Reachable.schemaDefinitions (hr : Reachable X title h b) :
    b.schemaDefinitions = HMap.collect (History.schemaDefinitions h) := by
  rw [hr.supplied]; rfl
theorem Reachable.uriVariables (hr : Reachable X title h b) :
    b.uriVariables = (someList (History.uriVariables h)).map HMap.collect := by
  rw [hr.supplied]; rfl
theorem Reachable.links (hr : Reachable X title h b) : b.links = someList (History.links h) := by
  rw [hr.supplied]; rfl

theorem Reachable.securityNames (hr : Reachable X title h b) :
    b.securityDefinitions.map (·.1) = (History.securities h).map securityName := by
  rw [hr.securityDefinitions, List.map_map]; rfl

theorem Reachable.affordanceForm (hr : Reachable X title h b) {ty : AffordanceType}
    {f : FormBuilder X} : b.AffordanceForm ty f ↔ History.HasForm h ty.toContext f := by
  constructor
  · intro hf
    cases hf with
    | property h1 h2 => exact .property (History.mem_properties.1 (hr.properties ▸ h1)) h2
    | action h1 h2 => exact .action (History.mem_actions.1 (hr.actions ▸ h1)) h2
    | event h1 h2 => exact .event (History.mem_events.1 (hr.events ▸ h1)) h2
  · intro hf
    cases ty with
    | property => cases hf with
      | property h1 h2 => exact .property (hr.properties ▸ History.mem_properties.2 h1) h2
    | action => cases hf with
      | action h1 h2 => exact .action (hr.actions ▸ History.mem_actions.2 h1) h2
    | event => cases hf with
      | event h1 h2 => exact .event (hr.events ▸ History.mem_events.2 h1) h2

theorem hasForm_thing {h : List (ThingOp X)} {f : FormBuilder X} :
    History.HasForm h .thing f ↔ .form f ∈ h :=
  ⟨(fun hf => by cases hf; assumption), .thing⟩

theorem hasForm_context {h : List (ThingOp X)} {ctx : FormContext} {f : FormBuilder X}
    (hf : History.HasForm h ctx f) : ctx = .thing ∨ ∃ ty : AffordanceType, ctx = ty.toContext := by
  cases hf with
  | thing => exact .inl rfl
  | property => exact .inr ⟨.property, rfl⟩
  | action => exact .inr ⟨.action, rfl⟩
  | event => exact .inr ⟨.event, rfl⟩

theorem Reachable.formReach (hr : Reachable X title h b) {ctx : FormContext} {f : FormBuilder X}
    (hf : History.HasForm h ctx f) : FormReach X f := by
  cases hf with
  | thing h1 => exact hr.built _ h1
  | property h1 h2 => exact (show PropertyBuilder.Built _ from hr.built _ h1).reach.forms _ h2
  | action h1 h2 => exact (show ActionReach X _ from hr.built _ h1).forms _ h2
  | event h1 h2 => exact (show EventReach X _ from hr.built _ h1).forms _ h2

theorem Reachable.anyForm (hr : Reachable X title h b) {f : FormBuilder X} :
    b.AnyForm f ↔ ∃ ctx, History.HasForm h ctx f := by
  constructor
  · rintro (hf | ⟨ty, hf⟩)
    · exact ⟨.thing, hasForm_thing.2 (hr.thingForm.1 hf)⟩
    · exact ⟨_, hr.affordanceForm.1 hf⟩
  · rintro ⟨ctx, hf⟩
    rcases hasForm_context hf with rfl | ⟨ty, rfl⟩
    · exact .inl (hr.thingForm.2 (hasForm_thing.1 hf))
    · exact .inr ⟨ty, hr.affordanceForm.2 hf⟩

theorem Reachable.defined (hr : Reachable X title h b) {n : String} :
    b.Defined n ↔ History.Defines h n := by
  unfold ThingBuilder.Defined History.Defines
  rw [hr.securityNames, List.mem_map]

theorem Reachable.declared (hr : Reachable X title h b) {n : String} :
    b.Declared n ↔ History.Declares h n := by
  unfold ThingBuilder.Declared History.Declares
  rw [hr.schemaDefinitions, HMap.mem_keys_collect, List.mem_map]
  constructor
  · rintro ⟨⟨k, s⟩, hm, rfl⟩; exact ⟨s, History.mem_schemaDefinitions.1 hm⟩
  · rintro ⟨s, hm⟩; exact ⟨(n, s), History.mem_schemaDefinitions.2 hm, rfl⟩

theorem Reachable.thingUriVariable (hr : Reachable X title h b) {n : String} {s : UDS X} :
    (∃ m, b.uriVariables = some m ∧ (n, s) ∈ m) ↔
      lastOf (History.named n (History.uriVariables h)) = some s := by
  rw [hr.uriVariables, ← mem_collect_iff]
  unfold someList
  by_cases hu : History.uriVariables h = []
  · simp [hu, HMap.collect]
  · simp [hu]

theorem Reachable.checkedSchema (hr : Reachable X title h b) {s : UDS X} :
    b.CheckedSchema s ↔ ∃ p : Position, p.Checked ∧ History.HasSchema h p s := by
  constructor
  · intro hs
    cases hs with
    | property h1 => exact ⟨.property, trivial, .property (History.mem_properties.1 (hr.properties ▸ h1))⟩
    | input h1 h2 => exact ⟨.input, trivial, .input (History.mem_actions.1 (hr.actions ▸ h1)) h2⟩
    | output h1 h2 => exact ⟨.output, trivial, .output (History.mem_actions.1 (hr.actions ▸ h1)) h2⟩
    | subscription h1 h2 =>
      exact ⟨.subscription, trivial, .subscription (History.mem_events.1 (hr.events ▸ h1)) h2⟩
    | data h1 h2 => exact ⟨.data, trivial, .data (History.mem_events.1 (hr.events ▸ h1)) h2⟩
    | cancellation h1 h2 =>
      exact ⟨.cancellation, trivial, .cancellation (History.mem_events.1 (hr.events ▸ h1)) h2⟩
  · rintro ⟨p, hp, hs⟩
    cases hs with
    | property h1 => exact .property (hr.properties ▸ History.mem_properties.2 h1)
    | input h1 h2 => exact .input (hr.actions ▸ History.mem_actions.2 h1) h2
    | output h1 h2 => exact .output (hr.actions ▸ History.mem_actions.2 h1) h2
    | subscription h1 h2 => exact .subscription (hr.events ▸ History.mem_events.2 h1) h2
    | data h1 h2 => exact .data (hr.events ▸ History.mem_events.2 h1) h2
    | cancellation h1 h2 => exact .cancellation (hr.events ▸ History.mem_events.2 h1) h2
    | _ => exact hp.elim

theorem Reachable.uriVariable (hr : Reachable X title h b) {s : UDS X} :
    b.UriVariable s ↔ History.HasSchema h .uriVariable s := by
  constructor
  · intro hs
    cases hs with
    | thing h1 h2 => exact .uriVariable (hr.thingUriVariable.1 ⟨_, h1, h2⟩)
    | property h1 h2 => exact .propertyUriVariable (History.mem_properties.1 (hr.properties ▸ h1)) h2
    | action h1 h2 => exact .actionUriVariable (History.mem_actions.1 (hr.actions ▸ h1)) h2
    | event h1 h2 => exact .eventUriVariable (History.mem_events.1 (hr.events ▸ h1)) h2
  · intro hs
    cases hs with
    | uriVariable h1 => obtain ⟨m, h1, h2⟩ := hr.thingUriVariable.2 h1; exact .thing h1 h2
    | propertyUriVariable h1 h2 => exact .property (hr.properties ▸ History.mem_properties.2 h1) h2
    | actionUriVariable h1 h2 => exact .action (hr.actions ▸ History.mem_actions.2 h1) h2
    | eventUriVariable h1 h2 => exact .event (hr.events ▸ History.mem_events.2 h1) h2

theorem Reachable.uncheckedSchema (hr : Reachable X title h b) {s : UDS X} :
    b.UncheckedSchema s ↔ History.HasSchema h .schemaDefinition s ∨ History.HasSchema h .dataResponse s := by
  constructor
  · intro hs
    cases hs with
    | schemaDefinition h1 =>
      rw [hr.schemaDefinitions, mem_collect_iff] at h1
      exact .inl (.schemaDefinition h1)
    | dataResponse h1 h2 => exact .inr (.dataResponse (History.mem_events.1 (hr.events ▸ h1)) h2)
  · rintro (hs | hs)
    · cases hs with
      | schemaDefinition h1 =>
        rw [← mem_collect_iff, ← hr.schemaDefinitions] at h1
        exact .schemaDefinition h1
    · cases hs with
      | dataResponse h1 h2 => exact .dataResponse (hr.events ▸ History.mem_events.2 h1) h2

theorem Reachable.anySchema (hr : Reachable X title h b) {s : UDS X} :
    b.AnySchema s ↔ ∃ p, History.HasSchema h p s := by
  unfold ThingBuilder.AnySchema
  rw [hr.checkedSchema, hr.uriVariable, hr.uncheckedSchema]
  constructor
  · rintro (⟨p, _, hs⟩ | hs | hs | hs) <;> exact ⟨_, hs⟩
  · rintro ⟨p, hs⟩
    cases p with
    | uriVariable => exact .inr (.inl hs)
    | schemaDefinition => exact .inr (.inr (.inl hs))
    | dataResponse => exact .inr (.inr (.inr hs))
    | _ => exact .inl ⟨_, by trivial, hs⟩

/-! ### Built Thing and history -/

variable {env : Env} {t : Thing X}

theorem Reachable.ok_iff (hr : Reachable X title h b) (env : Env) (t : Thing X) :
    b.build env = .ok t ↔ b.Valid env ∧ t = b.result env := ThingBuilder.build_ok_iff env hr.wf t

theorem Reachable.hasProperty (hr : Reachable X title h b) (hb : b.build env = .ok t) {n : String}
    {p : PropertyAffordance X} : (∃ m, t.properties = some m ∧ (n, p) ∈ m) ↔
      ∃ q, .property n q ∈ h ∧ p = PropertyBuilder.result env q := by
  obtain ⟨hv, rfl⟩ := (hr.ok_iff env t).1 hb
  exact (mem_mapResult hv.propertyNames n p).trans (by simp only [hr.properties, History.mem_properties])

theorem Reachable.hasAction (hr : Reachable X title h b) (hb : b.build env = .ok t) {n : String}
    {p : ActionAffordance X} : (∃ m, t.actions = some m ∧ (n, p) ∈ m) ↔
      ∃ q, .action n q ∈ h ∧ p = ActionBuilder.result env q := by
  obtain ⟨hv, rfl⟩ := (hr.ok_iff env t).1 hb
  exact (mem_mapResult hv.actionNames n p).trans (by simp only [hr.actions, History.mem_actions])

theorem Reachable.hasEvent (hr : Reachable X title h b) (hb : b.build env = .ok t) {n : String}
    {p : EventAffordance X} : (∃ m, t.events = some m ∧ (n, p) ∈ m) ↔
      ∃ q, .event n q ∈ h ∧ p = EventBuilder.result env q := by
  obtain ⟨hv, rfl⟩ := (hr.ok_iff env t).1 hb
  exact (mem_mapResult hv.eventNames n p).trans (by simp only [hr.events, History.mem_events])

theorem interaction_forms {i : HumanReadableInfo} {p : PartialInteraction X X.interaction}
    {f : Form X} : f ∈ (interactionResult env i p).forms ↔ ∃ g ∈ p.forms, f = g.result := by
  simp only [interactionResult, List.mem_map, eq_comm]

theorem interaction_uriVariables {i : HumanReadableInfo} {p : PartialInteraction X X.interaction}
    {k : String} {s : DS X} :
    (∃ u, (interactionResult env i p).uriVariables = some u ∧ (k, s) ∈ u) ↔
      ∃ v, (k, v) ∈ p.uriVariables ∧ s = v.mapLang (langResult env) := by
  simp only [interactionResult]
  by_cases hu : p.uriVariables = []
  · simp [hu]
  · rw [if_neg hu]
    simp only [Option.some.injEq, exists_eq_left', mem_mapVals]

/-- The forms of the Thing are the forms supplied. -/
theorem Reachable.hasForm (hr : Reachable X title h b) (hb : b.build env = .ok t)
    {ctx : FormContext} {f : Form X} :
    t.HasForm ctx f ↔ ∃ g, History.HasForm h ctx g ∧ f = g.result := by
  have hforms : (∃ fs, t.forms = some fs ∧ f ∈ fs) ↔ ∃ g, .form g ∈ h ∧ f = g.result := by
    obtain ⟨hv, rfl⟩ := (hr.ok_iff env t).1 hb
    simp only [← hr.thingForm]
    show (∃ fs, b.forms.map _ = some fs ∧ f ∈ fs) ↔ _
    simp only [Option.map_eq_some_iff, ThingBuilder.ThingForm]
    constructor
    · rintro ⟨_, ⟨fs, h1, rfl⟩, h2⟩
      obtain ⟨g, hg, rfl⟩ := List.mem_map.1 h2
      exact ⟨g, ⟨fs, h1, hg⟩, rfl⟩
    · rintro ⟨g, ⟨fs, h1, hg⟩, rfl⟩
      exact ⟨_, ⟨fs, h1, rfl⟩, List.mem_map_of_mem hg⟩
  constructor
  · intro hf
    cases hf with
    | thing h1 h2 =>
      obtain ⟨g, hg, rfl⟩ := hforms.1 ⟨_, h1, h2⟩
      exact ⟨g, .thing hg, rfl⟩
    | property h1 h2 h3 =>
      obtain ⟨q, hq, rfl⟩ := (hr.hasProperty hb).1 ⟨_, h1, h2⟩
      obtain ⟨g, hg, rfl⟩ := interaction_forms.1 h3
      exact ⟨g, .property hq hg, rfl⟩
    | action h1 h2 h3 =>
      obtain ⟨q, hq, rfl⟩ := (hr.hasAction hb).1 ⟨_, h1, h2⟩
      obtain ⟨g, hg, rfl⟩ := interaction_forms.1 h3
      exact ⟨g, .action hq hg, rfl⟩
    | event h1 h2 h3 =>
      obtain ⟨q, hq, rfl⟩ := (hr.hasEvent hb).1 ⟨_, h1, h2⟩
      obtain ⟨g, hg, rfl⟩ := interaction_forms.1 h3
      exact ⟨g, .event hq hg, rfl⟩
  · rintro ⟨g, hg, rfl⟩
    cases hg with
    | thing h1 =>
      obtain ⟨fs, h2, h3⟩ := hforms.2 ⟨g, h1, rfl⟩
      exact .thing h2 h3
    | property h1 h2 =>
      obtain ⟨m, h3, h4⟩ := (hr.hasProperty hb).2 ⟨_, h1, rfl⟩
      exact .property h3 h4 (interaction_forms.2 ⟨g, h2, rfl⟩)
    | action h1 h2 =>
      obtain ⟨m, h3, h4⟩ := (hr.hasAction hb).2 ⟨_, h1, rfl⟩
      exact .action h3 h4 (interaction_forms.2 ⟨g, h2, rfl⟩)
    | event h1 h2 =>
      obtain ⟨m, h3, h4⟩ := (hr.hasEvent hb).2 ⟨_, h1, rfl⟩
      exact .event h3 h4 (interaction_forms.2 ⟨g, h2, rfl⟩)

/-- The data schemas of the Thing are the data schemas supplied. -/
theorem Reachable.hasSchema (hr : Reachable X title h b) (hb : b.build env = .ok t)
    {p : Position} {s : DS X} :
    t.HasSchema p s ↔ ∃ u, History.HasSchema h p u ∧ s = u.mapLang (langResult env) := by
  have huri : ∀ n, (∃ m, t.uriVariables = some m ∧ (n, s) ∈ m) ↔
      ∃ u, lastOf (History.named n (History.uriVariables h)) = some u ∧
        s = u.mapLang (langResult env) := by
    intro n
    obtain ⟨hv, rfl⟩ := (hr.ok_iff env t).1 hb
    simp only [← hr.thingUriVariable]
    show (∃ m, b.uriVariables.map _ = some m ∧ (n, s) ∈ m) ↔ _
    simp only [Option.map_eq_some_iff]
    constructor
    · rintro ⟨_, ⟨m, h1, rfl⟩, h2⟩
      obtain ⟨v, hv, rfl⟩ := mem_mapVals.1 h2
      exact ⟨v, ⟨m, h1, hv⟩, rfl⟩
    · rintro ⟨v, ⟨m, h1, hv⟩, rfl⟩
      exact ⟨_, ⟨m, h1, rfl⟩, mem_mapVals.2 ⟨v, hv, rfl⟩⟩
  have hdef : ∀ n, (∃ m, t.schemaDefinitions = some m ∧ (n, s) ∈ m) ↔
      ∃ u, lastOf (History.named n (History.schemaDefinitions h)) = some u ∧
        s = u.mapLang (langResult env) := by
    intro n
    obtain ⟨hv, rfl⟩ := (hr.ok_iff env t).1 hb
    simp only [← mem_collect_iff, ← hr.schemaDefinitions]
    show (∃ m, (if b.schemaDefinitions = [] then none else _) = some m ∧ (n, s) ∈ m) ↔ _
    by_cases hu : b.schemaDefinitions = []
    · simp [hu]
    · rw [if_neg hu]
      simp only [Option.some.injEq, exists_eq_left', mem_mapVals]
  constructor
  · intro hs
    cases hs with
    | property h1 h2 =>
      obtain ⟨q, hq, rfl⟩ := (hr.hasProperty hb).1 ⟨_, h1, h2⟩
      exact ⟨_, .property hq, rfl⟩
    | input h1 h2 h3 =>
      obtain ⟨q, hq, rfl⟩ := (hr.hasAction hb).1 ⟨_, h1, h2⟩
      obtain ⟨u, hu, rfl⟩ := Option.map_eq_some_iff.1 h3
      exact ⟨u, .input hq hu, rfl⟩
    | output h1 h2 h3 =>
      obtain ⟨q, hq, rfl⟩ := (hr.hasAction hb).1 ⟨_, h1, h2⟩
      obtain ⟨u, hu, rfl⟩ := Option.map_eq_some_iff.1 h3
      exact ⟨u, .output hq hu, rfl⟩
    | subscription h1 h2 h3 =>
      obtain ⟨q, hq, rfl⟩ := (hr.hasEvent hb).1 ⟨_, h1, h2⟩
      obtain ⟨u, hu, rfl⟩ := Option.map_eq_some_iff.1 h3
      exact ⟨u, .subscription hq hu, rfl⟩
    | data h1 h2 h3 =>
      obtain ⟨q, hq, rfl⟩ := (hr.hasEvent hb).1 ⟨_, h1, h2⟩
      obtain ⟨u, hu, rfl⟩ := Option.map_eq_some_iff.1 h3
      exact ⟨u, .data hq hu, rfl⟩
    | cancellation h1 h2 h3 =>
      obtain ⟨q, hq, rfl⟩ := (hr.hasEvent hb).1 ⟨_, h1, h2⟩
      obtain ⟨u, hu, rfl⟩ := Option.map_eq_some_iff.1 h3
      exact ⟨u, .cancellation hq hu, rfl⟩
    | dataResponse h1 h2 h3 =>
      obtain ⟨q, hq, rfl⟩ := (hr.hasEvent hb).1 ⟨_, h1, h2⟩
      obtain ⟨u, hu, rfl⟩ := Option.map_eq_some_iff.1 h3
      exact ⟨u, .dataResponse hq hu, rfl⟩
    | uriVariable h1 h2 =>
      obtain ⟨u, hu, rfl⟩ := (huri _).1 ⟨_, h1, h2⟩
      exact ⟨u, .uriVariable hu, rfl⟩
    | propertyUriVariable h1 h2 h3 h4 =>
      obtain ⟨q, hq, rfl⟩ := (hr.hasProperty hb).1 ⟨_, h1, h2⟩
      obtain ⟨u, hu, rfl⟩ := interaction_uriVariables.1 ⟨_, h3, h4⟩
      exact ⟨u, .propertyUriVariable hq hu, rfl⟩
    | actionUriVariable h1 h2 h3 h4 =>
      obtain ⟨q, hq, rfl⟩ := (hr.hasAction hb).1 ⟨_, h1, h2⟩
      obtain ⟨u, hu, rfl⟩ := interaction_uriVariables.1 ⟨_, h3, h4⟩
      exact ⟨u, .actionUriVariable hq hu, rfl⟩
    | eventUriVariable h1 h2 h3 h4 =>
      obtain ⟨q, hq, rfl⟩ := (hr.hasEvent hb).1 ⟨_, h1, h2⟩
      obtain ⟨u, hu, rfl⟩ := interaction_uriVariables.1 ⟨_, h3, h4⟩
      exact ⟨u, .eventUriVariable hq hu, rfl⟩
    | schemaDefinition h1 h2 =>
      obtain ⟨u, hu, rfl⟩ := (hdef _).1 ⟨_, h1, h2⟩
      exact ⟨u, .schemaDefinition hu, rfl⟩
  · rintro ⟨u, hu, rfl⟩
    cases hu with
    | property h1 =>
      obtain ⟨m, h3, h4⟩ := (hr.hasProperty hb).2 ⟨_, h1, rfl⟩
      exact .property h3 h4
    | input h1 h2 =>
      obtain ⟨m, h3, h4⟩ := (hr.hasAction hb).2 ⟨_, h1, rfl⟩
      exact .input h3 h4 (Option.map_eq_some_iff.2 ⟨u, h2, rfl⟩)
    | output h1 h2 =>
      obtain ⟨m, h3, h4⟩ := (hr.hasAction hb).2 ⟨_, h1, rfl⟩
      exact .output h3 h4 (Option.map_eq_some_iff.2 ⟨u, h2, rfl⟩)
    | subscription h1 h2 =>
      obtain ⟨m, h3, h4⟩ := (hr.hasEvent hb).2 ⟨_, h1, rfl⟩
      exact .subscription h3 h4 (Option.map_eq_some_iff.2 ⟨u, h2, rfl⟩)
    | data h1 h2 =>
      obtain ⟨m, h3, h4⟩ := (hr.hasEvent hb).2 ⟨_, h1, rfl⟩
      exact .data h3 h4 (Option.map_eq_some_iff.2 ⟨u, h2, rfl⟩)
    | cancellation h1 h2 =>
      obtain ⟨m, h3, h4⟩ := (hr.hasEvent hb).2 ⟨_, h1, rfl⟩
      exact .cancellation h3 h4 (Option.map_eq_some_iff.2 ⟨u, h2, rfl⟩)
    | dataResponse h1 h2 =>
      obtain ⟨m, h3, h4⟩ := (hr.hasEvent hb).2 ⟨_, h1, rfl⟩
      exact .dataResponse h3 h4 (Option.map_eq_some_iff.2 ⟨u, h2, rfl⟩)
    | uriVariable h1 =>
      obtain ⟨m, h3, h4⟩ := (huri _).2 ⟨u, h1, rfl⟩
      exact .uriVariable h3 h4
    | propertyUriVariable h1 h2 =>
      obtain ⟨m, h3, h4⟩ := (hr.hasProperty hb).2 ⟨_, h1, rfl⟩
      obtain ⟨v, h5, h6⟩ := interaction_uriVariables.2 ⟨u, h2, rfl⟩
      exact .propertyUriVariable h3 h4 h5 h6
    | actionUriVariable h1 h2 =>
      obtain ⟨m, h3, h4⟩ := (hr.hasAction hb).2 ⟨_, h1, rfl⟩
      obtain ⟨v, h5, h6⟩ := interaction_uriVariables.2 ⟨u, h2, rfl⟩
      exact .actionUriVariable h3 h4 h5 h6
    | eventUriVariable h1 h2 =>
      obtain ⟨m, h3, h4⟩ := (hr.hasEvent hb).2 ⟨_, h1, rfl⟩
      obtain ⟨v, h5, h6⟩ := interaction_uriVariables.2 ⟨u, h2, rfl⟩
      exact .eventUriVariable h3 h4 h5 h6
    | schemaDefinition h1 =>
      obtain ⟨m, h3, h4⟩ := (hdef _).2 ⟨u, h1, rfl⟩
      exact .schemaDefinition h3 h4

theorem Reachable.defines (hr : Reachable X title h b) (hb : b.build env = .ok t) {n : String} :
    t.Defines n ↔ History.Defines h n := by
  obtain ⟨hv, rfl⟩ := (hr.ok_iff env t).1 hb
  rw [← hr.defined]
  unfold Thing.Defines
  rw [← HMap.contains_iff]
  exact contains_collect _ _ n

theorem Reachable.declares (hr : Reachable X title h b) (hb : b.build env = .ok t) {n : String} :
    t.Declares n ↔ History.Declares h n := by
  obtain ⟨hv, rfl⟩ := (hr.ok_iff env t).1 hb
  rw [← hr.declared]
  unfold Thing.Declares ThingBuilder.Declared
  show (∃ m, (if b.schemaDefinitions = [] then none else _) = some m ∧ _) ↔ _
  by_cases hu : b.schemaDefinitions = []
  · simp [hu, HMap.keys]
  · rw [if_neg hu]
    simp only [Option.some.injEq, exists_eq_left', HMap.keys_mapVals]

end

/-! ### Schemas and their built versions -/

section
variable {L L' D A O : Type}

theorem mapLang_subtype (f : L → L') (s : Schema L D A O) :
    (s.mapLang f).subtype = s.subtype.map (SubtypeF.map (Schema.mapLang f)) := by
  cases s; rw [mapLang_mk]; rfl

theorem mapLang_oneOf (f : L → L') (s : Schema L D A O) :
    (s.mapLang f).oneOf = s.oneOf.map (List.map (Schema.mapLang f)) := by
  cases s; rw [mapLang_mk]; rfl

theorem mapLang_titles (f : L → L') (s : Schema L D A O) :
    (s.mapLang f).head.titles = s.head.titles.map f := by
  cases s; rw [mapLang_mk]; rfl

theorem mapLang_descriptions (f : L → L') (s : Schema L D A O) :
    (s.mapLang f).head.descriptions = s.head.descriptions.map f := by
  cases s; rw [mapLang_mk]; rfl

theorem children_map {S S' : Type} (g : S → S') (st : SubtypeF A O S) :
    (st.map g).children = st.children.map g := by
  rcases st with ⟨_ | (_ | _), _, _, _⟩ | _ | _ | _ | ⟨_ | _, _, _⟩ | _ | _ <;>
    simp [SubtypeF.map, SubtypeF.children, ElemOrVec.toList, ElemOrVec.map, HMap.values, HMap.mapVals]

theorem within_mapLang {f : L → L'} {s : Schema L D A O} {x : Schema L' D A O} :
    Within x (s.mapLang f) ↔ ∃ y, Within y s ∧ x = y.mapLang f := by
  induction s using Schema.ind generalizing x with
  | h hd o st ih1 ih2 =>
    rw [within_iff, mapLang_oneOf, mapLang_subtype]
    simp only [Option.map_eq_some_iff]
    constructor
    · rintro (rfl | ⟨_, ⟨l, hl, rfl⟩, c, hc, hx⟩ | ⟨_, ⟨st', hst, rfl⟩, c, hc, hx⟩)
      · exact ⟨_, .self _, rfl⟩
      · obtain ⟨c', hc', rfl⟩ := List.mem_map.1 hc
        obtain ⟨y, hy, rfl⟩ := (ih1 l hl c' hc').1 hx
        exact ⟨y, within_iff.2 (.inr (.inl ⟨l, hl, c', hc', hy⟩)), rfl⟩
      · rw [children_map] at hc
        obtain ⟨c', hc', rfl⟩ := List.mem_map.1 hc
        obtain ⟨y, hy, rfl⟩ := (ih2 st' hst c' hc').1 hx
        exact ⟨y, within_iff.2 (.inr (.inr ⟨st', hst, c', hc', hy⟩)), rfl⟩
    · rintro ⟨y, hy, rfl⟩
      rcases within_iff.1 hy with rfl | ⟨l, hl, c, hc, hx⟩ | ⟨st', hst, c, hc, hx⟩
      · exact .inl rfl
      · exact .inr (.inl ⟨_, ⟨l, hl, rfl⟩, _, List.mem_map_of_mem hc, (ih1 l hl c hc).2 ⟨y, hx, rfl⟩⟩)
      · refine .inr (.inr ⟨_, ⟨st', hst, rfl⟩, c.mapLang f, ?_, (ih2 st' hst c hc).2 ⟨y, hx, rfl⟩⟩)
        rw [children_map]
        exact List.mem_map_of_mem hc

theorem schemaRule_mapLang {f : L → L'} {s : Schema L D A O} :
    SchemaRule (s.mapLang f) ↔ SchemaRule s := by
  unfold SchemaRule
  rw [mapLang_subtype]
  rcases s.subtype with _ | (_ | _ | _ | _ | _ | _ | _) <;> exact Iff.rfl

theorem allRules_mapLang {f : L → L'} {s : Schema L D A O} :
    AllRules (s.mapLang f) ↔ AllRules s := by
  unfold AllRules
  constructor
  · intro h x hx
    exact schemaRule_mapLang.1 (h _ (within_mapLang.2 ⟨x, hx, rfl⟩))
  · intro h x hx
    obtain ⟨y, hy, rfl⟩ := within_mapLang.1 hx
    exact schemaRule_mapLang.2 (h y hy)

theorem arrayOrObject_mapLang {f : L → L'} {s : Schema L D A O} :
    (s.mapLang f).ArrayOrObject ↔ s.ArrayOrObject := by
  unfold Schema.ArrayOrObject
  rw [mapLang_subtype]
  rcases s.subtype with _ | (_ | _ | _ | _ | _ | _ | _) <;> simp [SubtypeF.map]

end
end Wot
