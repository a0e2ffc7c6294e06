import Verif.Lemmas.Congr
import Verif.Spec.Members
/-
Reordering the calls of a history.
-/
namespace Wot

variable {X : ExtTypes} {title : String} {h h' : List (ThingOp X)} {b b' : ThingBuilder X} {env : Env}
  {t : Thing X}

theorem filterMap_filter_of {α β : Type} {f : α → Option β} {p : α → Bool}
    (hp : ∀ a, f a ≠ none → p a = true) (l : List α) : l.filterMap f = (l.filter p).filterMap f := by
  induction l with
  | nil => rfl
  | cons a l ih =>
    rw [List.filterMap_cons, List.filter_cons]
    by_cases hpa : p a = true
    · rw [if_pos hpa, List.filterMap_cons, ih]
    · have hf : f a = none := by
        cases hf : f a with
        | none => rfl
        | some c => exact absurd (hp a (by rw [hf]; exact nofun)) hpa
      rw [if_neg hpa, hf]
      exact ih

namespace SameNamedCalls

theorem symm (hs : SameNamedCalls h h') : SameNamedCalls h' h := fun m n => (hs m n).symm

theorem extract {β : Type} (hs : SameNamedCalls h h') (m : Member) (n : Option String)
    {f : ThingOp X → Option β} (hf : ∀ op, f op ≠ none → op.member = m ∧ op.entryName = n) :
    h.filterMap f = h'.filterMap f := by
  have hp : ∀ op, f op ≠ none → decide (op.member = m ∧ op.entryName = n) = true :=
    fun op ho => decide_eq_true (hf op ho)
  rw [filterMap_filter_of hp h, filterMap_filter_of hp h', hs m n]

theorem mem (hs : SameNamedCalls h h') {op : ThingOp X} (ho : op ∈ h) : op ∈ h' := by
  have : op ∈ h.filter (fun o => o.member = op.member ∧ o.entryName = op.entryName) :=
    List.mem_filter.2 ⟨ho, by simp⟩
  rw [hs] at this
  exact (List.mem_filter.1 this).1

theorem named_eq {A : Type} (hs : SameNamedCalls h h') (m : Member) {f : ThingOp X → Option (String × A)}
    (hf : ∀ op n a, f op = some (n, a) → op.member = m ∧ op.entryName = some n) (n : String) :
    History.named n (h.filterMap f) = History.named n (h'.filterMap f) := by
  unfold History.named
  rw [List.filterMap_filterMap, List.filterMap_filterMap]
  refine hs.extract m (some n) fun op ho => ?_
  cases hfo : f op with
  | none => rw [hfo] at ho; exact absurd rfl ho
  | some na =>
    obtain ⟨n', a⟩ := na
    rw [hfo] at ho
    simp only [Option.bind_some] at ho
    split at ho
    · next e => subst e; exact hf op _ a hfo
    · exact absurd rfl ho

theorem uriVariables (hs : SameNamedCalls h h') (n : String) :
    History.named n (History.uriVariables h) = History.named n (History.uriVariables h') :=
  hs.named_eq .uriVariables (by intro op n a h; split at h <;> cases h; exact ⟨rfl, rfl⟩) n
theorem properties (hs : SameNamedCalls h h') (n : String) :
    History.named n (History.properties h) = History.named n (History.properties h') :=
  hs.named_eq .properties (by intro op n a h; split at h <;> cases h; exact ⟨rfl, rfl⟩) n
theorem actions (hs : SameNamedCalls h h') (n : String) :
    History.named n (History.actions h) = History.named n (History.actions h') :=
  hs.named_eq .actions (by intro op n a h; split at h <;> cases h; exact ⟨rfl, rfl⟩) n
theorem events (hs : SameNamedCalls h h') (n : String) :
    History.named n (History.events h) = History.named n (History.events h') :=
  hs.named_eq .events (by intro op n a h; split at h <;> cases h; exact ⟨rfl, rfl⟩) n
theorem schemaDefinitions (hs : SameNamedCalls h h') (n : String) :
    History.named n (History.schemaDefinitions h) = History.named n (History.schemaDefinitions h') :=
  hs.named_eq .schemaDefinitions (by intro op n a h; split at h <;> cases h; exact ⟨rfl, rfl⟩) n

end SameNamedCalls

/-- An extraction of one member. -/
macro "extraction" m:term : tactic =>
  `(tactic| exact SameNamedCalls.extract ‹_› $m none (by
    intro op h; split at h <;> first | exact ⟨rfl, rfl⟩ | exact absurd rfl h))

namespace SameNamedCalls

theorem ids (hs : SameNamedCalls h h') : History.ids h = History.ids h' := by extraction .id
theorem descriptionTexts (hs : SameNamedCalls h h') :
    History.descriptionTexts h = History.descriptionTexts h' := by extraction .description
theorem versions (hs : SameNamedCalls h h') : History.versions h = History.versions h' := by
  extraction .version
theorem createds (hs : SameNamedCalls h h') : History.createds h = History.createds h' := by
  extraction .created
theorem modifieds (hs : SameNamedCalls h h') : History.modifieds h = History.modifieds h' := by
  extraction .modified
theorem supports (hs : SameNamedCalls h h') : History.supports h = History.supports h' := by
  extraction .support
theorem bases (hs : SameNamedCalls h h') : History.bases h = History.bases h' := by extraction .base
theorem contexts (hs : SameNamedCalls h h') : History.contexts h = History.contexts h' := by
  extraction .context
theorem attypes (hs : SameNamedCalls h h') : History.attypes h = History.attypes h' := by
  extraction .attype
theorem titles (hs : SameNamedCalls h h') : History.titles h = History.titles h' := by
  extraction .titles
theorem descriptions (hs : SameNamedCalls h h') : History.descriptions h = History.descriptions h' := by
  extraction .descriptions
theorem links (hs : SameNamedCalls h h') : History.links h = History.links h' := by extraction .links
theorem securities (hs : SameNamedCalls h h') : History.securities h = History.securities h' := by
  extraction .security
theorem profiles (hs : SameNamedCalls h h') : History.profiles h = History.profiles h' := by
  extraction .profile
theorem forms (hs : SameNamedCalls h h') : History.forms h = History.forms h' := by extraction .forms

theorem hasForm (hs : SameNamedCalls h h') {ctx : FormContext} {f : FormBuilder X}
    (hf : History.HasForm h ctx f) : History.HasForm h' ctx f := by
  cases hf with
  | thing h1 => exact .thing (hs.mem h1)
  | property h1 h2 => exact .property (hs.mem h1) h2
  | action h1 h2 => exact .action (hs.mem h1) h2
  | event h1 h2 => exact .event (hs.mem h1) h2

theorem hasInfo (hs : SameNamedCalls h h') {i : HumanReadableInfo}
    (hi : History.HasInfo h i) : History.HasInfo h' i := by
  cases hi with
  | property h1 => exact .property (hs.mem h1)
  | action h1 => exact .action (hs.mem h1)
  | event h1 => exact .event (hs.mem h1)

theorem hasSchema (hs : SameNamedCalls h h') {p : Position} {s : UDS X}
    (hp : History.HasSchema h p s) : History.HasSchema h' p s := by
  cases hp with
  | property h1 => exact .property (hs.mem h1)
  | input h1 h2 => exact .input (hs.mem h1) h2
  | output h1 h2 => exact .output (hs.mem h1) h2
  | subscription h1 h2 => exact .subscription (hs.mem h1) h2
  | data h1 h2 => exact .data (hs.mem h1) h2
  | cancellation h1 h2 => exact .cancellation (hs.mem h1) h2
  | dataResponse h1 h2 => exact .dataResponse (hs.mem h1) h2
  | uriVariable h1 => exact .uriVariable (hs.uriVariables _ ▸ h1)
  | propertyUriVariable h1 h2 => exact .propertyUriVariable (hs.mem h1) h2
  | actionUriVariable h1 h2 => exact .actionUriVariable (hs.mem h1) h2
  | eventUriVariable h1 h2 => exact .eventUriVariable (hs.mem h1) h2
  | schemaDefinition h1 => exact .schemaDefinition (hs.schemaDefinitions _ ▸ h1)

theorem langKey (hs : SameNamedCalls h h') {k : String} (hk : History.LangKey h k) :
    History.LangKey h' k := by
  cases hk with
  | titles h1 h2 => exact .titles (hs.titles ▸ h1) h2
  | descriptions h1 h2 => exact .descriptions (hs.descriptions ▸ h1) h2
  | security h1 h2 => exact .security (hs.securities ▸ h1) h2
  | infoTitles h1 h2 => exact .infoTitles (hs.hasInfo h1) h2
  | infoDescriptions h1 h2 => exact .infoDescriptions (hs.hasInfo h1) h2
  | schema h1 h2 => exact .schema (hs.hasSchema h1) h2
  | hreflang h1 h2 => exact .hreflang (hs.links ▸ h1) h2

theorem defines (hs : SameNamedCalls h h') {n : String} (hd : History.Defines h n) :
    History.Defines h' n := by
  unfold History.Defines at hd ⊢
  rw [← hs.securities]; exact hd

theorem declares (hs : SameNamedCalls h h') {n : String} (hd : History.Declares h n) :
    History.Declares h' n := hd.imp fun _ => hs.mem

end SameNamedCalls

theorem count_names {A : Type} (n : String) (l : List (String × A)) :
    (l.map (·.1)).count n = (History.named n l).length := by
  induction l with
  | nil => rfl
  | cons a l ih =>
    unfold History.named at ih ⊢
    rw [List.map_cons, List.count_cons, List.filterMap_cons, ih]
    by_cases he : a.1 = n
    · simp [he]
    · simp [he]

theorem nodup_names {A : Type} {l l' : List (String × A)}
    (hn : ∀ n, History.named n l = History.named n l') (h : (l.map (·.1)).Nodup) :
    (l'.map (·.1)).Nodup := by
  rw [List.nodup_iff_count] at h ⊢
  intro n
  rw [count_names, ← hn, ← count_names]
  exact h n

theorem eq_nil_of_named {A : Type} {l l' : List (String × A)}
    (hn : ∀ n, History.named n l = History.named n l') : l = [] ↔ l' = [] := by
  have key : ∀ {l l' : List (String × A)}, (∀ n, History.named n l = History.named n l') →
      l = [] → l' = [] := by
    intro l l' hn hl
    subst hl
    cases l' with
    | nil => rfl
    | cons a l' =>
      have := hn a.1
      simp [History.named] at this
  exact ⟨key hn, key fun n => (hn n).symm⟩

theorem collect_eq_nil {A : Type} {l : List (String × A)} : HMap.collect l = [] ↔ l = [] := by
  constructor
  · intro h
    cases l with
    | nil => rfl
    | cons a l =>
      have : a.1 ∈ HMap.keys (HMap.collect (a :: l)) := (HMap.mem_keys_collect _ _).2 (by simp)
      rw [h] at this
      simp [HMap.keys] at this
  · rintro rfl; rfl

theorem collect_named {A : Type} {l l' : List (String × A)}
    (hn : ∀ n, History.named n l = History.named n l') : HMap.collect l = HMap.collect l' := by
  apply HMap.Sorted.ext (HMap.collect_sorted _) (HMap.collect_sorted _)
  intro k
  rw [get?_collect, get?_collect, hn]

theorem named_map {A B : Type} (f : A → B) (n : String) (l : List (String × A)) :
    History.named n (l.map fun kv => (kv.1, f kv.2)) = (History.named n l).map f := by
  induction l with
  | nil => rfl
  | cons a l ih =>
    unfold History.named at ih ⊢
    rw [List.map_cons, List.filterMap_cons, List.filterMap_cons, ih]
    by_cases he : a.1 = n
    · simp [he]
    · simp [he]

theorem mapResult_named {A B : Type} (f : A → B) {l l' : List (String × A)}
    (hn : ∀ n, History.named n l = History.named n l') : mapResult f l = mapResult f l' := by
  unfold mapResult
  have : HMap.collect (l.map fun kv => (kv.1, f kv.2)) = HMap.collect (l'.map fun kv => (kv.1, f kv.2)) :=
    collect_named fun n => by rw [named_map, named_map, hn]
  simp only [eq_nil_of_named hn, this]

namespace SameNamedCalls

theorem valid (hs : SameNamedCalls h h') (hv : History.Valid env h) : History.Valid env h' where
  securityNames := hs.securities ▸ hv.securityNames
  comboReferences := fun s h1 n h2 => hs.defines (hv.comboReferences s (hs.securities ▸ h1) n h2)
  formSecurity := fun ctx f n h1 h2 => hs.defines (hv.formSecurity ctx f n (hs.symm.hasForm h1) h2)
  thingForms := fun f h1 => hv.thingForms f (hs.symm.mem h1)
  operations := fun ctx f o h1 => hv.operations ctx f o (hs.symm.hasForm h1)
  responseSchemas := fun f n h1 h2 => hs.declares (hv.responseSchemas f n (hs.symm.mem h1) h2)
  schemas := fun p s h1 h2 => hv.schemas p s h1 (hs.symm.hasSchema h2)
  uriVariables := fun s h1 => hv.uriVariables s (hs.symm.hasSchema h1)
  propertyNames := nodup_names hs.properties hv.propertyNames
  actionNames := nodup_names hs.actions hv.actionNames
  eventNames := nodup_names hs.events hv.eventNames
  languages := fun k hk => hv.languages k (hs.symm.langKey hk)
  linkSizes := fun l h1 => hv.linkSizes l (hs.links ▸ h1)

theorem result (hs : SameNamedCalls h h') (o : X.thing) :
    (History.supplied title h o).result env = (History.supplied title h' o).result env := by
  have e1 : mapResult (PropertyBuilder.result env) (History.properties h) =
    mapResult (PropertyBuilder.result env) (History.properties h') := mapResult_named _ hs.properties
  have e2 : mapResult (ActionBuilder.result env) (History.actions h) =
    mapResult (ActionBuilder.result env) (History.actions h') := mapResult_named _ hs.actions
  have e3 : mapResult (EventBuilder.result env) (History.events h) =
    mapResult (EventBuilder.result env) (History.events h') := mapResult_named _ hs.events
  have e4 : (someList (History.uriVariables h)).map HMap.collect =
      (someList (History.uriVariables h')).map HMap.collect := by
    unfold someList
    have := eq_nil_of_named hs.uriVariables
    split
    · next e => rw [if_pos (this.1 e)]
    · next e =>
      rw [if_neg (fun e' => e (this.2 e'))]
      simp only [Option.map_some]
      rw [collect_named hs.uriVariables]
  have e5 := collect_named hs.schemaDefinitions
  unfold ThingBuilder.result History.supplied
  dsimp only
  rw [e4, e5]
  simp only [hs.ids, hs.descriptionTexts, hs.versions,
    hs.createds, hs.modifieds, hs.supports, hs.bases, hs.contexts, hs.attypes, hs.titles,
    hs.descriptions, hs.links, hs.securities, hs.profiles, hs.forms, e1, e2, e3]

end SameNamedCalls

theorem SameCalls.named (hs : SameCalls h h') : SameNamedCalls h h' := by
  intro m n
  have := congrArg (List.filter fun op => op.entryName = n) (hs m)
  rw [List.filter_filter, List.filter_filter] at this
  simpa only [Bool.decide_and, Bool.and_comm] using this

theorem SameCalls.extract {β : Type} (hs : SameCalls h h') (m : Member) {f : ThingOp X → Option β}
    (hf : ∀ op, f op ≠ none → op.member = m) : h.filterMap f = h'.filterMap f := by
  have hp : ∀ op, f op ≠ none → decide (op.member = m) = true := fun op ho => decide_eq_true (hf op ho)
  rw [filterMap_filter_of hp h, filterMap_filter_of hp h', hs m]

theorem SameCalls.supplied (hs : SameCalls h h') (o : X.thing) :
    History.supplied title h o = History.supplied title h' o := by
  have hn := hs.named
  have e1 : History.properties h = History.properties h' := hs.extract .properties (by
    intro op h; split at h <;> first | rfl | exact absurd rfl h)
  have e2 : History.actions h = History.actions h' := hs.extract .actions (by
    intro op h; split at h <;> first | rfl | exact absurd rfl h)
  have e3 : History.events h = History.events h' := hs.extract .events (by
    intro op h; split at h <;> first | rfl | exact absurd rfl h)
  have e4 : History.uriVariables h = History.uriVariables h' := hs.extract .uriVariables (by
    intro op h; split at h <;> first | rfl | exact absurd rfl h)
  have e5 : History.schemaDefinitions h = History.schemaDefinitions h' :=
    hs.extract .schemaDefinitions (by intro op h; split at h <;> first | rfl | exact absurd rfl h)
  simp only [History.supplied, hn.ids, hn.descriptionTexts, hn.versions,
    hn.createds, hn.modifieds, hn.supports, hn.bases, hn.contexts, hn.attypes, hn.titles,
    hn.descriptions, hn.links, hn.securities, hn.profiles, hn.forms, e1, e2, e3, e4, e5]

/-- The extension values assigned by a history. -/
def History.extensions (h : List (ThingOp X)) : List X.thing :=
  h.filterMap fun | .setOther o => some o | _ => none

theorem applyCommon_other (b : ThingBuilder X) (op : CommonOp) : (b.applyCommon op).other = b.other := by
  cases op <;> first | rfl | (unfold ThingBuilder.applyCommon; dsimp only; split <;> rfl)

theorem run_other (b : ThingBuilder X) (h : List (ThingOp X)) :
    (b.run h).other = (lastOf (History.extensions h)).getD b.other := by
  unfold ThingBuilder.run History.extensions
  induction h generalizing b with
  | nil => rfl
  | cons op h ih =>
    rw [List.foldl_cons, ih, List.filterMap_cons]
    cases op with
    | setOther o =>
      simp only [lastOf_cons, ThingBuilder.apply]
      cases lastOf (h.filterMap fun | .setOther o => some o | _ => none) <;> rfl
    | common op => simp only [ThingBuilder.apply, applyCommon_other]
    | _ => rfl

theorem SameNamedCalls.other (hs : SameNamedCalls h h') (b : ThingBuilder X) :
    (b.run h).other = (b.run h').other := by
  rw [run_other, run_other]
  have : History.extensions h = History.extensions h' := by extraction .extension
  rw [this]

theorem sameCalls_append {p q p' q' : List (ThingOp X)} (h1 : SameCalls p p') (h2 : SameCalls q q') :
    SameCalls (p ++ q) (p' ++ q') := fun m => by rw [List.filter_append, List.filter_append, h1, h2]

theorem sameCalls_swap {a c : ThingOp X} (hne : a.member ≠ c.member) : SameCalls [a, c] [c, a] := by
  intro m
  by_cases ha : a.member = m
  · have hc : ¬ c.member = m := fun hc => hne (ha.trans hc.symm)
    simp [ha, hc]
  · by_cases hc : c.member = m <;> simp [ha, hc]

theorem sameNamed_append {p q p' q' : List (ThingOp X)} (h1 : SameNamedCalls p p')
    (h2 : SameNamedCalls q q') : SameNamedCalls (p ++ q) (p' ++ q') :=
  fun m n => by rw [List.filter_append, List.filter_append, h1, h2]

theorem sameNamed_swap {a c : ThingOp X} (hne : a.member ≠ c.member ∨ a.entryName ≠ c.entryName) :
    SameNamedCalls [a, c] [c, a] := by
  intro m n
  by_cases ha : a.member = m ∧ a.entryName = n
  · have hc : ¬ (c.member = m ∧ c.entryName = n) := fun hc =>
      hne.elim (fun h => h (ha.1.trans hc.1.symm)) (fun h => h (ha.2.trans hc.2.symm))
    simp [ha, hc]
  · by_cases hc : c.member = m ∧ c.entryName = n <;> simp [ha, hc]

/-- Before the end of the extension phase nothing has been supplied whose type depends on the
extension. -/
theorem ExtPhase.noExtDependent {c : List CommonOp} (he : ExtPhase X title c b) :
    b.properties = [] ∧ b.actions = [] ∧ b.events = [] ∧ b.forms = none ∧ b.uriVariables = none ∧
      b.schemaDefinitions = [] := by
  induction he with
  | new title other => exact ⟨rfl, rfl, rfl, rfl, rfl, rfl⟩
  | call op _ ih =>
    cases op with
    | context v => unfold ThingBuilder.applyCommon; dsimp only; split <;> exact ih
    | _ => exact ih
  | setOther o _ ih => exact ih
  | ext f _ ih => exact ⟨rfl, rfl, rfl, rfl, rfl, rfl⟩

end Wot
