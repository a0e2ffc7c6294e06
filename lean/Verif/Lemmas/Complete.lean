import Verif.Lemmas.Together
import Verif.Lemmas.Valid
import Verif.Spec.Complete
/-
Completing a sequence of calls.
-/
namespace Wot

variable {X : ExtTypes} {title : String} {h h' : List (ThingOp X)} {env : Env}

/-! ### What lasts -/

theorem mem_lasting {op : ThingOp X} : op ∈ History.lasting h ↔ op ∈ h ∧ op.replaceable = false := by
  unfold History.lasting
  rw [List.mem_filter]
  simp

theorem filterMap_lasting {β : Type} {f : ThingOp X → Option β} (hf : ∀ op, op.replaceable = true → f op = none) :
    (History.lasting h).filterMap f = h.filterMap f := by
  refine (filterMap_filter_of (fun op ho => ?_) h).symm
  cases hr : op.replaceable with
  | false => rfl
  | true => exact absurd (hf op hr) ho

theorem filterMap_lasting_nil {β : Type} {f : ThingOp X → Option β} (hf : ∀ op, op.replaceable = false → f op = none) :
    (History.lasting h).filterMap f = [] := by
  rw [List.filterMap_eq_nil_iff]
  exact fun op ho => hf op (mem_lasting.1 ho).2

/-- A call of another kind. -/
macro "replaced" : tactic => `(tactic| (intro op ho; split <;> first | rfl | cases ho))

theorem lasting_securities : History.securities (History.lasting h) = History.securities h := filterMap_lasting (by replaced)
theorem lasting_links : History.links (History.lasting h) = History.links h := filterMap_lasting (by replaced)
theorem lasting_titles : History.titles (History.lasting h) = [] := filterMap_lasting_nil (by replaced)
theorem lasting_descriptions : History.descriptions (History.lasting h) = [] := filterMap_lasting_nil (by replaced)
theorem lasting_uriVariables : History.uriVariables (History.lasting h) = [] := filterMap_lasting_nil (by replaced)
theorem lasting_schemaDefinitions : History.schemaDefinitions (History.lasting h) = [] := filterMap_lasting_nil (by replaced)

theorem hasSchema_lasting {p : Position} {s : UDS X} (hs : History.HasSchema (History.lasting h) p s) :
    History.HasSchema (h ++ h') p s := by
  have hm : ∀ {op : ThingOp X}, op ∈ History.lasting h → op ∈ h ++ h' :=
    fun ho => List.mem_append_left _ (mem_lasting.1 ho).1
  cases hs with
  | property h1 => exact .property (hm h1)
  | input h1 h2 => exact .input (hm h1) h2
  | output h1 h2 => exact .output (hm h1) h2
  | subscription h1 h2 => exact .subscription (hm h1) h2
  | data h1 h2 => exact .data (hm h1) h2
  | cancellation h1 h2 => exact .cancellation (hm h1) h2
  | dataResponse h1 h2 => exact .dataResponse (hm h1) h2
  | uriVariable h1 => rw [lasting_uriVariables] at h1; cases h1
  | propertyUriVariable h1 h2 => exact .propertyUriVariable (hm h1) h2
  | actionUriVariable h1 h2 => exact .actionUriVariable (hm h1) h2
  | eventUriVariable h1 h2 => exact .eventUriVariable (hm h1) h2
  | schemaDefinition h1 => rw [lasting_schemaDefinitions] at h1; cases h1

theorem hasInfo_lasting {i : HumanReadableInfo} (hi : History.HasInfo (History.lasting h) i) :
    History.HasInfo (h ++ h') i := by
  have hm : ∀ {op : ThingOp X}, op ∈ History.lasting h → op ∈ h ++ h' :=
    fun ho => List.mem_append_left _ (mem_lasting.1 ho).1
  cases hi with
  | property h1 => exact .property (hm h1)
  | action h1 => exact .action (hm h1)
  | event h1 => exact .event (hm h1)

theorem langKey_lasting {k : String} (hk : History.LangKey (History.lasting h) k) : History.LangKey (h ++ h') k := by
  cases hk with
  | titles h1 h2 => rw [lasting_titles] at h1; cases h1
  | descriptions h1 h2 => rw [lasting_descriptions] at h1; cases h1
  | security h1 h2 =>
    rw [lasting_securities] at h1
    exact .security (securities_append ▸ List.mem_append_left _ h1) h2
  | infoTitles h1 h2 => exact .infoTitles (hasInfo_lasting h1) h2
  | infoDescriptions h1 h2 => exact .infoDescriptions (hasInfo_lasting h1) h2
  | schema h1 h2 => exact .schema (hasSchema_lasting h1) h2
  | hreflang h1 h2 =>
    rw [lasting_links] at h1
    refine .hreflang ?_ h2
    unfold History.links at h1 ⊢
    rw [List.filterMap_append]
    exact List.mem_append_left _ h1

theorem hasForm_left {ctx : FormContext} {f : FormBuilder X} (hf : History.HasForm h ctx f) :
    History.HasForm (h ++ h') ctx f := by
  cases hf with
  | thing h1 => exact .thing (List.mem_append_left _ h1)
  | property h1 h2 => exact .property (List.mem_append_left _ h1) h2
  | action h1 h2 => exact .action (List.mem_append_left _ h1) h2
  | event h1 h2 => exact .event (List.mem_append_left _ h1) h2

theorem nodup_left {β : Type} {f : ThingOp X → Option β} {g : β → String}
    (hn : (((h ++ h').filterMap f).map g).Nodup) : ((h.filterMap f).map g).Nodup :=
  ((List.sublist_append_left h h').filterMap f |>.map g).nodup hn

/-- What is part of something valid has nothing wrong with it for good. -/
theorem completable_of_valid (hv : History.Valid env (h ++ h')) : History.Completable env h where
  securityNames := nodup_left hv.securityNames
  propertyNames := nodup_left hv.propertyNames
  actionNames := nodup_left hv.actionNames
  eventNames := nodup_left hv.eventNames
  thingForms f hf := hv.thingForms f (List.mem_append_left _ hf)
  operations ctx f o hf := hv.operations ctx f o (hasForm_left hf)
  schemas p s hp hs := hv.schemas p s hp (hasSchema_lasting hs)
  uriVariables s hs := hv.uriVariables s (hasSchema_lasting hs)
  languages k hk := hv.languages k (langKey_lasting hk)
  linkSizes l hl := hv.linkSizes l (by
    unfold History.links at hl ⊢
    rw [List.filterMap_append]
    exact List.mem_append_left _ hl)

/-! ### The completion -/

theorem exists_nodup (l : List String) (p : String → Prop) : ∃ l' : List String, l'.Nodup ∧ ∀ n, n ∈ l' ↔ n ∈ l ∧ p n := by
  induction l with
  | nil => exact ⟨[], .nil, fun n => by simp⟩
  | cons a l ih =>
    obtain ⟨l', hn, hm⟩ := ih
    by_cases ha : p a ∧ a ∉ l'
    · exact ⟨a :: l', List.nodup_cons.2 ⟨ha.2, hn⟩, fun n => by
        rw [List.mem_cons, List.mem_cons, hm, or_and_right]
        exact or_congr ⟨fun e => ⟨e, e ▸ ha.1⟩, fun e => e.1⟩ .rfl⟩
    · refine ⟨l', hn, fun n => ?_⟩
      rw [List.mem_cons, hm, or_and_right]
      refine ⟨.inr, ?_⟩
      rintro (⟨rfl, hp⟩ | h)
      · exact (hm _).1 (Classical.byContradiction fun hc => ha ⟨hp, hc⟩)
      · exact h

/-- The names of the schemes a call refers to. -/
def ThingOp.schemeNames : ThingOp X → List String
  | .form f => f.security.getD []
  | .property _ p => p.interaction.forms.flatMap fun f => f.security.getD []
  | .action _ a => a.interaction.part.forms.flatMap fun f => f.security.getD []
  | .event _ e => e.interaction.part.forms.flatMap fun f => f.security.getD []
  | .common (.security s) => s.subtype.comboNames
  | _ => []

/-- The names of the schemas a call refers to. -/
def ThingOp.schemaNames : ThingOp X → List String
  | .form f => f.additionalResponses.filterMap (·.schema)
  | _ => []

theorem uses_mem {f : FormBuilder X} {n : String} (hu : f.UsesSecurity n) : n ∈ f.security.getD [] := by
  obtain ⟨l, hl, hn⟩ := hu
  rw [hl]; exact hn

theorem schemeNames_of_form {ctx : FormContext} {f : FormBuilder X} {n : String} (hf : History.HasForm h ctx f)
    (hu : f.UsesSecurity n) : n ∈ h.flatMap ThingOp.schemeNames := by
  have hu := uses_mem hu
  cases hf with
  | thing h1 => exact List.mem_flatMap.2 ⟨_, h1, hu⟩
  | property h1 h2 => exact List.mem_flatMap.2 ⟨_, h1, List.mem_flatMap.2 ⟨_, h2, hu⟩⟩
  | action h1 h2 => exact List.mem_flatMap.2 ⟨_, h1, List.mem_flatMap.2 ⟨_, h2, hu⟩⟩
  | event h1 h2 => exact List.mem_flatMap.2 ⟨_, h1, List.mem_flatMap.2 ⟨_, h2, hu⟩⟩

/-- Calls that define what is missing and replace what can be replaced. -/
def completion (d : X.dataSchema) (schemes schemas variables : List String) : List (ThingOp X) :=
  [.common (.titles []), .common (.descriptions [])] ++
  (schemes.map fun n => .common (.security { name := some n, subtype := .known .noSec })) ++
  (schemas.map fun n => .schemaDefinition n (.default d)) ++ variables.map fun n => .uriVariable n (.default d)

section
variable {d : X.dataSchema} {schemes schemas variables : List String}

theorem completion_built : ∀ op ∈ completion d schemes schemas variables, op.Built := by
  intro op ho
  simp only [completion, List.mem_append, List.mem_cons, List.not_mem_nil, or_false, List.mem_map] at ho
  rcases ho with (((rfl | rfl) | ⟨n, -, rfl⟩) | ⟨n, -, rfl⟩) | ⟨n, -, rfl⟩
  · trivial
  · trivial
  · exact ⟨[.noSec, .withKey n], rfl⟩
  · exact .default d
  · exact .default d

theorem filterMap_map_none {α β γ : Type} {f : β → Option γ} {g : α → β} (hf : ∀ a, f (g a) = none) (l : List α) :
    (l.map g).filterMap f = [] := by
  rw [List.filterMap_eq_nil_iff]
  simp [hf]

theorem filterMap_map_some {α β γ : Type} {f : β → Option γ} {g : α → β} {k : α → γ} (hf : ∀ a, f (g a) = some (k a))
    (l : List α) : (l.map g).filterMap f = l.map k := by
  rw [List.filterMap_map]
  induction l with
  | nil => rfl
  | cons a l ih => rw [List.filterMap_cons, Function.comp_apply, hf, ih]; rfl

theorem completion_securities : History.securities (completion d schemes schemas variables) =
    schemes.map fun n => { name := some n, subtype := .known .noSec } := by
  unfold completion History.securities
  rw [List.filterMap_append, List.filterMap_append, List.filterMap_append, filterMap_map_none (fun _ => rfl) schemas,
    filterMap_map_none (fun _ => rfl) variables, filterMap_map_some (k := fun n => { name := some n, subtype := .known .noSec })]
  · simp
  · exact fun _ => rfl

theorem completion_schemaDefinitions : History.schemaDefinitions (completion d schemes schemas variables) =
    schemas.map fun n => (n, .default d) := by
  unfold completion History.schemaDefinitions
  rw [List.filterMap_append, List.filterMap_append, List.filterMap_append, filterMap_map_none (fun _ => rfl) schemes,
    filterMap_map_none (fun _ => rfl) variables, filterMap_map_some (k := fun n => (n, .default d))]
  · simp
  · exact fun _ => rfl

theorem completion_uriVariables : History.uriVariables (completion d schemes schemas variables) =
    variables.map fun n => (n, .default d) := by
  unfold completion History.uriVariables
  rw [List.filterMap_append, List.filterMap_append, List.filterMap_append, filterMap_map_none (fun _ => rfl) schemes,
    filterMap_map_none (fun _ => rfl) schemas, filterMap_map_some (k := fun n => (n, .default d))]
  · simp
  · exact fun _ => rfl

theorem completion_titles : History.titles (completion d schemes schemas variables) = [[]] := by
  unfold completion History.titles
  rw [List.filterMap_append, List.filterMap_append, List.filterMap_append, filterMap_map_none (fun _ => rfl) variables,
    filterMap_map_none (fun _ => rfl) schemas, filterMap_map_none (fun _ => rfl) schemes]
  rfl

theorem completion_descriptions : History.descriptions (completion d schemes schemas variables) = [[]] := by
  unfold completion History.descriptions
  rw [List.filterMap_append, List.filterMap_append, List.filterMap_append, filterMap_map_none (fun _ => rfl) variables,
    filterMap_map_none (fun _ => rfl) schemas, filterMap_map_none (fun _ => rfl) schemes]
  rfl

/-- Nothing else is added. -/
theorem completion_other {β : Type} {f : ThingOp X → Option β} (h1 : ∀ s, f (.common (.security s)) = none)
    (h2 : ∀ n s, f (.schemaDefinition n s) = none) (h3 : ∀ n s, f (.uriVariable n s) = none)
    (h4 : ∀ c, f (.common (.titles c)) = none) (h5 : ∀ c, f (.common (.descriptions c)) = none) :
    (completion d schemes schemas variables).filterMap f = [] := by
  unfold completion
  rw [List.filterMap_append, List.filterMap_append, List.filterMap_append, filterMap_map_none (fun _ => h3 _ _) variables,
    filterMap_map_none (fun _ => h2 _ _) schemas, filterMap_map_none (fun _ => h1 _) schemes, List.filterMap_cons, h4,
    List.filterMap_cons, h5]
  rfl

theorem completion_mem {op : ThingOp X} (ho : op ∈ h ++ completion d schemes schemas variables) :
    (op ∈ History.lasting h) ∨ op.replaceable = true ∨ ∃ s, op = .common (.security s) := by
  rcases List.mem_append.1 ho with ho | ho
  · cases hr : op.replaceable with
    | false => exact .inl (mem_lasting.2 ⟨ho, hr⟩)
    | true => exact .inr (.inl rfl)
  · simp only [completion, List.mem_append, List.mem_cons, List.not_mem_nil, or_false, List.mem_map] at ho
    rcases ho with (((rfl | rfl) | ⟨n, -, rfl⟩) | ⟨n, -, rfl⟩) | ⟨n, -, rfl⟩
    · exact .inr (.inl rfl)
    · exact .inr (.inl rfl)
    · exact .inr (.inr ⟨_, rfl⟩)
    · exact .inr (.inl rfl)
    · exact .inr (.inl rfl)

/-- A call for a form or an affordance. -/
def ThingOp.core : ThingOp X → Bool
  | .form _ | .property .. | .action .. | .event .. => true
  | _ => false

theorem completion_keeps {op : ThingOp X} (ho : op ∈ h ++ completion d schemes schemas variables)
    (h1 : op.core = true) : op ∈ History.lasting h := by
  rcases completion_mem ho with h | h | ⟨s, rfl⟩
  · exact h
  · unfold ThingOp.core at h1
    split at h1
    all_goals first | cases h | cases h1
  · cases h1

theorem named_constant {A : Type} {names : List String} {a b : A} {n : String}
    (hl : lastOf (History.named n (names.map fun n => (n, a))) = some b) : b = a := by
  have hm := lastOf_mem hl
  simp only [History.named, List.mem_filterMap, List.mem_map] at hm
  obtain ⟨kv, ⟨n, -, rfl⟩, he⟩ := hm
  split at he
  · cases he; rfl
  · cases he

theorem lastOf_replaced {A : Type} {l : List (String × A)} {names : List String} {a b : A}
    (hn : ∀ kv ∈ l, kv.1 ∈ names) {n : String}
    (hl : lastOf (History.named n (l ++ names.map fun n => (n, a))) = some b) : b = a := by
  rw [named_append, lastOf_append_list] at hl
  cases hc : lastOf (History.named n (names.map fun n => (n, a))) with
  | some c =>
    rw [hc] at hl
    cases hl
    exact named_constant hc
  | none =>
    rw [hc] at hl
    have hm := lastOf_mem (show lastOf (History.named n l) = some b from hl)
    simp only [History.named, List.mem_filterMap] at hm
    obtain ⟨⟨k, v⟩, hkv, he⟩ := hm
    split at he
    · next e =>
      have e : k = n := e
      subst e
      rw [lastOf_eq_none] at hc
      have : a ∈ History.named k (names.map fun n => (n, a)) := by
        simp only [History.named, List.mem_filterMap, List.mem_map]
        exact ⟨(k, a), ⟨k, hn _ hkv, rfl⟩, by simp⟩
      rw [hc] at this; cases this
    · cases he

/-- Every schema is one that stays, or a default one that is a URI variable or a schema definition. -/
theorem completion_hasSchema (hv : ∀ kv ∈ History.uriVariables h, kv.1 ∈ variables)
    (hs : ∀ kv ∈ History.schemaDefinitions h, kv.1 ∈ schemas) {p : Position} {s : UDS X}
    (hp : History.HasSchema (h ++ completion d schemes schemas variables) p s) :
    History.HasSchema (History.lasting h) p s ∨ (¬ p.Checked ∧ s = .default d) := by
  cases hp with
  | property h1 => exact .inl (.property (completion_keeps h1 rfl))
  | input h1 h2 => exact .inl (.input (completion_keeps h1 rfl) h2)
  | output h1 h2 => exact .inl (.output (completion_keeps h1 rfl) h2)
  | subscription h1 h2 => exact .inl (.subscription (completion_keeps h1 rfl) h2)
  | data h1 h2 => exact .inl (.data (completion_keeps h1 rfl) h2)
  | cancellation h1 h2 => exact .inl (.cancellation (completion_keeps h1 rfl) h2)
  | dataResponse h1 h2 => exact .inl (.dataResponse (completion_keeps h1 rfl) h2)
  | propertyUriVariable h1 h2 => exact .inl (.propertyUriVariable (completion_keeps h1 rfl) h2)
  | actionUriVariable h1 h2 => exact .inl (.actionUriVariable (completion_keeps h1 rfl) h2)
  | eventUriVariable h1 h2 => exact .inl (.eventUriVariable (completion_keeps h1 rfl) h2)
  | uriVariable h1 =>
    refine .inr ⟨id, ?_⟩
    have e : History.uriVariables (h ++ completion d schemes schemas variables) = _ := List.filterMap_append ..
    rw [e] at h1
    change lastOf (History.named _ (_ ++ History.uriVariables _)) = _ at h1
    rw [completion_uriVariables] at h1
    exact lastOf_replaced hv h1
  | schemaDefinition h1 =>
    refine .inr ⟨id, ?_⟩
    have e : History.schemaDefinitions (h ++ completion d schemes schemas variables) = _ := List.filterMap_append ..
    rw [e] at h1
    change lastOf (History.named _ (_ ++ History.schemaDefinitions _)) = _ at h1
    rw [completion_schemaDefinitions] at h1
    exact lastOf_replaced hs h1

theorem completion_hasInfo {i : HumanReadableInfo}
    (hi : History.HasInfo (h ++ completion d schemes schemas variables) i) : History.HasInfo (History.lasting h) i := by
  cases hi with
  | property h1 => exact .property (completion_keeps h1 rfl)
  | action h1 => exact .action (completion_keeps h1 rfl)
  | event h1 => exact .event (completion_keeps h1 rfl)

theorem completion_hasForm {ctx : FormContext} {f : FormBuilder X}
    (hf : History.HasForm (h ++ completion d schemes schemas variables) ctx f) : History.HasForm h ctx f := by
  have hm : ∀ {op : ThingOp X}, op ∈ History.lasting h → op ∈ h := fun ho => (mem_lasting.1 ho).1
  cases hf with
  | thing h1 => exact .thing (hm (completion_keeps h1 rfl))
  | property h1 h2 => exact .property (hm (completion_keeps h1 rfl)) h2
  | action h1 h2 => exact .action (hm (completion_keeps h1 rfl)) h2
  | event h1 h2 => exact .event (hm (completion_keeps h1 rfl)) h2

theorem default_within {x : UDS X} (hx : Within x (.default d : UDS X)) : x = .default d := by
  rcases within_iff.1 hx with rfl | ⟨l, hl, -⟩ | ⟨st, hst, -⟩
  · rfl
  · cases hl
  · cases hst

theorem completion_links : History.links (h ++ completion d schemes schemas variables) = History.links h := by
  unfold History.links
  rw [List.filterMap_append, completion_other] <;> intros <;> first | rfl | simp

theorem completion_langKey (hv : ∀ kv ∈ History.uriVariables h, kv.1 ∈ variables)
    (hs : ∀ kv ∈ History.schemaDefinitions h, kv.1 ∈ schemas) {k : String}
    (hk : History.LangKey (h ++ completion d schemes schemas variables) k) : History.LangKey (History.lasting h) k := by
  cases hk with
  | titles h1 h2 =>
    have e : History.titles (h ++ completion d schemes schemas variables) = _ := List.filterMap_append ..
    rw [e] at h1
    change lastOf (_ ++ History.titles _) = _ at h1
    rw [completion_titles, lastOf_append] at h1
    cases h1; cases h2
  | descriptions h1 h2 =>
    have e : History.descriptions (h ++ completion d schemes schemas variables) = _ := List.filterMap_append ..
    rw [e] at h1
    change lastOf (_ ++ History.descriptions _) = _ at h1
    rw [completion_descriptions, lastOf_append] at h1
    cases h1; cases h2
  | security h1 h2 =>
    rw [securities_append, completion_securities, List.mem_append] at h1
    rcases h1 with h1 | h1
    · exact .security (lasting_securities (h := h) ▸ h1) h2
    · obtain ⟨n, -, rfl⟩ := List.mem_map.1 h1
      obtain ⟨m, hm, -⟩ := h2
      cases hm
  | infoTitles h1 h2 => exact .infoTitles (completion_hasInfo h1) h2
  | infoDescriptions h1 h2 => exact .infoDescriptions (completion_hasInfo h1) h2
  | schema h1 h2 =>
    rcases completion_hasSchema hv hs h1 with h1 | ⟨-, rfl⟩
    · exact .schema h1 h2
    · obtain ⟨x, hx, hk⟩ := h2
      rw [default_within hx] at hk
      rcases hk with ⟨m, hm, -⟩ | ⟨m, hm, -⟩ <;> cases hm
  | hreflang h1 h2 => rw [completion_links, ← lasting_links] at h1; exact .hreflang h1 h2

end

/-- What has nothing wrong with it for good can be completed. -/
theorem exists_completion (d : X.dataSchema) (hc : History.Completable env h) :
    ∃ h' : List (ThingOp X), (∀ op ∈ h', op.Built) ∧ History.Valid env (h ++ h') := by
  obtain ⟨schemes, hn, hschemes⟩ := exists_nodup (h.flatMap ThingOp.schemeNames) fun n => ¬ History.Defines h n
  let schemas := h.flatMap ThingOp.schemaNames ++ (History.schemaDefinitions h).map (·.1)
  let variables := (History.uriVariables h).map (·.1)
  have hv : ∀ kv ∈ History.uriVariables h, kv.1 ∈ variables := fun kv hkv => List.mem_map_of_mem hkv
  have hs : ∀ kv ∈ History.schemaDefinitions h, kv.1 ∈ schemas :=
    fun kv hkv => List.mem_append_right _ (List.mem_map_of_mem hkv)
  have hdef : ∀ n, n ∈ h.flatMap ThingOp.schemeNames →
      History.Defines (h ++ completion d schemes schemas variables) n := by
    intro n hin
    rw [(covered_append _ _).defines]
    by_cases hd : History.Defines h n
    · exact .inl hd
    · refine .inr ⟨{ name := some n, subtype := .known .noSec }, ?_, rfl⟩
      rw [completion_securities]
      exact List.mem_map.2 ⟨n, (hschemes n).2 ⟨hin, hd⟩, rfl⟩
  refine ⟨completion d schemes schemas variables, completion_built, ?_⟩
  exact {
    securityNames := by
      rw [securities_append, completion_securities, List.map_append, List.map_map, ← not_twice_iff]
      have e : (securityName ∘ fun n : String => ({ name := some n, subtype := .known .noSec } :
          SecuritySchemeBuilder SchemeSubtype)) = id := rfl
      rw [e, List.map_id]
      intro n ht
      obtain ⟨h1, h2⟩ := (twice_append hc.securityNames hn n).1 ht
      obtain ⟨s, hs, rfl⟩ := List.mem_map.1 h1
      exact ((hschemes _).1 h2).2 ⟨s, hs, rfl⟩
    propertyNames := by
      unfold History.properties
      rw [List.filterMap_append, completion_other, List.append_nil]
      · exact hc.propertyNames
      all_goals intros; rfl
    actionNames := by
      unfold History.actions
      rw [List.filterMap_append, completion_other, List.append_nil]
      · exact hc.actionNames
      all_goals intros; rfl
    eventNames := by
      unfold History.events
      rw [List.filterMap_append, completion_other, List.append_nil]
      · exact hc.eventNames
      all_goals intros; rfl
    comboReferences := fun s h1 n h2 => by
      rw [securities_append, completion_securities, List.mem_append] at h1
      rcases h1 with h1 | h1
      · exact hdef n (List.mem_flatMap.2 ⟨_, mem_securities.1 h1, mem_comboNames.2 h2⟩)
      · obtain ⟨m, -, rfl⟩ := List.mem_map.1 h1
        obtain ⟨l, h3 | h3, -⟩ := h2 <;> cases h3
    formSecurity := fun ctx f n h1 h2 => hdef n (schemeNames_of_form (completion_hasForm h1) h2)
    thingForms := fun f h1 => hc.thingForms f (mem_lasting.1 (completion_keeps h1 rfl)).1
    operations := fun ctx f o h1 => hc.operations ctx f o (completion_hasForm h1)
    responseSchemas := fun f n h1 h2 => by
      have h1 := (mem_lasting.1 (completion_keeps h1 rfl)).1
      obtain ⟨r, hr, hrn⟩ := h2
      refine ⟨.default d, List.mem_append_right _ ?_⟩
      unfold completion
      refine List.mem_append_left _ (List.mem_append_right _ (List.mem_map.2 ⟨n, ?_, rfl⟩))
      exact List.mem_append_left _ (List.mem_flatMap.2 ⟨_, h1, List.mem_filterMap.2 ⟨r, hr, hrn⟩⟩)
    schemas := fun p s h1 h2 => by
      rcases completion_hasSchema hv hs h2 with h2 | ⟨h2, -⟩
      · exact hc.schemas p s h1 h2
      · exact absurd h1 h2
    uriVariables := fun s h1 => by
      rcases completion_hasSchema hv hs h1 with h1 | ⟨-, rfl⟩
      · exact hc.uriVariables s h1
      · rintro (⟨a, ha⟩ | ⟨a, ha⟩) <;> cases ha
    languages := fun k h1 => hc.languages k (completion_langKey hv hs h1)
    linkSizes := fun l h1 => hc.linkSizes l (completion_links ▸ h1) }

/-! ### What stays wrong -/

theorem twice_left {l l' : List String} {n : String} (ht : Twice l n) : Twice (l ++ l') n := by
  unfold Twice at ht ⊢
  rw [List.count_append]
  omega

theorem hasSchema_left {p : Position} (hp : p.Checked) {s : UDS X} (hs : History.HasSchema h p s) :
    History.HasSchema (h ++ h') p s := by
  cases hs with
  | property h1 => exact .property (List.mem_append_left _ h1)
  | input h1 h2 => exact .input (List.mem_append_left _ h1) h2
  | output h1 h2 => exact .output (List.mem_append_left _ h1) h2
  | subscription h1 h2 => exact .subscription (List.mem_append_left _ h1) h2
  | data h1 h2 => exact .data (List.mem_append_left _ h1) h2
  | cancellation h1 h2 => exact .cancellation (List.mem_append_left _ h1) h2
  | _ => exact hp.elim

theorem violates_left {e : Error} (he : e.Lasting) (hv : History.Violates env h e) :
    History.Violates env (h ++ h') e := by
  cases e with
  | duplicatedSecurityDefinition n =>
    show Twice _ n
    rw [securities_append, List.map_append]
    exact twice_left hv
  | duplicatedAffordance ty n =>
    have : Twice (History.affordanceNames h ty ++ History.affordanceNames h' ty) n := twice_left (by cases ty <;> exact hv)
    rw [← affordanceNames_append] at this
    cases ty <;> exact this
  | missingOpInForm =>
    obtain ⟨f, h1, h2⟩ := hv
    exact ⟨f, List.mem_append_left _ h1, h2⟩
  | invalidOpInForm ctx o =>
    obtain ⟨h0, f, h1, h2⟩ := hv
    exact ⟨h0, f, hasForm_left h1, h2⟩
  | invalidMinMax =>
    obtain ⟨p, s, x, h0, h1, h2⟩ := hv
    exact ⟨p, s, x, h0, hasSchema_left h0 h1, h2⟩
  | nanMinMax =>
    obtain ⟨p, s, x, h0, h1, h2⟩ := hv
    exact ⟨p, s, x, h0, hasSchema_left h0 h1, h2⟩
  | invalidMultipleOf =>
    obtain ⟨p, s, x, h0, h1, h2⟩ := hv
    exact ⟨p, s, x, h0, hasSchema_left h0 h1, h2⟩
  | sizesWithRelNotIcon =>
    obtain ⟨l, h1, h2⟩ := hv
    refine ⟨l, ?_, h2⟩
    unfold History.links at h1 ⊢
    rw [List.filterMap_append]
    exact List.mem_append_left _ h1
  | _ => exact he.elim

end Wot
