import Verif.Lemmas.Members
import Verif.Lemmas.Serde
import Verif.Spec.Together
/-
A history whose calls come from two valid ones.
-/
namespace Wot

variable {X : ExtTypes} {title : String} {h h₁ h₂ : List (ThingOp X)} {env : Env}

/-- What `h` supplies is supplied by `h₁` or `h₂`, and nothing they refer to is missing in `h`. -/
structure Covered (h h₁ h₂ : List (ThingOp X)) : Prop where
  mem : ∀ op ∈ h, op ∈ h₁ ∨ op ∈ h₂
  back : ∀ op, ¬ op.AddsUse → op ∈ h₁ ∨ op ∈ h₂ → op ∈ h
  uriVariables : ∀ n s, lastOf (History.named n (History.uriVariables h)) = some s →
    lastOf (History.named n (History.uriVariables h₁)) = some s ∨
    lastOf (History.named n (History.uriVariables h₂)) = some s
  schemaDefinitions : ∀ n s, lastOf (History.named n (History.schemaDefinitions h)) = some s →
    lastOf (History.named n (History.schemaDefinitions h₁)) = some s ∨
    lastOf (History.named n (History.schemaDefinitions h₂)) = some s
  titles : ∀ c, lastOf (History.titles h) = some c →
    lastOf (History.titles h₁) = some c ∨ lastOf (History.titles h₂) = some c
  descriptions : ∀ c, lastOf (History.descriptions h) = some c →
    lastOf (History.descriptions h₁) = some c ∨ lastOf (History.descriptions h₂) = some c

theorem mem_securities {s : SecuritySchemeBuilder SchemeSubtype} :
    s ∈ History.securities h ↔ .common (.security s) ∈ h := by
  unfold History.securities
  rw [List.mem_filterMap]
  constructor
  · rintro ⟨op, ho, he⟩
    split at he <;> cases he
    exact ho
  · intro ho; exact ⟨_, ho, rfl⟩

theorem mem_links {l : UncheckedLink} : l ∈ History.links h ↔
    (∃ href, .common (.link href) ∈ h ∧ l = { href }) ∨
    ∃ pre href post, .common (.linkWith pre href post) ∈ h ∧ l = .ofCalls pre href post := by
  unfold History.links
  rw [List.mem_filterMap]
  constructor
  · rintro ⟨op, ho, he⟩
    split at he <;> cases he
    · exact .inl ⟨_, ho, rfl⟩
    · exact .inr ⟨_, _, _, ho, rfl⟩
  · rintro (⟨href, ho, rfl⟩ | ⟨pre, href, post, ho, rfl⟩)
    · exact ⟨_, ho, rfl⟩
    · exact ⟨_, ho, rfl⟩

namespace Covered

variable (hc : Covered h h₁ h₂)
include hc

theorem securities {s : SecuritySchemeBuilder SchemeSubtype} :
    s ∈ History.securities h ↔ s ∈ History.securities h₁ ∨ s ∈ History.securities h₂ := by
  simp only [mem_securities]
  exact ⟨hc.mem _, hc.back _ nofun⟩

theorem links {l : UncheckedLink} (hl : l ∈ History.links h) : l ∈ History.links h₁ ∨ l ∈ History.links h₂ := by
  simp only [mem_links] at hl ⊢
  rcases hl with ⟨href, ho, rfl⟩ | ⟨pre, href, post, ho, rfl⟩
  · exact (hc.mem _ ho).imp (fun o => .inl ⟨_, o, rfl⟩) fun o => .inl ⟨_, o, rfl⟩
  · exact (hc.mem _ ho).imp (fun o => .inr ⟨_, _, _, o, rfl⟩) fun o => .inr ⟨_, _, _, o, rfl⟩

theorem hasForm {ctx : FormContext} {f : FormBuilder X} (hf : History.HasForm h ctx f) :
    History.HasForm h₁ ctx f ∨ History.HasForm h₂ ctx f := by
  cases hf with
  | thing h1 => exact (hc.mem _ h1).imp .thing .thing
  | property h1 h2 => exact (hc.mem _ h1).imp (.property · h2) (.property · h2)
  | action h1 h2 => exact (hc.mem _ h1).imp (.action · h2) (.action · h2)
  | event h1 h2 => exact (hc.mem _ h1).imp (.event · h2) (.event · h2)

theorem hasInfo {i : HumanReadableInfo} (hi : History.HasInfo h i) :
    History.HasInfo h₁ i ∨ History.HasInfo h₂ i := by
  cases hi with
  | property h1 => exact (hc.mem _ h1).imp .property .property
  | action h1 => exact (hc.mem _ h1).imp .action .action
  | event h1 => exact (hc.mem _ h1).imp .event .event

theorem hasSchema {p : Position} {s : UDS X} (hp : History.HasSchema h p s) :
    History.HasSchema h₁ p s ∨ History.HasSchema h₂ p s := by
  cases hp with
  | property h1 => exact (hc.mem _ h1).imp .property .property
  | input h1 h2 => exact (hc.mem _ h1).imp (.input · h2) (.input · h2)
  | output h1 h2 => exact (hc.mem _ h1).imp (.output · h2) (.output · h2)
  | subscription h1 h2 => exact (hc.mem _ h1).imp (.subscription · h2) (.subscription · h2)
  | data h1 h2 => exact (hc.mem _ h1).imp (.data · h2) (.data · h2)
  | cancellation h1 h2 => exact (hc.mem _ h1).imp (.cancellation · h2) (.cancellation · h2)
  | dataResponse h1 h2 => exact (hc.mem _ h1).imp (.dataResponse · h2) (.dataResponse · h2)
  | uriVariable h1 => exact (hc.uriVariables _ _ h1).imp .uriVariable .uriVariable
  | propertyUriVariable h1 h2 => exact (hc.mem _ h1).imp (.propertyUriVariable · h2) (.propertyUriVariable · h2)
  | actionUriVariable h1 h2 => exact (hc.mem _ h1).imp (.actionUriVariable · h2) (.actionUriVariable · h2)
  | eventUriVariable h1 h2 => exact (hc.mem _ h1).imp (.eventUriVariable · h2) (.eventUriVariable · h2)
  | schemaDefinition h1 => exact (hc.schemaDefinitions _ _ h1).imp .schemaDefinition .schemaDefinition

theorem langKey {k : String} (hk : History.LangKey h k) : History.LangKey h₁ k ∨ History.LangKey h₂ k := by
  cases hk with
  | titles h1 h2 => exact (hc.titles _ h1).imp (.titles · h2) (.titles · h2)
  | descriptions h1 h2 => exact (hc.descriptions _ h1).imp (.descriptions · h2) (.descriptions · h2)
  | security h1 h2 => exact (hc.securities.1 h1).imp (.security · h2) (.security · h2)
  | infoTitles h1 h2 => exact (hc.hasInfo h1).imp (.infoTitles · h2) (.infoTitles · h2)
  | infoDescriptions h1 h2 => exact (hc.hasInfo h1).imp (.infoDescriptions · h2) (.infoDescriptions · h2)
  | schema h1 h2 => exact (hc.hasSchema h1).imp (.schema · h2) (.schema · h2)
  | hreflang h1 h2 => exact (hc.links h1).imp (.hreflang · h2) (.hreflang · h2)

theorem defines {n : String} : History.Defines h n ↔ History.Defines h₁ n ∨ History.Defines h₂ n := by
  unfold History.Defines
  simp only [hc.securities, or_and_right, exists_or]

theorem declares {n : String} : History.Declares h n ↔ History.Declares h₁ n ∨ History.Declares h₂ n := by
  unfold History.Declares
  constructor
  · rintro ⟨s, hs⟩
    exact (hc.mem _ hs).imp (fun o => ⟨s, o⟩) fun o => ⟨s, o⟩
  · rintro (⟨s, hs⟩ | ⟨s, hs⟩)
    · exact ⟨s, hc.back _ nofun (.inl hs)⟩
    · exact ⟨s, hc.back _ nofun (.inr hs)⟩

/-- Only names can be wrong. -/
theorem valid (hv₁ : History.Valid env h₁) (hv₂ : History.Valid env h₂)
    (hs : ((History.securities h).map securityName).Nodup) (hp : ((History.properties h).map (·.1)).Nodup)
    (ha : ((History.actions h).map (·.1)).Nodup) (he : ((History.events h).map (·.1)).Nodup) :
    History.Valid env h where
  securityNames := hs
  propertyNames := hp
  actionNames := ha
  eventNames := he
  comboReferences s h1 n h2 := hc.defines.2 <| (hc.securities.1 h1).imp
    (fun o => hv₁.comboReferences s o n h2) fun o => hv₂.comboReferences s o n h2
  formSecurity ctx f n h1 h2 := hc.defines.2 <| (hc.hasForm h1).imp
    (fun o => hv₁.formSecurity ctx f n o h2) fun o => hv₂.formSecurity ctx f n o h2
  thingForms f h1 := (hc.mem _ h1).elim (hv₁.thingForms f) (hv₂.thingForms f)
  operations ctx f o h1 h2 := (hc.hasForm h1).elim (hv₁.operations ctx f o · h2) (hv₂.operations ctx f o · h2)
  responseSchemas f n h1 h2 := hc.declares.2 <| (hc.mem _ h1).imp
    (fun o => hv₁.responseSchemas f n o h2) fun o => hv₂.responseSchemas f n o h2
  schemas p s h1 h2 := (hc.hasSchema h2).elim (hv₁.schemas p s h1) (hv₂.schemas p s h1)
  uriVariables s h1 := (hc.hasSchema h1).elim (hv₁.uriVariables s) (hv₂.uriVariables s)
  languages k h1 := (hc.langKey h1).elim (hv₁.languages k) (hv₂.languages k)
  linkSizes l h1 h2 := (hc.links h1).elim (hv₁.linkSizes l · h2) (hv₂.linkSizes l · h2)

end Covered

theorem or_of_or {α : Type} {a b : Option α} {x : α} (h : b.or a = some x) : a = some x ∨ b = some x := by
  cases b with
  | none => exact .inl h
  | some y => exact .inr h

theorem named_append {A : Type} (n : String) (a b : List (String × A)) :
    History.named n (a ++ b) = History.named n a ++ History.named n b := List.filterMap_append ..

theorem covered_append (h₁ h₂ : List (ThingOp X)) : Covered (h₁ ++ h₂) h₁ h₂ where
  mem _ := List.mem_append.1
  back _ _ := List.mem_append.2
  uriVariables n s hs := by
    unfold History.uriVariables at hs
    rw [List.filterMap_append, named_append, lastOf_append_list] at hs
    exact or_of_or hs
  schemaDefinitions n s hs := by
    unfold History.schemaDefinitions at hs
    rw [List.filterMap_append, named_append, lastOf_append_list] at hs
    exact or_of_or hs
  titles c hs := by
    unfold History.titles at hs
    rw [List.filterMap_append, lastOf_append_list] at hs
    exact or_of_or hs
  descriptions c hs := by
    unfold History.descriptions at hs
    rw [List.filterMap_append, lastOf_append_list] at hs
    exact or_of_or hs

namespace History.Without

theorem sublist {h' : List (ThingOp X)} (hw : Without h' h) : h'.Sublist h := by
  induction hw with
  | nil => exact .slnil
  | keep op _ ih => exact ih.cons_cons op
  | drop _ _ ih => exact ih.cons _

theorem extract {β : Type} {h' : List (ThingOp X)} (hw : Without h' h) {f : ThingOp X → Option β}
    (hf : ∀ op, op.AddsUse → f op = none) : h'.filterMap f = h.filterMap f := by
  induction hw with
  | nil => rfl
  | keep op _ ih => rw [List.filterMap_cons, List.filterMap_cons, ih]
  | drop ho _ ih => rw [List.filterMap_cons, hf _ ho]; exact ih

theorem mem_back {h' : List (ThingOp X)} (hw : Without h' h) {op : ThingOp X} (ho : ¬ op.AddsUse) (hm : op ∈ h) :
    op ∈ h' := by
  induction hw with
  | nil => exact hm
  | keep a _ ih =>
    rcases List.mem_cons.1 hm with rfl | hm
    · exact List.mem_cons_self
    · exact List.mem_cons_of_mem _ (ih hm)
  | drop ha _ ih =>
    rcases List.mem_cons.1 hm with rfl | hm
    · exact absurd ha ho
    · exact ih hm

/-- A call that adds no affordance, form or link. -/
macro "unused" : tactic => `(tactic| (intro op ho; split <;> first | rfl | exact ho.elim))

theorem covered {h' : List (ThingOp X)} (hw : Without h' h) : Covered h' h h where
  mem op ho := .inl (hw.sublist.subset ho)
  back op ho hm := hw.mem_back ho (or_self_iff.1 hm)
  uriVariables n s hs := by
    unfold History.uriVariables at hs
    rw [hw.extract (by unused)] at hs; exact .inl hs
  schemaDefinitions n s hs := by
    unfold History.schemaDefinitions at hs
    rw [hw.extract (by unused)] at hs; exact .inl hs
  titles c hs := by
    unfold History.titles at hs
    rw [hw.extract (by unused)] at hs; exact .inl hs
  descriptions c hs := by
    unfold History.descriptions at hs
    rw [hw.extract (by unused)] at hs; exact .inl hs

theorem valid {h' : List (ThingOp X)} (hw : Without h' h) (hv : History.Valid env h) : History.Valid env h' :=
  hw.covered.valid hv hv
    (((hw.sublist.filterMap _).map _).nodup hv.securityNames)
    (((hw.sublist.filterMap _).map _).nodup hv.propertyNames)
    (((hw.sublist.filterMap _).map _).nodup hv.actionNames)
    (((hw.sublist.filterMap _).map _).nodup hv.eventNames)

end History.Without

theorem twice_append {l₁ l₂ : List String} (d₁ : l₁.Nodup) (d₂ : l₂.Nodup) (n : String) :
    Twice (l₁ ++ l₂) n ↔ n ∈ l₁ ∧ n ∈ l₂ := by
  unfold Twice
  rw [List.count_append, ← List.count_pos_iff, ← List.count_pos_iff]
  have := List.nodup_iff_count.1 d₁ n
  have := List.nodup_iff_count.1 d₂ n
  omega

theorem affordanceNames_append (ty : AffordanceType) : History.affordanceNames (h₁ ++ h₂) ty =
    History.affordanceNames h₁ ty ++ History.affordanceNames h₂ ty := by
  cases ty <;> simp [History.affordanceNames, History.properties, History.actions, History.events]

theorem securities_append : History.securities (h₁ ++ h₂) = History.securities h₁ ++ History.securities h₂ :=
  List.filterMap_append ..

/-- Apart from names, only what is wrong with one of the histories is wrong. -/
theorem Covered.violates (hc : Covered h h₁ h₂) {e : Error} (hv : History.Violates env h e) :
    (∃ n, e = .duplicatedSecurityDefinition n) ∨ (∃ ty n, e = .duplicatedAffordance ty n) ∨
    History.Violates env h₁ e ∨ History.Violates env h₂ e := by
  cases e with
  | duplicatedSecurityDefinition n => exact .inl ⟨n, rfl⟩
  | duplicatedAffordance ty n => exact .inr (.inl ⟨ty, n, rfl⟩)
  | missingOpInForm =>
    obtain ⟨f, h1, h2⟩ := hv
    exact .inr (.inr ((hc.mem _ h1).imp (⟨f, ·, h2⟩) (⟨f, ·, h2⟩)))
  | invalidOpInForm ctx o =>
    obtain ⟨h0, f, h1, h2⟩ := hv
    exact .inr (.inr ((hc.hasForm h1).imp (⟨h0, f, ·, h2⟩) (⟨h0, f, ·, h2⟩)))
  | undefinedSecurity n =>
    obtain ⟨h0, ctx, f, h1, h2⟩ := hv
    exact .inr (.inr ((hc.hasForm h1).imp (⟨fun d => h0 (hc.defines.2 (.inl d)), ctx, f, ·, h2⟩)
      (⟨fun d => h0 (hc.defines.2 (.inr d)), ctx, f, ·, h2⟩)))
  | invalidMinMax =>
    obtain ⟨p, s, x, h0, h1, h2⟩ := hv
    exact .inr (.inr ((hc.hasSchema h1).imp (⟨p, s, x, h0, ·, h2⟩) (⟨p, s, x, h0, ·, h2⟩)))
  | nanMinMax =>
    obtain ⟨p, s, x, h0, h1, h2⟩ := hv
    exact .inr (.inr ((hc.hasSchema h1).imp (⟨p, s, x, h0, ·, h2⟩) (⟨p, s, x, h0, ·, h2⟩)))
  | invalidMultipleOf =>
    obtain ⟨p, s, x, h0, h1, h2⟩ := hv
    exact .inr (.inr ((hc.hasSchema h1).imp (⟨p, s, x, h0, ·, h2⟩) (⟨p, s, x, h0, ·, h2⟩)))
  | missingSchemaDefinition n =>
    rcases hv with ⟨h0, f, h1, h2⟩ | ⟨h0, s, h1, h2⟩
    · exact .inr (.inr ((hc.mem _ h1).imp (.inl ⟨fun d => h0 (hc.declares.2 (.inl d)), f, ·, h2⟩)
        (.inl ⟨fun d => h0 (hc.declares.2 (.inr d)), f, ·, h2⟩)))
    · exact .inr (.inr ((hc.securities.1 h1).imp (.inr ⟨fun d => h0 (hc.defines.2 (.inl d)), s, ·, h2⟩)
        (.inr ⟨fun d => h0 (hc.defines.2 (.inr d)), s, ·, h2⟩)))
  | invalidUriVariables =>
    obtain ⟨s, h1, h2⟩ := hv
    exact .inr (.inr ((hc.hasSchema h1).imp (⟨s, ·, h2⟩) (⟨s, ·, h2⟩)))
  | invalidLanguageTag k =>
    obtain ⟨h1, h2⟩ := hv
    exact .inr (.inr ((hc.langKey h1).imp (⟨·, h2⟩) (⟨·, h2⟩)))
  | sizesWithRelNotIcon =>
    obtain ⟨l, h1, h2⟩ := hv
    exact .inr (.inr ((hc.links h1).imp (⟨l, ·, h2⟩) (⟨l, ·, h2⟩)))

theorem getD_someList {α : Type} (l : List α) : (someList l).getD [] = l := by
  unfold someList
  by_cases h : l = []
  · rw [if_pos h, h]; rfl
  · rw [if_neg h]; rfl

theorem getD_map_someList {α β : Type} (f : α → β) (l : List α) :
    ((someList l).map (List.map f)).getD [] = l.map f := by
  unfold someList
  by_cases h : l = []
  · rw [if_pos h, h]; rfl
  · rw [if_neg h]; rfl

theorem or_eq_some_map {α β : Type} {a b : Option α} {f : α → β} {y : β} :
    (∃ u, b.or a = some u ∧ y = f u) ↔
      (∃ u, b = some u ∧ y = f u) ∨ ((∃ u, a = some u ∧ y = f u) ∧ ∀ z, ¬ ∃ u, b = some u ∧ z = f u) := by
  cases b with
  | none => simp
  | some c =>
    constructor
    · exact .inl
    · rintro (h | ⟨-, h⟩)
      · exact h
      · exact absurd ⟨c, rfl, rfl⟩ (h _)

/-- Further calls can always be made (on a builder whose extension is finished). -/
theorem Reachable.run {b : ThingBuilder X} (hr : Reachable X title h₁ b) (hb : ∀ op ∈ h₂, op.Built) :
    Reachable X title (h₁ ++ h₂) (b.run h₂) := by
  refine ⟨?_, fun op ho => (List.mem_append.1 ho).elim (hr.built op) (hb op)⟩
  cases hr.reach with
  | toExtend hx => exact .extended (b := b) h₂ hx
  | extended ops hx =>
    have := Reach.extended (ops ++ h₂) hx
    unfold ThingBuilder.run at this ⊢
    rw [List.foldl_append] at this
    rw [List.append_assoc]
    exact this

end Wot
