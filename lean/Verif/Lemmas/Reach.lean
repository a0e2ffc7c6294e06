import Verif.Lemmas.SchemaReach
import Verif.Spec.Build
/-
Every Thing builder reachable through the API satisfies the representation invariant.
-/
namespace Wot

variable {X : ExtTypes}

/-! ### Affordances -/

/-- The URI variables of an interaction are sorted and built with the API. -/
def InteractionRep {O : Type} (i : PartialInteraction X O) : Prop :=
  HMap.Sorted i.uriVariables ∧ ∀ kv ∈ i.uriVariables, SchemaBuilt kv.2

theorem InteractionRep.apply {O : Type} {i : PartialInteraction X O} (h : InteractionRep i)
    {op : InteractionOp X} (hb : op.Built) : InteractionRep (i.apply op) := by
  cases op with
  | form f => exact h
  | uriVariable n s =>
    refine ⟨h.1.insert n s, fun kv hkv => ?_⟩
    rcases HMap.mem_insert hkv with rfl | h'
    · exact hb
    · exact h.2 kv h'

theorem interactionRep_empty {O : Type} (o : O) : InteractionRep (X := X) (.empty o) :=
  ⟨HMap.sorted_nil, fun _ h => by cases h⟩

theorem PropertyReach.facts {D I O : Type} {p : PropertyBuilderF X D I O} (h : PropertyReach X p) :
    InteractionRep p.interaction ∧ InfoRep p.info := by
  induction h with
  | empty i d o => exact ⟨interactionRep_empty i, infoRep_empty⟩
  | call op hb _ ih =>
    cases op with
    | interaction op => exact ⟨ih.1.apply hb, ih.2⟩
    | info op => exact ⟨ih.1, ih.2.apply op⟩
    | observable v => exact ih
  | mapSchema f _ ih => exact ih
  | ext f g _ ih => exact ih

/-- All optional schemas of a list are built with the API. -/
def OptBuilt (o : Option (UDS X)) : Prop := ∀ s, o = some s → SchemaBuilt s

theorem optBuilt_none : OptBuilt (X := X) none := fun _ h => by cases h
theorem optBuilt_some {s : UDS X} (h : SchemaBuilt s) : OptBuilt (X := X) (some s) := fun _ h' => by
  cases h'; exact h

/-- What holds of every form builder: a list that was never added to is absent, not empty. -/
theorem FormReach.facts {H F : Type} {f : FormBuilderF X H F} (h : FormReach X f) :
    f.op ≠ .custom [] ∧ f.security ≠ some [] ∧ f.scopes ≠ some [] := by
  have push : ∀ (o : Option (List String)) v, optPush o v ≠ some [] := by
    intro o v; cases o <;> simp [optPush]
  induction h with
  | new other => exact ⟨by simp [FormBuilderF.new], by simp [FormBuilderF.new], by simp [FormBuilderF.new]⟩
  | href v _ ih => exact ih
  | call op _ ih =>
    obtain ⟨h1, h2, h3⟩ := ih
    cases op
    case op o =>
      refine ⟨?_, h2, h3⟩
      simp only [FormBuilderF.apply, FormOps.push]
      split <;> simp
    case security v => exact ⟨h1, push _ v, h3⟩
    case scope v => exact ⟨h1, h2, push _ v⟩
    all_goals exact ⟨h1, h2, h3⟩
  | ext f _ ih => exact ih

theorem InteractionOp.forms {O : Type} {i : PartialInteraction X O} {op : InteractionOp X}
    (hb : op.Built) (h : ∀ f ∈ i.forms, FormReach X f) : ∀ f ∈ (i.apply op).forms, FormReach X f := by
  cases op with
  | form f =>
    intro g hg
    simp only [PartialInteraction.apply, List.mem_append, List.mem_singleton] at hg
    rcases hg with hg | rfl
    · exact h g hg
    · exact hb
  | uriVariable n s => exact h

theorem PropertyReach.forms {D I O : Type} {p : PropertyBuilderF X D I O} (h : PropertyReach X p) :
    ∀ f ∈ p.interaction.forms, FormReach X f := by
  induction h with
  | empty i d o => exact fun _ h => by cases h
  | call op hb _ ih =>
    cases op with
    | interaction op => exact op.forms hb ih
    | info op => exact ih
    | observable v => exact ih
  | mapSchema f _ ih => exact ih
  | ext f g _ ih => exact ih

theorem ActionReach.forms {I O : Type} {a : ActionBuilderF X I O} (h : ActionReach X a) :
    ∀ f ∈ a.interaction.part.forms, FormReach X f := by
  induction h with
  | empty i o => exact fun _ h => by cases h
  | call op hb _ ih =>
    cases op with
    | interaction op => exact op.forms hb ih
    | _ => exact ih
  | ext f g _ ih => exact ih

theorem EventReach.forms {I O : Type} {a : EventBuilderF X I O} (h : EventReach X a) :
    ∀ f ∈ a.interaction.part.forms, FormReach X f := by
  induction h with
  | empty i o => exact fun _ h => by cases h
  | call op hb _ ih =>
    cases op with
    | interaction op => exact op.forms hb ih
    | _ => exact ih
  | ext f g _ ih => exact ih

theorem ActionReach.facts {I O : Type} {a : ActionBuilderF X I O} (h : ActionReach X a) :
    InteractionRep a.interaction.part ∧ InfoRep a.interaction.info ∧ OptBuilt a.input ∧
      OptBuilt a.output := by
  induction h with
  | empty i o => exact ⟨interactionRep_empty i, infoRep_empty, optBuilt_none, optBuilt_none⟩
  | call op hb _ ih =>
    cases op with
    | interaction op => exact ⟨ih.1.apply hb, ih.2⟩
    | info op => exact ⟨ih.1, ih.2.1.apply op, ih.2.2⟩
    | input s => exact ⟨ih.1, ih.2.1, optBuilt_some hb, ih.2.2.2⟩
    | output s => exact ⟨ih.1, ih.2.1, ih.2.2.1, optBuilt_some hb⟩
    | safe => exact ih
    | idempotent => exact ih
    | synchronous v => exact ih
  | ext f g _ ih => exact ih

theorem EventReach.facts {I O : Type} {a : EventBuilderF X I O} (h : EventReach X a) :
    InteractionRep a.interaction.part ∧ InfoRep a.interaction.info ∧ OptBuilt a.subscription ∧
      OptBuilt a.data ∧ OptBuilt a.cancellation ∧ OptBuilt a.dataResponse := by
  induction h with
  | empty i o =>
    exact ⟨interactionRep_empty i, infoRep_empty, optBuilt_none, optBuilt_none, optBuilt_none,
      optBuilt_none⟩
  | call op hb _ ih =>
    obtain ⟨i1, i2, i3, i4, i5, i6⟩ := ih
    cases op with
    | interaction op => exact ⟨i1.apply hb, i2, i3, i4, i5, i6⟩
    | info op => exact ⟨i1, i2.apply op, i3, i4, i5, i6⟩
    | subscription s => exact ⟨i1, i2, optBuilt_some hb, i4, i5, i6⟩
    | data s => exact ⟨i1, i2, i3, optBuilt_some hb, i5, i6⟩
    | cancellation s => exact ⟨i1, i2, i3, i4, optBuilt_some hb, i6⟩
    | dataResponse s => exact ⟨i1, i2, i3, i4, i5, optBuilt_some hb⟩
  | ext f g _ ih => exact ih

/-! ### Security schemes -/

theorem secApply_rep {b b' : SecuritySchemeBuilder SecTag} {op : SecOp} (h : b.apply op = some b')
    (hr : LangRep b.descriptions) : LangRep b'.descriptions := by
  have hmap : ∀ {o : Option SecTag}, (o.map fun t => { b with subtype := t }) = some b' →
      LangRep b'.descriptions := by
    intro o h
    obtain ⟨t, _, rfl⟩ := Option.map_eq_some_iff.1 h
    exact hr
  cases op
  case descriptions c => cases h; exact langRep_ofCalls c
  case attype => cases h; exact hr
  case description => cases h; exact hr
  case proxy => cases h; exact hr
  case withKey => cases h; exact hr
  case required => cases h; exact hr
  case name v =>
    simp only [SecuritySchemeBuilder.apply] at h
    split at h
    · cases h; exact hr
    · exact hmap h
  all_goals exact hmap h

theorem secFold_rep {b' : SecuritySchemeBuilder SecTag} (calls : List SecOp) :
    ∀ b0 : SecuritySchemeBuilder SecTag, LangRep b0.descriptions →
      calls.foldlM SecuritySchemeBuilder.apply b0 = some b' → LangRep b'.descriptions := by
  induction calls with
  | nil => intro b0 h0 h; cases h; exact h0
  | cons op calls ih =>
    intro b0 h0 h
    rw [List.foldlM_cons] at h
    obtain ⟨b1, h1, h2⟩ := Option.bind_eq_some_iff.1 h
    exact ih b1 (secApply_rep h1 h0) h2

theorem secOfCalls_rep {calls : List SecOp} {b : SecuritySchemeBuilder SchemeSubtype}
    (h : SecuritySchemeBuilder.ofCalls calls = some b) : LangRep b.scheme.descriptions := by
  unfold SecuritySchemeBuilder.ofCalls at h
  obtain ⟨b', hb', h⟩ := Option.bind_eq_some_iff.1 h
  obtain ⟨s, _, h⟩ := Option.bind_eq_some_iff.1 h
  cases h
  exact secFold_rep calls _ langRep_none hb'

/-! ### Thing builders -/

/-- The invariant in terms of what is stored; stronger than `WF`. -/
structure ThingBuilder.Rep (b : ThingBuilder X) : Prop where
  context : ∃ rest, b.context = .simple tdContext11 :: rest
  contextMaps : ∀ m, Context.map m ∈ b.context → HMap.Sorted m
  titles : LangRep b.titles
  descriptions : LangRep b.descriptions
  security : ∀ kv ∈ b.securityDefinitions, LangRep kv.2.descriptions
  uriVariables : ∀ m, b.uriVariables = some m → HMap.Sorted m ∧ ∀ kv ∈ m, SchemaBuilt kv.2
  properties : ∀ kv ∈ b.properties, kv.2.Built
  actions : ∀ kv ∈ b.actions, ActionReach X kv.2
  events : ∀ kv ∈ b.events, EventReach X kv.2
  schemaDefinitions : HMap.Sorted b.schemaDefinitions ∧ ∀ kv ∈ b.schemaDefinitions, SchemaBuilt kv.2

namespace ThingBuilder.Rep

theorem new (title : String) (other : X.thing) : Rep (.new title other) where
  context := ⟨[], rfl⟩
  contextMaps := by intro m h; simp [ThingBuilder.new] at h
  titles := langRep_none
  descriptions := langRep_none
  security := by intro _ h; cases h
  uriVariables := by intro _ h; cases h
  properties := by intro _ h; cases h
  actions := by intro _ h; cases h
  events := by intro _ h; cases h
  schemaDefinitions := ⟨HMap.sorted_nil, by intro _ h; cases h⟩

theorem applyCommon {b : ThingBuilder X} (h : b.Rep) {op : CommonOp} (hb : op.Built) :
    (b.applyCommon op).Rep := by
  obtain ⟨h1, h2, h3, h4, h5, h6, h7, h8, h9, h10⟩ := h
  have app : ∀ c, ∃ rest, b.context ++ [c] = .simple tdContext11 :: rest := by
    intro c
    obtain ⟨rest, hr⟩ := h1
    exact ⟨rest ++ [c], by rw [hr]; rfl⟩
  cases op with
  | context v =>
    simp only [ThingBuilder.applyCommon]
    split
    · exact ⟨h1, h2, h3, h4, h5, h6, h7, h8, h9, h10⟩
    · refine ⟨app _, fun m hm => ?_, h3, h4, h5, h6, h7, h8, h9, h10⟩
      simp only [List.mem_append, List.mem_singleton, reduceCtorEq, or_false] at hm
      exact h2 m hm
  | contextMap c =>
    refine ⟨app _, fun m hm => ?_, h3, h4, h5, h6, h7, h8, h9, h10⟩
    simp only [ThingBuilder.applyCommon, List.mem_append, List.mem_singleton, Context.map.injEq] at hm
    rcases hm with hm | rfl
    · exact h2 m hm
    · exact HMap.collect_sorted c
  | titles c => exact ⟨h1, h2, langRep_ofCalls c, h4, h5, h6, h7, h8, h9, h10⟩
  | descriptions c => exact ⟨h1, h2, h3, langRep_ofCalls c, h5, h6, h7, h8, h9, h10⟩
  | security s =>
    refine ⟨h1, h2, h3, h4, fun kv hkv => ?_, h6, h7, h8, h9, h10⟩
    simp only [ThingBuilder.applyCommon, List.mem_append, List.mem_singleton] at hkv
    rcases hkv with hkv | rfl
    · exact h5 kv hkv
    · obtain ⟨calls, hc⟩ := hb
      exact secOfCalls_rep hc
  | _ => exact ⟨h1, h2, h3, h4, h5, h6, h7, h8, h9, h10⟩

theorem apply {b : ThingBuilder X} (h : b.Rep) {op : ThingOp X} (hb : op.Built) : (b.apply op).Rep := by
  cases op with
  | common op => exact h.applyCommon hb
  | form f => obtain ⟨h1, h2, h3, h4, h5, h6, h7, h8, h9, h10⟩ := h
              exact ⟨h1, h2, h3, h4, h5, h6, h7, h8, h9, h10⟩
  | setOther o => obtain ⟨h1, h2, h3, h4, h5, h6, h7, h8, h9, h10⟩ := h
                  exact ⟨h1, h2, h3, h4, h5, h6, h7, h8, h9, h10⟩
  | uriVariable n s =>
    obtain ⟨h1, h2, h3, h4, h5, h6, h7, h8, h9, h10⟩ := h
    refine ⟨h1, h2, h3, h4, h5, fun m hm => ?_, h7, h8, h9, h10⟩
    have h6' : HMap.Sorted (b.uriVariables.getD []) ∧
        ∀ kv ∈ b.uriVariables.getD [], SchemaBuilt kv.2 := by
      cases hu : b.uriVariables with
      | none => exact ⟨HMap.sorted_nil, by intro _ h; cases h⟩
      | some m => exact h6 m hu
    cases hm
    refine ⟨h6'.1.insert n s, fun kv hkv => ?_⟩
    rcases HMap.mem_insert hkv with rfl | h'
    · exact hb
    · exact h6'.2 kv h'
  | property n p =>
    obtain ⟨h1, h2, h3, h4, h5, h6, h7, h8, h9, h10⟩ := h
    refine ⟨h1, h2, h3, h4, h5, h6, fun kv hkv => ?_, h8, h9, h10⟩
    simp only [ThingBuilder.apply, List.mem_append, List.mem_singleton] at hkv
    rcases hkv with hkv | rfl
    · exact h7 kv hkv
    · exact hb
  | action n p =>
    obtain ⟨h1, h2, h3, h4, h5, h6, h7, h8, h9, h10⟩ := h
    refine ⟨h1, h2, h3, h4, h5, h6, h7, fun kv hkv => ?_, h9, h10⟩
    simp only [ThingBuilder.apply, List.mem_append, List.mem_singleton] at hkv
    rcases hkv with hkv | rfl
    · exact h8 kv hkv
    · exact hb
  | event n p =>
    obtain ⟨h1, h2, h3, h4, h5, h6, h7, h8, h9, h10⟩ := h
    refine ⟨h1, h2, h3, h4, h5, h6, h7, h8, fun kv hkv => ?_, h10⟩
    simp only [ThingBuilder.apply, List.mem_append, List.mem_singleton] at hkv
    rcases hkv with hkv | rfl
    · exact h9 kv hkv
    · exact hb
  | schemaDefinition n s =>
    obtain ⟨h1, h2, h3, h4, h5, h6, h7, h8, h9, h10⟩ := h
    refine ⟨h1, h2, h3, h4, h5, h6, h7, h8, h9, h10.1.insert n s, fun kv hkv => ?_⟩
    rcases HMap.mem_insert hkv with rfl | h'
    · exact hb
    · exact h10.2 kv h'

theorem run {b : ThingBuilder X} (h : b.Rep) {ops : List (ThingOp X)} (hb : ∀ op ∈ ops, op.Built) :
    (b.run ops).Rep := by
  induction ops generalizing b with
  | nil => exact h
  | cons op ops ih =>
    exact ih (h.apply (hb op (by simp))) fun op' h' => hb op' (by simp [h'])

theorem extPhase {title : String} {h : List CommonOp} {b : ThingBuilder X}
    (he : ExtPhase X title h b) (hb : ∀ op ∈ h, op.Built) : b.Rep := by
  induction he with
  | new title other => exact .new title other
  | call op _ ih =>
    exact (ih fun op' h' => hb op' (by simp [h'])).applyCommon (hb op (by simp))
  | setOther o _ ih =>
    obtain ⟨h1, h2, h3, h4, h5, h6, h7, h8, h9, h10⟩ := ih hb
    exact ⟨h1, h2, h3, h4, h5, h6, h7, h8, h9, h10⟩
  | ext f _ ih =>
    obtain ⟨h1, h2, h3, h4, h5, h6, h7, h8, h9, h10⟩ := ih hb
    exact ⟨h1, h2, h3, h4, h5, (fun _ h => by cases h), (fun _ h => by cases h),
      (fun _ h => by cases h), (fun _ h => by cases h), HMap.sorted_nil, (fun _ h => by cases h)⟩

theorem wf {b : ThingBuilder X} (h : b.Rep) : b.WF where
  context := h.context
  contextMaps := h.contextMaps
  titles := h.titles
  descriptions := h.descriptions
  security n s hs := h.security _ hs
  info i hi := by
    cases hi with
    | property hp => exact (h.properties _ hp).reach.facts.2
    | action hp => exact (h.actions _ hp).facts.2.1
    | event hp => exact (h.events _ hp).facts.2.1
  uriVariables m hm := (h.uriVariables m hm).1
  propertyUriVariables n p hp := (h.properties _ hp).reach.facts.1.1
  actionUriVariables n p hp := (h.actions _ hp).facts.1.1
  eventUriVariables n p hp := (h.events _ hp).facts.1.1
  schemaDefinitions := h.schemaDefinitions.1
  schemas s hs := by
    rcases hs with hs | hs | hs
    · cases hs with
      | property hp =>
        have hb := h.properties _ hp
        obtain ⟨c1, c2, c3⟩ := hb.schema.children
        refine schemaRep_iff.2 ⟨⟨hb.reach.facts.2.1, hb.reach.facts.2.2, c3⟩, ?_, ?_⟩
        · exact fun l hl c hc => (c1 l hl c hc).rep
        · exact fun st hst c hc => (c2 st hst c hc).rep
      | input hp hs => exact ((h.actions _ hp).facts.2.2.1 _ hs).rep
      | output hp hs => exact ((h.actions _ hp).facts.2.2.2 _ hs).rep
      | subscription hp hs => exact ((h.events _ hp).facts.2.2.1 _ hs).rep
      | data hp hs => exact ((h.events _ hp).facts.2.2.2.1 _ hs).rep
      | cancellation hp hs => exact ((h.events _ hp).facts.2.2.2.2.1 _ hs).rep
    · cases hs with
      | thing hm hs => exact ((h.uriVariables _ hm).2 _ hs).rep
      | property hp hs => exact ((h.properties _ hp).reach.facts.1.2 _ hs).rep
      | action hp hs => exact ((h.actions _ hp).facts.1.2 _ hs).rep
      | event hp hs => exact ((h.events _ hp).facts.1.2 _ hs).rep
    · cases hs with
      | schemaDefinition hs => exact (h.schemaDefinitions.2 _ hs).rep
      | dataResponse hp hs => exact ((h.events _ hp).facts.2.2.2.2.2 _ hs).rep

end ThingBuilder.Rep

theorem Reachable.rep {title : String} {h : List (ThingOp X)} {b : ThingBuilder X}
    (hr : Reachable X title h b) : b.Rep := by
  obtain ⟨hr, hb⟩ := hr
  cases hr with
  | toExtend he => exact .extPhase he fun op hop => hb (.common op) (List.mem_map.2 ⟨op, hop, rfl⟩)
  | extended ops he =>
    have h1 := ThingBuilder.Rep.extPhase he fun op hop =>
      hb (.common op) (List.mem_append_left _ (List.mem_map.2 ⟨op, hop, rfl⟩))
    exact ThingBuilder.Rep.run (b := ThingBuilder.finishExtend _) h1
      fun op hop => hb op (List.mem_append_right _ hop)

theorem Reachable.wf {title : String} {h : List (ThingOp X)} {b : ThingBuilder X}
    (hr : Reachable X title h b) : b.WF := hr.rep.wf

end Wot
