import Verif.Lemmas.BuildableThing
import Verif.Props.Calls
import Verif.Lemmas.Members
/-
Built Things are as `Buildable` says.
-/
namespace Wot

variable {X : ExtTypes} {title : String} {h : List (ThingOp X)} {b : ThingBuilder X} {env : Env}
  {t : Thing X}

theorem infoMade_empty : InfoMade {} := ⟨nofun, infoRep_empty.1, infoRep_empty.2⟩

theorem PropertyReach.infoMade {D I O : Type} {p : PropertyBuilderF X D I O} (h : PropertyReach X p) :
    InfoMade p.info := by
  induction h with
  | empty i d o => exact infoMade_empty
  | call op hb _ ih =>
    cases op with
    | info op => exact infoMade_apply ih op
    | _ => exact ih
  | ext => assumption
  | mapSchema => assumption

theorem ActionReach.infoMade {I O : Type} {p : ActionBuilderF X I O} (h : ActionReach X p) :
    InfoMade p.interaction.info := by
  induction h with
  | empty i o => exact infoMade_empty
  | call op hb _ ih =>
    cases op with
    | info op => exact infoMade_apply ih op
    | _ => exact ih
  | ext f g _ ih => exact ih

theorem EventReach.infoMade {I O : Type} {p : EventBuilderF X I O} (h : EventReach X p) :
    InfoMade p.interaction.info := by
  induction h with
  | empty i o => exact infoMade_empty
  | call op hb _ ih =>
    cases op with
    | info op => exact infoMade_apply ih op
    | _ => exact ih
  | ext f g _ ih => exact ih

theorem someList_ne {α : Type} {l : List α} : someList l ≠ some [] := by
  unfold someList
  split
  · exact nofun
  · rename_i hn; exact fun e => hn (Option.some.inj e)

theorem scheme_made {calls : List SecOp} {b : SecuritySchemeBuilder SchemeSubtype}
    (h : SecuritySchemeBuilder.ofCalls calls = some b) : SchemeMade (schemeResult env b.scheme) := by
  refine ⟨?_, fun k hk => C46_psk_identity h hk, fun o ho => ?_⟩
  · show b.attype ≠ some []
    rw [(C46_common h).1]
    exact someList_ne
  · have ho : b.subtype = .known (.oauth2 o) := ho
    obtain ⟨c, h1, h2, _⟩ := C46_kind h
    rw [ho] at h2
    cases c with
    | combo =>
      simp only [SecCalls.subtype] at h2
      split at h2
      · cases h2
      · split at h2 <;> cases h2
    | oauth2 f => cases h2; exact someList_ne
    | _ => cases h2

theorem child_iff {L D A O : Type} {c s : Schema L D A O} : Child c s ↔
    (∃ l, s.oneOf = some l ∧ c ∈ l) ∨ ∃ st, s.subtype = some st ∧ c ∈ st.children := by
  constructor
  · intro hc
    cases hc with
    | oneOf h1 h2 => exact .inl ⟨_, h1, h2⟩
    | item h1 h2 => exact .inr ⟨_, h1, mem_children_iff.2 (.inl ⟨_, rfl, h2⟩)⟩
    | items h1 h2 h3 => exact .inr ⟨_, h1, mem_children_iff.2 (.inr (.inl ⟨_, _, rfl, h2, h3⟩))⟩
    | property h1 h2 h3 => exact .inr ⟨_, h1, mem_children_iff.2 (.inr (.inr ⟨_, _, _, rfl, h2, h3⟩))⟩
  · rintro (⟨l, h1, h2⟩ | ⟨st, h1, h2⟩)
    · exact child_oneOf h1 h2
    · exact child_subtype h1 h2

theorem child_mapLang {L L' D A O : Type} {f : L → L'} {c : Schema L' D A O} {s : Schema L D A O}
    (hc : Child c (s.mapLang f)) : ∃ d, Child d s ∧ c = d.mapLang f := by
  rcases child_iff.1 hc with ⟨l, h1, h2⟩ | ⟨st, h1, h2⟩
  · rw [mapLang_oneOf] at h1
    obtain ⟨l', hl, rfl⟩ := Option.map_eq_some_iff.1 h1
    obtain ⟨d, hd, rfl⟩ := List.mem_map.1 h2
    exact ⟨d, child_oneOf hl hd, rfl⟩
  · rw [mapLang_subtype] at h1
    obtain ⟨st', hst, rfl⟩ := Option.map_eq_some_iff.1 h1
    rw [children_map] at h2
    obtain ⟨d, hd, rfl⟩ := List.mem_map.1 h2
    exact ⟨d, child_subtype hst hd, rfl⟩

theorem mem_of_lastOf_named {A : Type} {n : String} {a : A} {l : List (String × A)}
    (h : lastOf (History.named n l) = some a) : (n, a) ∈ l := by
  obtain ⟨kv, hm, e⟩ := List.mem_filterMap.1 (lastOf_mem h)
  split at e
  · rename_i hn
    cases e
    subst hn
    exact hm
  · cases e

theorem mapMade_mapResult {A T : Type} {f : A → T} {l : List (String × A)} : MapMade (mapResult f l) := by
  intro m hm
  refine ⟨?_, sorted_mapResult hm⟩
  unfold mapResult at hm
  split at hm
  · cases hm
  · rename_i hne
    cases hm
    exact fun e => hne (List.map_eq_nil_iff.1 (collect_eq_nil.1 e))

namespace Reachable
variable (hr : Reachable X title h b)
include hr

theorem property_built {n : String} {p : PropertyBuilder X} (hp : .property n p ∈ h) : p.Built := hr.built _ hp
theorem action_built {n : String} {a : ActionBuilder X} (hp : .action n a ∈ h) : ActionReach X a := hr.built _ hp
theorem event_built {n : String} {e : EventBuilder X} (hp : .event n e ∈ h) : EventReach X e := hr.built _ hp

/-- Data schemas other than those of properties are built on their own. -/
theorem ownBuilt {p : Position} {s : UDS X} (hs : History.HasSchema h p s) (hp : p ≠ .property) : SchemaBuilt s := by
  have hrep := hr.rep
  cases hs with
  | property h1 => exact absurd rfl hp
  | input h1 h2 => exact (hr.action_built h1).facts.2.2.1 _ h2
  | output h1 h2 => exact (hr.action_built h1).facts.2.2.2 _ h2
  | subscription h1 h2 => exact (hr.event_built h1).facts.2.2.1 _ h2
  | data h1 h2 => exact (hr.event_built h1).facts.2.2.2.1 _ h2
  | cancellation h1 h2 => exact (hr.event_built h1).facts.2.2.2.2.1 _ h2
  | dataResponse h1 h2 => exact (hr.event_built h1).facts.2.2.2.2.2 _ h2
  | @uriVariable n s h1 =>
    have : .uriVariable n s ∈ h := by
      obtain ⟨op, ho, e⟩ := List.mem_filterMap.1 (mem_of_lastOf_named h1)
      split at e
      · cases e; exact ho
      · cases e
    exact hr.built _ this
  | propertyUriVariable h1 h2 => exact (hr.property_built h1).reach.facts.1.2 _ h2
  | actionUriVariable h1 h2 => exact (hr.action_built h1).facts.1.2 _ h2
  | eventUriVariable h1 h2 => exact (hr.event_built h1).facts.1.2 _ h2
  | @schemaDefinition n s h1 =>
    have : .schemaDefinition n s ∈ h := History.mem_schemaDefinitions.1 (mem_of_lastOf_named h1)
    exact hr.built _ this

/-- Nested data schemas are built on their own. -/
theorem childBuilt {p : Position} {s c : UDS X} (hs : History.HasSchema h p s) (hc : Child c s) : SchemaBuilt c := by
  by_cases hp : p = .property
  · subst hp
    cases hs with
    | property h1 =>
      have hb := (hr.property_built h1).schema.children
      rcases child_iff.1 hc with ⟨l, h2, h3⟩ | ⟨st, h2, h3⟩
      · exact hb.1 l h2 c h3
      · exact hb.2.1 st h2 c h3
  · exact (hr.ownBuilt hs hp).within (hc.within (.self _))

/-- The data schema of a property is such as builders make it. -/
theorem propertySchema {n : String} {q : PropertyBuilder X} (hq : .property n q ∈ h)
    (hk : ∀ k, KeyOf q.info.titles k ∨ KeyOf q.info.descriptions k → ∃ tag, env.langParse k = some tag)
    (hsh : SchemaShape (q.schema.mapLang (langResult env))) : SchemaMade env (q.schema.mapLang (langResult env)) := by
  have hb := hr.property_built hq
  refine ⟨hsh, ?_, ?_, ?_, ?_, ?_⟩
  · exact hb.reach.infoMade.attype
  · rw [mapLang_titles]
    intro m hm
    obtain ⟨b, hb, rfl⟩ := Option.map_eq_some_iff.1 hm
    exact made_langResult fun k hk' => hk k (.inl ⟨b, hb, hk'⟩)
  · rw [mapLang_descriptions]
    intro m hm
    obtain ⟨b, hb, rfl⟩ := Option.map_eq_some_iff.1 hm
    exact made_langResult fun k hk' => hk k (.inr ⟨b, hb, hk'⟩)
  · intro o m ho hm
    rw [mapLang_subtype] at ho
    obtain ⟨st, hst, ho⟩ := Option.map_eq_some_iff.1 ho
    cases st <;> cases ho
    obtain ⟨m', hm', rfl⟩ := Option.map_eq_some_iff.1 hm
    exact (hb.schema.children.2.2 _ _ hst hm').mapVals _
  · intro ho
    have e := hb.schema.unspecified (open_mapLang.1 ho)
    show q.dataSchema.default = none ∧ q.dataSchema.unit = none ∧ q.dataSchema.format = none ∧
      q.dataSchema.readOnly = false ∧ q.dataSchema.writeOnly = false
    rw [e]
    exact ⟨rfl, rfl, rfl, rfl, rfl⟩

variable (hb : b.build env = .ok t)
include hb

theorem buildable : Buildable env t := by
  have hv := hr.valid_of_build hb
  have ht := ((hr.ok_iff env t).1 hb).2
  have hd : ∀ n, History.Defines h n → t.Defines n := by
    rintro n ⟨s, hs, rfl⟩
    have := (hr.hasScheme hb).2 ⟨s, hs, rfl, rfl⟩
    exact List.mem_map.2 ⟨_, this, rfl⟩
  have htr : ∀ u, History.HasTranslations h u → (langResult env u).Made env := fun u hu =>
    made_langResult fun k hk => hv.languages k (langKey_iff.2 (.inl ⟨u, hu, hk⟩))
  refine
    { context := ?_, attype := ?_, profile := ?_, links := ?_, forms := ?_, properties := ?_, actions := ?_
      events := ?_, uriVariables := ?_, schemaDefinitions := ?_, interactions := ?_, securityDefinitions := ?_
      translations := ?_, eachLink := ?_, eachForm := ?_, thingForms := ?_, security := ?_, eachScheme := ?_
      eachSchema := ?_, uninformed := ?_, ranges := ?_, uriVariableTypes := ?_, eachProperty := ?_ }
  · rw [ht]
    have hw := hr.wf.contextMaps
    show contextResult b.context = _ ∨ _ 
    have e : b.context = .simple tdContext11 :: History.contexts h := by rw [hr.supplied]; rfl
    rw [e] at hw
    show contextResult b.context = _ ∨ ∃ l, l ≠ [] ∧ contextResult b.context = _ ∧ _
    rw [e]
    cases e2 : History.contexts h with
    | nil => exact .inl rfl
    | cons c cs =>
      refine .inr ⟨_, ?_, rfl, ?_⟩
      · exact nofun
      · intro j hj
        obtain ⟨d, hd, rfl⟩ := List.mem_map.1 hj
        rw [← e2] at hd
        cases d with
        | map m => exact .inr ⟨m, hw m (by simp [hd]), rfl⟩
        | simple s =>
          refine .inl ⟨s, ?_, rfl⟩
          rintro rfl
          obtain ⟨op, _, ho⟩ := List.mem_filterMap.1 hd
          split at ho
          · split at ho
            · cases ho
            · rename_i hne; cases ho; exact hne rfl
          · cases ho
          · cases ho
  · have e : b.attype = someList (History.attypes h) := by rw [hr.supplied]; rfl
    rw [ht]
    show b.attype ≠ _
    rw [e]; exact someList_ne
  · rw [ht]; exact someList_ne
  · rw [ht]
    show b.links.map _ ≠ _
    rw [hr.links]
    intro e
    obtain ⟨l, hl, e⟩ := Option.map_eq_some_iff.1 e
    rw [List.map_eq_nil_iff.1 e] at hl
    exact someList_ne hl
  · have e : b.forms = someList (History.forms h) := by rw [hr.supplied]; rfl
    rw [ht]
    show b.forms.map _ ≠ _
    rw [e]
    intro e
    obtain ⟨l, hl, e⟩ := Option.map_eq_some_iff.1 e
    rw [List.map_eq_nil_iff.1 e] at hl
    exact someList_ne hl
  · intro m hm
    rw [ht] at hm
    exact mapMade_mapResult m hm
  · intro m hm
    rw [ht] at hm
    exact mapMade_mapResult m hm
  · intro m hm
    rw [ht] at hm
    exact mapMade_mapResult m hm
  · intro m hm
    rw [ht] at hm
    obtain ⟨u, hu, rfl⟩ := Option.map_eq_some_iff.1 hm
    refine ⟨?_, (hr.wf.uriVariables u hu).mapVals _⟩
    rw [hr.uriVariables] at hu
    obtain ⟨l, hl, rfl⟩ := Option.map_eq_some_iff.1 hu
    intro e
    have := collect_eq_nil.1 (List.map_eq_nil_iff.1 e)
    rw [this] at hl
    exact someList_ne hl
  · intro m hm
    rw [ht] at hm
    have hm : (if b.schemaDefinitions = [] then none else some _) = some m := hm
    split at hm
    · cases hm
    · rename_i hne
      cases hm
      exact ⟨fun e => hne (List.map_eq_nil_iff.1 e), hr.wf.schemaDefinitions.mapVals _⟩
  · have key : ∀ (i : HumanReadableInfo) (p : PartialInteraction X X.interaction), InfoMade i → InteractionRep p →
        (interactionResult env i p).attype ≠ some [] ∧ MapMade (interactionResult env i p).uriVariables := by
      intro i p hi hp
      refine ⟨hi.attype, fun m hm => ?_⟩
      have hm : (if p.uriVariables = [] then none else some _) = some m := hm
      split at hm
      · cases hm
      · rename_i hne
        cases hm
        exact ⟨fun e => hne (List.map_eq_nil_iff.1 e), hp.1.mapVals _⟩
    intro i hi
    cases hi with
    | property h1 h2 =>
      obtain ⟨q, hq, rfl⟩ := (hr.hasProperty hb).1 ⟨_, h1, h2⟩
      have hq := (hr.property_built hq).reach
      exact key _ _ hq.infoMade hq.facts.1
    | action h1 h2 =>
      obtain ⟨q, hq, rfl⟩ := (hr.hasAction hb).1 ⟨_, h1, h2⟩
      have hq := hr.action_built hq
      exact key _ _ hq.infoMade hq.facts.1
    | event h1 h2 =>
      obtain ⟨q, hq, rfl⟩ := (hr.hasEvent hb).1 ⟨_, h1, h2⟩
      have hq := hr.event_built hq
      exact key _ _ hq.infoMade hq.facts.1
  · rw [ht]; exact HMap.collect_sorted _
  · intro m hm
    obtain ⟨u, hu, rfl⟩ := (hr.hasTranslations hb).1 hm
    exact htr u hu
  · intro ls hls l hl
    rw [ht] at hls
    obtain ⟨us, hus, rfl⟩ := Option.map_eq_some_iff.1 hls
    obtain ⟨u, hu, rfl⟩ := List.mem_map.1 hl
    rw [hr.links] at hus
    have hu : u ∈ History.links h := someList_mem.1 ⟨us, hus, hu⟩
    exact made_link (hv.linkSizes u hu) fun k hk => hv.languages k (.hreflang hu hk)
  · intro ctx f hf
    obtain ⟨g, hg, rfl⟩ := (hr.hasForm hb).1 hf
    exact ⟨made_form (hr.formReach hg), fun ops e o ho => hv.operations ctx g o hg ⟨ops, e, ho⟩,
      fun ns e n hn => hd n (hv.formSecurity ctx g n hg ⟨ns, e, hn⟩)⟩
  · intro f hf
    obtain ⟨g, hg, rfl⟩ := (hr.hasForm hb).1 hf
    cases hg with
    | thing hg =>
      refine ⟨hv.thingForms g hg, fun rs hrs r hr' n hn => ?_⟩
      have hrs : (if g.additionalResponses = [] then none else some g.additionalResponses) = some rs := hrs
      have hm : r ∈ g.additionalResponses := by
        split at hrs
        · cases hrs
        · cases hrs; exact hr'
      exact (hr.declares hb).2 (hv.responseSchemas g n hg ⟨r, hm, hn⟩)
  · have e : t.security = ((History.securities h).filter (·.required)).map securityName := by
      rw [ht]
      show b.security = _
      rw [hr.supplied]
      rfl
    rw [e]
    refine ⟨hv.securityNames.sublist (List.filter_sublist.map _), fun n hn => ?_⟩
    obtain ⟨s, hs, rfl⟩ := List.mem_map.1 hn
    exact hd _ ⟨s, (List.mem_filter.1 hs).1, rfl⟩
  · intro n s hs
    obtain ⟨q, hq, rfl, rfl⟩ := (hr.hasScheme hb).1 hs
    have hc : .common (.security q) ∈ h := by
      obtain ⟨op, ho, e⟩ := List.mem_filterMap.1 hq
      split at e
      · cases e; exact ho
      · cases e
    obtain ⟨calls, hcalls⟩ := (hr.built _ hc : ∃ calls, SecuritySchemeBuilder.ofCalls calls = some q)
    exact ⟨scheme_made hcalls, fun m hm => hd m (hv.comboReferences q hq m hm)⟩
  · intro p s x hs hx
    have hsh := hr.shape hb hs hx
    obtain ⟨u, hu, rfl⟩ := (hr.hasSchema hb).1 hs
    obtain ⟨y, hy, rfl⟩ := within_mapLang.1 hx
    rcases hr.withinBuilt hu hy with hk | ⟨n, q, hq, rfl, -⟩
    · refine hk.made.made fun k hk => hv.languages k ?_
      exact .schema hu ⟨y, hy, hk⟩
    · refine hr.propertySchema hq (fun k hk => hv.languages k ?_) hsh
      exact hk.elim (.infoTitles (.property hq)) (.infoDescriptions (.property hq))
  · intro p s hs
    obtain ⟨u, hu, rfl⟩ := (hr.hasSchema hb).1 hs
    refine ⟨fun hp => (hr.ownBuilt hu hp).made.uninformed, fun c x hc hx => ?_⟩
    obtain ⟨d, hd, rfl⟩ := child_mapLang hc
    obtain ⟨y, hy, rfl⟩ := within_mapLang.1 hx
    exact ((hr.childBuilt hu hd).within hy).made.uninformed
  · intro p s hp hs
    obtain ⟨u, hu, rfl⟩ := (hr.hasSchema hb).1 hs
    exact allRules_mapLang.2 (hv.schemas p u hp hu)
  · intro s hs
    obtain ⟨u, hu, rfl⟩ := (hr.hasSchema hb).1 hs
    exact fun ha => hv.uriVariables u hu (arrayOrObject_mapLang.1 ha)
  · intro m hm kv hkv
    obtain ⟨q, hq, e⟩ := (hr.hasProperty hb).1 ⟨m, hm, hkv⟩
    rw [e]
    refine ⟨⟨rfl, rfl, (mapLang_titles (langResult env) q.schema).symm, rfl,
      (mapLang_descriptions (langResult env) q.schema).symm⟩, fun st hst => ?_⟩
    have hst : (q.schema.mapLang (langResult env)).subtype = some (.string st) := hst
    rw [mapLang_subtype] at hst
    obtain ⟨st', h1, h2⟩ := Option.map_eq_some_iff.1 hst
    cases st' <;> cases h2
    exact (hr.property_built hq).schema.noString _ h1

end Reachable
end Wot
