import Verif.Lemmas.BuildableParts
import Verif.Lemmas.Translations
import Verif.Lemmas.BuiltStorable
/-
The calls that make a Thing.
-/
namespace Wot

variable {X : ExtTypes} {env : Env}

/-! ### Contexts -/

/-- The call that adds a context. -/
def Context.call : Context → CommonOp
  | .simple s => .context s
  | .map m => .contextMap m

/-- A context that a call adds. -/
def Context.Made : Context → Prop
  | .simple s => s ≠ tdContext11
  | .map m => HMap.Sorted m

theorem contexts_made {j : Json} (h : j = .str tdContext11 ∨
    ∃ l, l ≠ [] ∧ j = .arr (.str tdContext11 :: l) ∧ ∀ e ∈ l, ContextEntry e) :
    ∃ cs : List Context, (∀ c ∈ cs, c.Made) ∧ contextResult (.simple tdContext11 :: cs) = j := by
  rcases h with rfl | ⟨l, hl, rfl, he⟩
  · exact ⟨[], nofun, rfl⟩
  · have : ∃ cs : List Context, (∀ c ∈ cs, c.Made) ∧ (cs.map fun
      | .simple s => Json.str s
      | .map m => .obj (HMap.mapVals Json.str m)) = l := by
      clear hl
      induction l with
      | nil => exact ⟨[], nofun, rfl⟩
      | cons e l ih =>
        obtain ⟨cs, h1, h2⟩ := ih fun e h => he e (by simp [h])
        rcases he e (by simp) with ⟨s, hs, rfl⟩ | ⟨m, hm, rfl⟩
        · refine ⟨.simple s :: cs, ?_, by simp [h2]⟩
          intro c hc
          rcases List.mem_cons.1 hc with rfl | hc
          · exact hs
          · exact h1 c hc
        · refine ⟨.map m :: cs, ?_, by simp [h2]⟩
          intro c hc
          rcases List.mem_cons.1 hc with rfl | hc
          · exact hm
          · exact h1 c hc
    obtain ⟨cs, h1, h2⟩ := this
    refine ⟨cs, h1, ?_⟩
    cases cs with
    | nil => exact absurd h2.symm hl
    | cons c cs => rw [← h2]; rfl

/-! ### The history -/

/-- The scheme defined under a name. -/
def Thing.scheme (t : Thing X) (n : String) : SecurityScheme :=
  (t.securityDefinitions.get? n).getD ⟨none, none, none, none, .known .noSec⟩

/-- The security schemes, those in use first. -/
noncomputable def Thing.schemes (env : Env) (t : Thing X) : List (SecuritySchemeBuilder SchemeSubtype) :=
  t.security.map (fun n => unScheme env (t.scheme n) n true) ++
  (t.securityDefinitions.filter fun kv => decide (kv.1 ∉ t.security)).map fun kv => unScheme env kv.2 kv.1 false

/-- The call that adds a link. -/
noncomputable def linkCall (l : UncheckedLink) : CommonOp :=
  .linkWith [] l.href (link_calls l).choose

/-- Calls that make all of a Thing but the context. -/
noncomputable def Thing.rest (env : Env) (t : Thing X) : List (ThingOp X) :=
  t.id.toList.map (fun v => .common (.id v)) ++
  (t.attype.getD []).map (fun v => .common (.attype v)) ++
  t.titles.toList.map (fun m => .common (.titles (unLang env m).values)) ++
  t.description.toList.map (fun v => .common (.description v)) ++
  t.descriptions.toList.map (fun m => .common (.descriptions (unLang env m).values)) ++
  t.version.toList.map (fun v => .common (.version v)) ++
  t.created.toList.map (fun v => .common (.created v)) ++
  t.modified.toList.map (fun v => .common (.modified v)) ++
  t.support.toList.map (fun v => .common (.support v)) ++
  t.base.toList.map (fun v => .common (.base v)) ++
  (t.links.getD []).map (fun l => .common (linkCall (unLink env l))) ++
  (t.schemes env).map (fun s => .common (.security s)) ++
  (t.profile.getD []).map (fun v => .common (.profile v)) ++
  (t.forms.getD []).map (fun f => .form (unForm f)) ++
  (t.uriVariables.getD []).map (fun kv => .uriVariable kv.1 (kv.2.mapLang (unLang env))) ++
  (t.properties.getD []).map (fun kv => .property kv.1 (unProperty env kv.2)) ++
  (t.actions.getD []).map (fun kv => .action kv.1 (unAction env kv.2)) ++
  (t.events.getD []).map (fun kv => .event kv.1 (unEvent env kv.2)) ++
  (t.schemaDefinitions.getD []).map (fun kv => .schemaDefinition kv.1 (kv.2.mapLang (unLang env))) ++
  [.setOther t.other]

/-- Calls that make a Thing. -/
noncomputable def Thing.calls (env : Env) (t : Thing X) (cs : List Context) : List (ThingOp X) :=
  cs.map (fun c => .common c.call) ++ t.rest env

section
variable (env : Env) (t : Thing X) (cs : List Context)

theorem filterMap_none' {α β : Type} (l : List α) : l.filterMap (fun _ => (none : Option β)) = [] := by
  induction l <;> simp_all

theorem filterMap_some' {α β : Type} (l : List α) (f : α → β) : l.filterMap (fun a => some (f a)) = l.map f := by
  induction l <;> simp_all

theorem calls_filterMap {β : Type} (f : ThingOp X → Option β) (h1 : ∀ v, f (.common (.context v)) = none)
    (h2 : ∀ v, f (.common (.contextMap v)) = none) : (t.calls env cs).filterMap f = (t.rest env).filterMap f := by
  unfold Thing.calls
  rw [List.filterMap_append]
  suffices h : (cs.map fun c => ThingOp.common c.call).filterMap f = [] by rw [h, List.nil_append]
  induction cs with
  | nil => rfl
  | cons c cs ih =>
    rw [List.map_cons, List.filterMap_cons, ih]
    cases c <;> simp [Context.call, h1, h2]

local macro "extract" : tactic => `(tactic| (
  rw [calls_filterMap env t cs _ (fun _ => rfl) (fun _ => rfl)]
  unfold Thing.rest
  simp only [List.filterMap_append, List.filterMap_map, Function.comp_def, filterMap_none', linkCall,
    List.filterMap_cons, List.filterMap_nil, List.nil_append, List.append_nil]
  try rw [filterMap_some']
  try exact List.map_id' _))

theorem ids_calls : History.ids (t.calls env cs) = t.id.toList := by unfold History.ids; extract
theorem descriptionTexts_calls : History.descriptionTexts (t.calls env cs) = t.description.toList := by
  unfold History.descriptionTexts; extract
theorem versions_calls : History.versions (t.calls env cs) = t.version.toList := by
  unfold History.versions; extract
theorem createds_calls : History.createds (t.calls env cs) = t.created.toList := by
  unfold History.createds; extract
theorem modifieds_calls : History.modifieds (t.calls env cs) = t.modified.toList := by
  unfold History.modifieds; extract
theorem supports_calls : History.supports (t.calls env cs) = t.support.toList := by
  unfold History.supports; extract
theorem bases_calls : History.bases (t.calls env cs) = t.base.toList := by
  unfold History.bases; extract
theorem attypes_calls : History.attypes (t.calls env cs) = t.attype.getD [] := by
  unfold History.attypes; extract
theorem titles_calls :
    History.titles (t.calls env cs) = t.titles.toList.map fun m => (unLang env m).values := by
  unfold History.titles; extract
theorem descriptions_calls :
    History.descriptions (t.calls env cs) = t.descriptions.toList.map fun m => (unLang env m).values := by
  unfold History.descriptions; extract
theorem securities_calls : History.securities (t.calls env cs) = t.schemes env := by
  unfold History.securities; extract
theorem profiles_calls : History.profiles (t.calls env cs) = t.profile.getD [] := by
  unfold History.profiles; extract
theorem forms_calls : History.forms (t.calls env cs) = (t.forms.getD []).map unForm := by
  unfold History.forms; extract
theorem uriVariables_calls : History.uriVariables (t.calls env cs) =
    HMap.mapVals (Schema.mapLang (unLang env)) (t.uriVariables.getD []) := by
  unfold History.uriVariables; extract; rfl
theorem properties_calls : History.properties (t.calls env cs) =
    HMap.mapVals (unProperty env) (t.properties.getD []) := by
  unfold History.properties; extract; rfl
theorem actions_calls : History.actions (t.calls env cs) =
    HMap.mapVals (unAction env) (t.actions.getD []) := by
  unfold History.actions; extract; rfl
theorem events_calls : History.events (t.calls env cs) =
    HMap.mapVals (unEvent env) (t.events.getD []) := by
  unfold History.events; extract; rfl
theorem schemaDefinitions_calls : History.schemaDefinitions (t.calls env cs) =
    HMap.mapVals (Schema.mapLang (unLang env)) (t.schemaDefinitions.getD []) := by
  unfold History.schemaDefinitions; extract; rfl
theorem links_calls : History.links (t.calls env cs) = (t.links.getD []).map (unLink env) := by
  unfold History.links; extract
  exact List.map_congr_left fun l _ => (link_calls (unLink env l)).choose_spec

theorem contexts_append {l r : List (ThingOp X)} :
    History.contexts (l ++ r) = History.contexts l ++ History.contexts r := by
  unfold History.contexts
  rw [List.filterMap_append]

theorem contexts_rest : History.contexts (t.rest env) = [] := by
  unfold History.contexts Thing.rest
  simp only [List.filterMap_append, List.filterMap_map, Function.comp_def, filterMap_none', linkCall,
    List.filterMap_cons, List.filterMap_nil, List.append_nil]

theorem contexts_calls (h : ∀ c ∈ cs, c.Made) : History.contexts (t.calls env cs) = cs := by
  unfold Thing.calls
  rw [contexts_append, contexts_rest, List.append_nil]
  unfold History.contexts
  induction cs with
  | nil => rfl
  | cons c cs ih =>
    rw [List.map_cons, List.filterMap_cons, ih fun c hc => h c (by simp [hc])]
    have := h c (by simp)
    cases c with
    | simple s => simp only [Context.call, if_neg (show ¬ s = tdContext11 from this)]
    | map m => simp only [Context.call, HMap.collect_of_sorted this]

end

/-! ### The parts of a buildable Thing -/

theorem HMap.Sorted.ext_mem {V : Type} {m m' : HMap V} (h : HMap.Sorted m) (h' : HMap.Sorted m')
    (he : ∀ k v, (k, v) ∈ m ↔ (k, v) ∈ m') : m = m' :=
  h.ext h' fun k => Option.ext fun v => by
    rw [HMap.get?_eq_some_iff h.nodup, HMap.get?_eq_some_iff h'.nodup, he]

namespace Buildable
variable {t : Thing X} (h : Buildable env t)
include h

theorem allMade {p : Position} {s : DS X} (hs : t.HasSchema p s) (hp : p ≠ .property) : AllMade env s := by
  intro x hx
  refine ⟨h.eachSchema p s x hs hx, ?_⟩
  have hu := h.uninformed p s hs
  cases hx with
  | self => exact hu.1 hp
  | oneOf h1 h2 h3 => exact hu.2 _ _ (.oneOf h1 h2) h3
  | item h1 h2 h3 => exact hu.2 _ _ (.item h1 h2) h3
  | items h1 h2 h3 h4 => exact hu.2 _ _ (.items h1 h2 h3) h4
  | property h1 h2 h3 h4 => exact hu.2 _ _ (.property h1 h2 h3) h4

theorem childMade {p : Position} {s c : DS X} (hs : t.HasSchema p s) (hc : Child c s) : AllMade env c :=
  fun x hx => ⟨h.eachSchema p s x hs (hc.within hx), (h.uninformed p s hs).2 c x hc hx⟩

theorem interactionMade {i : Interaction X} (hi : t.HasInteraction i)
    (hf : ∀ f ∈ i.forms, ∃ ctx, t.HasForm ctx f)
    (hu : ∀ u, i.uriVariables = some u → ∀ kv ∈ u, t.HasSchema .uriVariable kv.2) : InteractionMade env i :=
  ⟨(h.interactions i hi).1, fun m hm => h.translations m (.interactionTitles hi hm),
    fun m hm => h.translations m (.interactionDescriptions hi hm),
    fun f hm => (hf f hm).elim fun ctx hf => (h.eachForm ctx f hf).1, (h.interactions i hi).2,
    fun u hu' kv hkv => h.allMade (hu u hu' kv hkv) nofun⟩

theorem propertyMade {m : HMap (PropertyAffordance X)} (hm : t.properties = some m) {n : String}
    {p : PropertyAffordance X} (hp : (n, p) ∈ m) : InteractionMade env p.interaction :=
  h.interactionMade (.property hm hp) (fun _ hf => ⟨_, .property hm hp hf⟩)
    fun _ hu _ hkv => .propertyUriVariable hm hp hu hkv

theorem actionMade {m : HMap (ActionAffordance X)} (hm : t.actions = some m) {n : String}
    {p : ActionAffordance X} (hp : (n, p) ∈ m) : InteractionMade env p.interaction :=
  h.interactionMade (.action hm hp) (fun _ hf => ⟨_, .action hm hp hf⟩)
    fun _ hu _ hkv => .actionUriVariable hm hp hu hkv

theorem eventMade {m : HMap (EventAffordance X)} (hm : t.events = some m) {n : String}
    {p : EventAffordance X} (hp : (n, p) ∈ m) : InteractionMade env p.interaction :=
  h.interactionMade (.event hm hp) (fun _ hf => ⟨_, .event hm hp hf⟩)
    fun _ hu _ hkv => .eventUriVariable hm hp hu hkv

theorem schemeMem {n : String} (hn : n ∈ t.security) : (n, t.scheme n) ∈ t.securityDefinitions := by
  obtain ⟨⟨k, s⟩, hs, e⟩ := List.mem_map.1 (h.security.2 n hn)
  cases e
  unfold Thing.scheme
  rw [(HMap.get?_eq_some_iff h.securityDefinitions.nodup).2 hs]
  exact hs

/-- Every security scheme handed over stands for a definition. -/
theorem ofScheme {s : SecuritySchemeBuilder SchemeSubtype} (hs : s ∈ t.schemes env) :
    ∃ n d r, (n, d) ∈ t.securityDefinitions ∧ s = unScheme env d n r := by
  rcases List.mem_append.1 hs with hs | hs
  · obtain ⟨n, hn, rfl⟩ := List.mem_map.1 hs
    exact ⟨_, _, _, h.schemeMem hn, rfl⟩
  · obtain ⟨⟨n, d⟩, hn, rfl⟩ := List.mem_map.1 hs
    exact ⟨_, _, _, (List.mem_filter.1 hn).1, rfl⟩

theorem toScheme {n : String} {d : SecurityScheme} (hd : (n, d) ∈ t.securityDefinitions) :
    ∃ r, unScheme env d n r ∈ t.schemes env := by
  by_cases hn : n ∈ t.security
  · refine ⟨true, List.mem_append.2 (.inl (List.mem_map.2 ⟨n, hn, ?_⟩))⟩
    unfold Thing.scheme
    rw [(HMap.get?_eq_some_iff h.securityDefinitions.nodup).2 hd]
    rfl
  · exact ⟨false, List.mem_append.2 (.inr (List.mem_map.2 ⟨(n, d), List.mem_filter.2 ⟨hd, by simpa using hn⟩, rfl⟩))⟩

omit h in
theorem schemeNames : ((t.schemes env).map securityName) =
    t.security ++ (HMap.keys t.securityDefinitions).filter fun n => decide (n ∉ t.security) := by
  unfold Thing.schemes HMap.keys
  rw [List.map_append, List.map_map, List.map_map, List.filter_map]
  congr 1
  exact (List.map_congr_left fun n _ => rfl).trans (List.map_id _)

theorem schemeNodup : ((t.schemes env).map securityName).Nodup := by
  rw [schemeNames]
  refine List.nodup_append.2 ⟨h.security.1, (show (HMap.keys t.securityDefinitions).Nodup from
    h.securityDefinitions.nodup).filter _, ?_⟩
  rintro a ha b hb rfl
  simpa [ha] using (List.mem_filter.1 hb).2

omit h in
theorem required : ((t.schemes env).filter (·.required)).map securityName = t.security := by
  unfold Thing.schemes
  rw [List.filter_append, List.filter_map, List.filter_map]
  have e1 : (t.security.filter ((fun s : SecuritySchemeBuilder SchemeSubtype => s.required) ∘
      fun n => unScheme env (t.scheme n) n true)) = t.security :=
    List.filter_eq_self.2 fun _ _ => rfl
  have e2 : ∀ l : List (String × SecurityScheme),
      (l.filter ((fun s : SecuritySchemeBuilder SchemeSubtype => s.required) ∘
        fun kv => unScheme env kv.2 kv.1 false)) = [] :=
    fun l => List.filter_eq_nil_iff.2 fun _ _ => nofun
  rw [e1, e2, List.map_nil, List.append_nil, List.map_map]
  exact (List.map_congr_left fun n _ => rfl).trans (List.map_id _)

theorem definitions : HMap.collect (((t.schemes env).map fun s => (securityName s, s.scheme)).map
    fun kv => (kv.1, schemeResult env kv.2)) = t.securityDefinitions := by
  have hn : (((t.schemes env).map fun s => (securityName s, s.scheme)).map (·.1)).Nodup := by
    rw [List.map_map]; exact h.schemeNodup
  refine HMap.Sorted.ext_mem (HMap.collect_sorted _) h.securityDefinitions fun k d => ?_
  rw [mem_collect (schemeResult env) hn]
  have hr : ∀ n d r, (n, d) ∈ t.securityDefinitions → schemeResult env (unScheme env d n r).scheme = d :=
    fun n d r hd => schemeResult_unScheme (fun m hm => h.translations m (.security hd hm)) n r
  constructor
  · rintro ⟨u, hu, rfl⟩
    obtain ⟨s, hs, e⟩ := List.mem_map.1 hu
    obtain ⟨n, d, r, hd, rfl⟩ := h.ofScheme hs
    cases e
    rw [hr _ _ _ hd]
    exact hd
  · intro hd
    obtain ⟨r, hs⟩ := h.toScheme hd
    exact ⟨_, List.mem_map.2 ⟨_, hs, rfl⟩, (hr _ _ _ hd).symm⟩

end Buildable

theorem someList_getD {α : Type} {o : Option (List α)} (h : o ≠ some []) : someList (o.getD []) = o := by
  rcases o with _ | (_ | ⟨a, l⟩)
  · rfl
  · exact absurd rfl h
  · rfl

theorem lastOf_toList {α : Type} (o : Option α) : lastOf o.toList = o := by cases o <;> rfl

theorem lastOf_toList_map {α β : Type} (o : Option α) (f : α → β) : lastOf (o.toList.map f) = o.map f := by
  cases o <;> rfl

theorem someList_map {α β : Type} {o : Option (List α)} (f : α → β) (h : o ≠ some []) :
    someList ((o.getD []).map f) = o.map (List.map f) := by
  rcases o with _ | (_ | ⟨a, l⟩)
  · rfl
  · exact absurd rfl h
  · rfl

theorem mapResult_mapVals {A T : Type} {o : Option (HMap T)} (g : T → A) (f : A → T) (h : MapMade o)
    (hf : ∀ m, o = some m → ∀ kv ∈ m, f (g kv.2) = kv.2) : mapResult f (HMap.mapVals g (o.getD [])) = o := by
  cases o with
  | none => rfl
  | some m =>
    obtain ⟨hne, hs⟩ := h m rfl
    unfold mapResult
    rw [if_neg (by cases m with | nil => exact absurd rfl hne | cons _ _ => exact nofun)]
    unfold HMap.mapVals
    rw [List.map_map]
    have e : (m.map ((fun kv : String × A => (kv.1, f kv.2)) ∘ fun kv => (kv.1, g kv.2))) = m :=
      (List.map_congr_left fun kv hkv => by simp [hf m rfl kv hkv]).trans (List.map_id _)
    rw [Option.getD_some, e, HMap.collect_of_sorted hs]

namespace Buildable
variable {t : Thing X} (h : Buildable env t)
include h

/-- All calls are made with built arguments. -/
theorem callsBuilt {cs : List Context} : ∀ op ∈ t.calls env cs, op.Built := by
  intro op hop
  unfold Thing.calls Thing.rest at hop
  simp only [List.mem_append, List.mem_map, List.mem_singleton, or_assoc] at hop
  rcases hop with ⟨c, _, rfl⟩ | ⟨v, _, rfl⟩ | ⟨v, _, rfl⟩ | ⟨v, _, rfl⟩ | ⟨v, _, rfl⟩ | ⟨v, _, rfl⟩ | ⟨v, _, rfl⟩ |
    ⟨v, _, rfl⟩ | ⟨v, _, rfl⟩ | ⟨v, _, rfl⟩ | ⟨v, _, rfl⟩ | ⟨v, _, rfl⟩ | ⟨s, hs, rfl⟩ | ⟨v, _, rfl⟩ | ⟨f, hf, rfl⟩ |
    ⟨kv, hm, rfl⟩ | ⟨kv, hm, rfl⟩ | ⟨kv, hm, rfl⟩ | ⟨kv, hm, rfl⟩ | ⟨kv, hm, rfl⟩ | rfl
  · cases c <;> trivial
  all_goals try trivial
  · obtain ⟨n, d, r, hd, rfl⟩ := h.ofScheme hs
    exact scheme_calls (h.eachScheme n d hd).1 n r
  · cases e : t.forms with
    | none => rw [e] at hf; cases hf
    | some fs => rw [e] at hf; exact formReach_unForm (h.eachForm .thing f (.thing e hf)).1
  · cases e : t.uriVariables with
    | none => rw [e] at hm; cases hm
    | some m => rw [e] at hm; exact schemaBuilt_unLang (h.allMade (.uriVariable e hm) nofun)
  · cases e : t.properties with
    | none => rw [e] at hm; cases hm
    | some m =>
      rw [e] at hm
      exact built_unProperty (h.propertyMade e hm) (h.eachSchema _ _ _ (.property e hm) (.self _))
        (fun c hc => h.childMade (.property e hm) hc) (h.eachProperty m e kv hm).2
  · cases e : t.actions with
    | none => rw [e] at hm; cases hm
    | some m =>
      rw [e] at hm
      exact actionReach_unAction (h.actionMade e hm) (fun s hs => h.allMade (.input e hm hs) nofun)
        (fun s hs => h.allMade (.output e hm hs) nofun)
  · cases e : t.events with
    | none => rw [e] at hm; cases hm
    | some m =>
      rw [e] at hm
      exact eventReach_unEvent (h.eventMade e hm)
        (fun s hs => h.allMade (.subscription e hm hs) nofun) (fun s hs => h.allMade (.data e hm hs) nofun)
        (fun s hs => h.allMade (.dataResponse e hm hs) nofun) (fun s hs => h.allMade (.cancellation e hm hs) nofun)
  · cases e : t.schemaDefinitions with
    | none => rw [e] at hm; cases hm
    | some m => rw [e] at hm; exact schemaBuilt_unLang (h.allMade (.schemaDefinition e hm) nofun)

theorem supplied {cs : List Context} (hc : ∀ c ∈ cs, c.Made)
    (hx : contextResult (.simple tdContext11 :: cs) = t.context) :
    (History.supplied t.title (t.calls env cs) t.other).result env = t := by
  have hl : (t.links.map (List.map (unLink env))).map (List.map (linkResult env)) = t.links := by
    cases e : t.links with
    | none => rfl
    | some ls =>
      simp only [Option.map_some, List.map_map]
      exact congrArg some ((List.map_congr_left fun l hl => linkResult_unLink (h.eachLink ls e l hl)).trans
        (List.map_id _))
  have hf : (t.forms.map (List.map unForm)).map (List.map FormBuilder.result) = t.forms := by
    cases e : t.forms with
    | none => rfl
    | some fs =>
      simp only [Option.map_some, List.map_map]
      exact congrArg some ((List.map_congr_left fun f hf =>
        result_unForm (h.eachForm .thing f (.thing e hf)).1).trans (List.map_id _))
  have hp := mapResult_mapVals (unProperty env) (PropertyBuilder.result env) h.properties
    fun m hm kv hkv => result_unProperty (h.propertyMade hm hkv)
      (fun x hx => h.eachSchema _ _ _ (.property hm hkv) hx) (h.eachProperty m hm kv hkv).1
  have ha := mapResult_mapVals (unAction env) (ActionBuilder.result env) h.actions
    fun m hm kv hkv => result_unAction (h.actionMade hm hkv)
      (fun s hs => h.allMade (.input hm hkv hs) nofun) (fun s hs => h.allMade (.output hm hkv hs) nofun)
  have he := mapResult_mapVals (unEvent env) (EventBuilder.result env) h.events
    fun m hm kv hkv => result_unEvent (h.eventMade hm hkv)
      (fun s hs => h.allMade (.subscription hm hkv hs) nofun) (fun s hs => h.allMade (.data hm hkv hs) nofun)
      (fun s hs => h.allMade (.dataResponse hm hkv hs) nofun) (fun s hs => h.allMade (.cancellation hm hkv hs) nofun)
  have hu : ((someList (HMap.mapVals (Schema.mapLang (unLang env)) (t.uriVariables.getD []))).map HMap.collect).map
      (HMap.mapVals (Schema.mapLang (langResult env))) = t.uriVariables := by
    cases e : t.uriVariables with
    | none => rfl
    | some u =>
      obtain ⟨hne, hs⟩ := h.uriVariables u e
      rw [Option.getD_some, someList, if_neg (by cases u with | nil => exact absurd rfl hne | cons _ _ => exact nofun)]
      simp only [Option.map_some]
      rw [HMap.collect_of_sorted (hs.mapVals _), mapVals_unLang fun kv hkv x hx => h.eachSchema _ _ x (.uriVariable e hkv) hx]
  have hd : (if HMap.collect (HMap.mapVals (Schema.mapLang (unLang env)) (t.schemaDefinitions.getD [])) = [] then none
      else some (HMap.mapVals (Schema.mapLang (langResult env))
        (HMap.collect (HMap.mapVals (Schema.mapLang (unLang env)) (t.schemaDefinitions.getD []))))) =
      t.schemaDefinitions := by
    cases e : t.schemaDefinitions with
    | none => rfl
    | some u =>
      obtain ⟨hne, hs⟩ := h.schemaDefinitions u e
      rw [Option.getD_some, HMap.collect_of_sorted (hs.mapVals _),
        if_neg (by cases u with | nil => exact absurd rfl hne | cons _ _ => exact nofun),
        mapVals_unLang fun kv hkv x hx => h.eachSchema _ _ x (.schemaDefinition e hkv) hx]
  have hpr : (if t.profile.getD [] = [] then none else some (t.profile.getD [])) = t.profile := someList_getD h.profile
  have lang : ∀ o : Option MultiLanguage, (∀ m, o = some m → m.Made env) →
      ((o.map fun m => (unLang env m).values).map fun c => (⟨HMap.collect c⟩ : MultiLanguageBuilder)).map
        (langResult env) = o := by
    intro o ho
    cases o with
    | none => rfl
    | some m =>
      simp only [Option.map_some]
      have hs : HMap.Sorted (unLang env m).values := HMap.collect_sorted _
      rw [HMap.collect_of_sorted hs]
      exact congrArg some (langResult_unLang (ho m rfl))
  unfold ThingBuilder.result History.supplied
  simp only [ids_calls, descriptionTexts_calls, versions_calls, createds_calls, modifieds_calls, supports_calls,
    bases_calls, attypes_calls, titles_calls, descriptions_calls, securities_calls, profiles_calls, forms_calls,
    uriVariables_calls, properties_calls, actions_calls, events_calls, schemaDefinitions_calls, links_calls,
    contexts_calls env t cs hc, lastOf_toList, lastOf_toList_map, someList_getD h.attype, hx, someList_map _ h.links,
    someList_map _ h.forms, hl, hf, hp, ha, he, hu, hd, hpr, Buildable.required, h.definitions,
    lang _ fun m hm => h.translations m (.titles hm), lang _ fun m hm => h.translations m (.descriptions hm)]

/-! The calls are valid. -/

omit h in
theorem propertyCall {cs : List Context} {n : String} {p : PropertyBuilder X} (hp : .property n p ∈ t.calls env cs) :
    ∃ m q, t.properties = some m ∧ (n, q) ∈ m ∧ p = unProperty env q := by
  have := History.mem_properties.2 hp
  rw [properties_calls] at this
  obtain ⟨q, hq, rfl⟩ := mem_mapVals.1 this
  cases e : t.properties with
  | none => rw [e] at hq; cases hq
  | some m => rw [e] at hq; exact ⟨m, q, rfl, hq, rfl⟩

omit h in
theorem actionCall {cs : List Context} {n : String} {p : ActionBuilder X} (hp : .action n p ∈ t.calls env cs) :
    ∃ m q, t.actions = some m ∧ (n, q) ∈ m ∧ p = unAction env q := by
  have := History.mem_actions.2 hp
  rw [actions_calls] at this
  obtain ⟨q, hq, rfl⟩ := mem_mapVals.1 this
  cases e : t.actions with
  | none => rw [e] at hq; cases hq
  | some m => rw [e] at hq; exact ⟨m, q, rfl, hq, rfl⟩

omit h in
theorem eventCall {cs : List Context} {n : String} {p : EventBuilder X} (hp : .event n p ∈ t.calls env cs) :
    ∃ m q, t.events = some m ∧ (n, q) ∈ m ∧ p = unEvent env q := by
  have := History.mem_events.2 hp
  rw [events_calls] at this
  obtain ⟨q, hq, rfl⟩ := mem_mapVals.1 this
  cases e : t.events with
  | none => rw [e] at hq; cases hq
  | some m => rw [e] at hq; exact ⟨m, q, rfl, hq, rfl⟩

omit h in
theorem formCall {cs : List Context} {f : FormBuilder X} (hf : .form f ∈ t.calls env cs) :
    ∃ g, t.HasForm .thing g ∧ f = unForm g := by
  have := History.mem_forms.2 hf
  rw [forms_calls] at this
  obtain ⟨g, hg, rfl⟩ := List.mem_map.1 this
  cases e : t.forms with
  | none => rw [e] at hg; cases hg
  | some m => rw [e] at hg; exact ⟨g, .thing e hg, rfl⟩

omit h in
theorem anyFormCall {cs : List Context} {ctx : FormContext} {f : FormBuilder X}
    (hf : History.HasForm (t.calls env cs) ctx f) : ∃ g, t.HasForm ctx g ∧ f = unForm g := by
  cases hf with
  | thing h1 => exact formCall h1
  | property h1 h2 =>
    obtain ⟨m, q, hm, hq, rfl⟩ := propertyCall h1
    obtain ⟨g, hg, rfl⟩ := List.mem_map.1 h2
    exact ⟨g, .property hm hq hg, rfl⟩
  | action h1 h2 =>
    obtain ⟨m, q, hm, hq, rfl⟩ := actionCall h1
    obtain ⟨g, hg, rfl⟩ := List.mem_map.1 h2
    exact ⟨g, .action hm hq hg, rfl⟩
  | event h1 h2 =>
    obtain ⟨m, q, hm, hq, rfl⟩ := eventCall h1
    obtain ⟨g, hg, rfl⟩ := List.mem_map.1 h2
    exact ⟨g, .event hm hq hg, rfl⟩

omit h in
theorem mem_getD {V : Type} {o : Option (HMap V)} {k : String} {v : V} (hm : (k, v) ∈ o.getD []) :
    ∃ m, o = some m ∧ (k, v) ∈ m := by
  cases o with
  | none => cases hm
  | some m => exact ⟨m, rfl, hm⟩

theorem schemaCall {cs : List Context} {p : Position} {s : UDS X}
    (hs : History.HasSchema (t.calls env cs) p s) : ∃ c, t.HasSchema p c ∧ s = c.mapLang (unLang env) := by
  have sub : ∀ {o : Option (DS X)}, o.map (Schema.mapLang (unLang env)) = some s →
      ∃ c, o = some c ∧ s = c.mapLang (unLang env) := fun he => by
    obtain ⟨c, hc, rfl⟩ := Option.map_eq_some_iff.1 he
    exact ⟨c, hc, rfl⟩
  have look : ∀ {o : Option (HMap (DS X))} {n : String}, MapMade o →
      lastOf (History.named n (HMap.mapVals (Schema.mapLang (unLang env)) (o.getD []))) = some s →
      ∃ m c, o = some m ∧ (n, c) ∈ m ∧ s = c.mapLang (unLang env) := fun {o n} hm he => by
    rw [← mem_collect_iff] at he
    have hso : HMap.Sorted (o.getD []) := by
      cases o with
      | none => exact HMap.sorted_nil
      | some m => exact (hm m rfl).2
    rw [HMap.collect_of_sorted (hso.mapVals _)] at he
    obtain ⟨c, hc, rfl⟩ := mem_mapVals.1 he
    obtain ⟨m, rfl, hm'⟩ := mem_getD hc
    exact ⟨m, c, rfl, hm', rfl⟩
  cases hs with
  | property h1 =>
    obtain ⟨m, q, hm, hq, rfl⟩ := propertyCall h1
    exact ⟨_, .property hm hq, schema_unProperty (h.eachProperty m hm _ hq).1⟩
  | input h1 h2 =>
    obtain ⟨m, q, hm, hq, rfl⟩ := actionCall h1
    obtain ⟨c, hc, e⟩ := sub h2
    exact ⟨c, .input hm hq hc, e⟩
  | output h1 h2 =>
    obtain ⟨m, q, hm, hq, rfl⟩ := actionCall h1
    obtain ⟨c, hc, e⟩ := sub h2
    exact ⟨c, .output hm hq hc, e⟩
  | subscription h1 h2 =>
    obtain ⟨m, q, hm, hq, rfl⟩ := eventCall h1
    obtain ⟨c, hc, e⟩ := sub h2
    exact ⟨c, .subscription hm hq hc, e⟩
  | data h1 h2 =>
    obtain ⟨m, q, hm, hq, rfl⟩ := eventCall h1
    obtain ⟨c, hc, e⟩ := sub h2
    exact ⟨c, .data hm hq hc, e⟩
  | cancellation h1 h2 =>
    obtain ⟨m, q, hm, hq, rfl⟩ := eventCall h1
    obtain ⟨c, hc, e⟩ := sub h2
    exact ⟨c, .cancellation hm hq hc, e⟩
  | dataResponse h1 h2 =>
    obtain ⟨m, q, hm, hq, rfl⟩ := eventCall h1
    obtain ⟨c, hc, e⟩ := sub h2
    exact ⟨c, .dataResponse hm hq hc, e⟩
  | uriVariable h1 =>
    rw [uriVariables_calls] at h1
    obtain ⟨m, c, hm, hc, e⟩ := look h.uriVariables h1
    exact ⟨c, .uriVariable hm hc, e⟩
  | propertyUriVariable h1 h2 =>
    obtain ⟨m, q, hm, hq, rfl⟩ := propertyCall h1
    obtain ⟨u, c, hu, hc, e⟩ := mem_unPart h2
    exact ⟨c, .propertyUriVariable hm hq hu hc, e⟩
  | actionUriVariable h1 h2 =>
    obtain ⟨m, q, hm, hq, rfl⟩ := actionCall h1
    obtain ⟨u, c, hu, hc, e⟩ := mem_unPart h2
    exact ⟨c, .actionUriVariable hm hq hu hc, e⟩
  | eventUriVariable h1 h2 =>
    obtain ⟨m, q, hm, hq, rfl⟩ := eventCall h1
    obtain ⟨u, c, hu, hc, e⟩ := mem_unPart h2
    exact ⟨c, .eventUriVariable hm hq hu hc, e⟩
  | schemaDefinition h1 =>
    rw [schemaDefinitions_calls] at h1
    obtain ⟨m, c, hm, hc, e⟩ := look h.schemaDefinitions h1
    exact ⟨c, .schemaDefinition hm hc, e⟩

theorem defines {cs : List Context} {n : String} (hd : t.Defines n) : History.Defines (t.calls env cs) n := by
  obtain ⟨⟨k, d⟩, hm, rfl⟩ := List.mem_map.1 hd
  obtain ⟨r, hs⟩ := h.toScheme hm
  exact ⟨_, by rw [securities_calls]; exact hs, rfl⟩

theorem infoCall {cs : List Context} {i : HumanReadableInfo} (hi : History.HasInfo (t.calls env cs) i) {k : String}
    (hk : KeyOf i.titles k ∨ KeyOf i.descriptions k) : ∃ tag, env.langParse k = some tag := by
  cases hi with
  | property h1 =>
    obtain ⟨m, q, hm, hq, rfl⟩ := propertyCall h1
    exact (h.propertyMade hm hq).keys hk
  | action h1 =>
    obtain ⟨m, q, hm, hq, rfl⟩ := actionCall h1
    exact (h.actionMade hm hq).keys hk
  | event h1 =>
    obtain ⟨m, q, hm, hq, rfl⟩ := eventCall h1
    exact (h.eventMade hm hq).keys hk

omit h in
theorem names {T A : Type} {o : Option (HMap T)} (g : T → A) (h : MapMade o) :
    ((HMap.mapVals g (o.getD [])).map (·.1)).Nodup := by
  have : HMap.Sorted (o.getD []) := by
    cases o with
    | none => exact HMap.sorted_nil
    | some m => exact (h m rfl).2
  exact (this.mapVals g).nodup

theorem valid {cs : List Context} : History.Valid env (t.calls env cs) where
  securityNames := by rw [securities_calls]; exact h.schemeNodup
  comboReferences := by
    intro s hs n hn
    rw [securities_calls] at hs
    obtain ⟨k, d, r, hd, rfl⟩ := h.ofScheme hs
    exact h.defines ((h.eachScheme k d hd).2 n hn)
  formSecurity := by
    intro ctx f n hf hn
    obtain ⟨g, hg, rfl⟩ := anyFormCall hf
    obtain ⟨ns, e, hn⟩ := hn
    exact h.defines ((h.eachForm ctx g hg).2.2 ns e n hn)
  thingForms := by
    intro f hf
    obtain ⟨g, hg, rfl⟩ := formCall hf
    exact (h.thingForms g hg).1
  operations := by
    intro ctx f o hf ho
    obtain ⟨g, hg, rfl⟩ := anyFormCall hf
    obtain ⟨ops, e, ho⟩ := ho
    exact (h.eachForm ctx g hg).2.1 ops e o ho
  responseSchemas := by
    intro f n hf hn
    obtain ⟨g, hg, rfl⟩ := formCall hf
    obtain ⟨r, hr, hn⟩ := hn
    have hd : t.Declares n := by
      cases e : g.additionalResponses with
      | none => simp [unForm, e] at hr
      | some rs => exact (h.thingForms g hg).2 rs e r (by simpa [unForm, e] using hr) n hn
    obtain ⟨m, hm, hk⟩ := hd
    obtain ⟨⟨k, c⟩, hc, rfl⟩ := List.mem_map.1 hk
    refine ⟨c.mapLang (unLang env), ?_⟩
    rw [← History.mem_schemaDefinitions, schemaDefinitions_calls, hm]
    exact mem_mapVals.2 ⟨c, hc, rfl⟩
  schemas := by
    intro p s hp hs
    obtain ⟨c, hc, rfl⟩ := h.schemaCall hs
    exact allRules_mapLang.2 (h.ranges p c hp hc)
  uriVariables := by
    intro s hs
    obtain ⟨c, hc, rfl⟩ := h.schemaCall hs
    exact fun ha => h.uriVariableTypes c hc (arrayOrObject_mapLang.1 ha)
  propertyNames := by rw [properties_calls]; exact names _ h.properties
  actionNames := by rw [actions_calls]; exact names _ h.actions
  eventNames := by rw [events_calls]; exact names _ h.events
  languages := by
    intro k hk
    cases hk with
    | titles h1 h2 =>
      rw [titles_calls, lastOf_toList_map] at h1
      obtain ⟨m, hm, rfl⟩ := Option.map_eq_some_iff.1 h1
      exact unLang_keys (h.translations m (.titles hm)) h2
    | descriptions h1 h2 =>
      rw [descriptions_calls, lastOf_toList_map] at h1
      obtain ⟨m, hm, rfl⟩ := Option.map_eq_some_iff.1 h1
      exact unLang_keys (h.translations m (.descriptions hm)) h2
    | security h1 h2 =>
      rw [securities_calls] at h1
      obtain ⟨n, d, r, hd, rfl⟩ := h.ofScheme h1
      obtain ⟨b, hb, hk⟩ := h2
      obtain ⟨m, hm, rfl⟩ := Option.map_eq_some_iff.1 hb
      exact unLang_keys (h.translations m (.security hd hm)) hk
    | infoTitles h1 h2 => exact h.infoCall h1 (.inl h2)
    | infoDescriptions h1 h2 => exact h.infoCall h1 (.inr h2)
    | schema h1 h2 =>
      obtain ⟨c, hc, rfl⟩ := h.schemaCall h1
      exact schemaKey_unLang (fun x hx => h.eachSchema _ c x hc hx) h2
    | hreflang h1 h2 =>
      rw [links_calls] at h1
      obtain ⟨l, hl, rfl⟩ := List.mem_map.1 h1
      cases e : t.links with
      | none => rw [e] at hl; cases hl
      | some ls => rw [e] at hl; exact unLink_keys (h.eachLink ls e l hl) h2
  linkSizes := by
    intro l hl hs
    rw [links_calls] at hl
    obtain ⟨g, hg, rfl⟩ := List.mem_map.1 hl
    cases e : t.links with
    | none => rw [e] at hg; cases hg
    | some ls => rw [e] at hg; exact (h.eachLink ls e g hg).sizes hs

/-- A Thing that keeps the rules can be made. -/
theorem reachable : ∃ title h b, Reachable X title h b ∧ b.build env = .ok t := by
  obtain ⟨cs, hc, hx⟩ := contexts_made h.context
  have hr : Reachable X t.title (t.calls env cs)
      ((ThingBuilder.new t.title t.other).finishExtend.run (t.calls env cs)) :=
    ⟨Reach.extended (t.calls env cs) (.new t.title t.other), h.callsBuilt⟩
  refine ⟨_, _, _, hr, ?_⟩
  rw [hr.build_of_valid h.valid, hr.supplied]
  have ho : ((ThingBuilder.new t.title t.other).finishExtend.run (t.calls env cs)).other = t.other := by
    unfold ThingBuilder.run Thing.calls Thing.rest
    rw [← List.append_assoc, List.foldl_append]
    rfl
  rw [ho, h.supplied hc hx]

end Buildable
end Wot
