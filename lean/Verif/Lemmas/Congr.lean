import Verif.Lemmas.Translations
/-
The built Thing depends on the environment only through the conversion of translations.
-/
namespace Wot

section
variable {L L' D A O : Type}

theorem subtype_map_congr {S S' : Type} {f g : S → S'} {st : SubtypeF A O S}
    (h : ∀ c ∈ st.children, f c = g c) : st.map f = st.map g := by
  rcases st with ⟨_ | (_ | _), _, _, _⟩ | _ | _ | _ | ⟨_ | _, _, _⟩ | _ | _ <;>
    simp only [SubtypeF.map, SubtypeF.children, ElemOrVec.toList, ElemOrVec.map, HMap.values,
      HMap.mapVals, Option.map_some, Option.map_none, Option.getD_some, List.mem_singleton, forall_eq,
      List.mem_map, forall_exists_index, and_imp] at h ⊢
  · rw [h]
  · rw [List.map_congr_left h]
  · congr 3
    exact List.map_congr_left fun kv hkv => by rw [h _ kv hkv rfl]

theorem mapLang_congr {f g : L → L'} {s : Schema L D A O}
    (h : ∀ x, Within x s → ∀ u, x.head.titles = some u ∨ x.head.descriptions = some u → f u = g u) :
    s.mapLang f = s.mapLang g := by
  induction s using Schema.ind with
  | h hd o st ih1 ih2 =>
    rw [mapLang_mk, mapLang_mk]
    have ht : hd.titles.map f = hd.titles.map g := by
      cases he : hd.titles with
      | none => rfl
      | some u => simp only [Option.map_some]; rw [h _ (.self _) u (.inl he)]
    have hdesc : hd.descriptions.map f = hd.descriptions.map g := by
      cases he : hd.descriptions with
      | none => rfl
      | some u => simp only [Option.map_some]; rw [h _ (.self _) u (.inr he)]
    rw [ht, hdesc]
    congr 1
    · cases o with
      | none => rfl
      | some l =>
        simp only [Option.map_some]
        congr 1
        exact List.map_congr_left fun c hc => ih1 l rfl c hc fun x hx u hu =>
          h x (within_iff.2 (.inr (.inl ⟨l, rfl, c, hc, hx⟩))) u hu
    · cases st with
      | none => rfl
      | some st =>
        simp only [Option.map_some]
        congr 1
        exact subtype_map_congr fun c hc => ih2 st rfl c hc fun x hx u hu =>
          h x (within_iff.2 (.inr (.inr ⟨st, rfl, c, hc, hx⟩))) u hu

end

variable {X : ExtTypes} {title : String} {h : List (ThingOp X)} {b : ThingBuilder X} {env env' : Env}

theorem optMap_congr {α β : Type} {f g : α → β} {o : Option α} (h : ∀ a, o = some a → f a = g a) :
    o.map f = o.map g := by
  cases o with
  | none => rfl
  | some a => simp only [Option.map_some, h a rfl]

theorem mapVals_congr {V W : Type} {f g : V → W} {m : HMap V} (h : ∀ k v, (k, v) ∈ m → f v = g v) :
    HMap.mapVals f m = HMap.mapVals g m :=
  List.map_congr_left fun kv hkv => by rw [h kv.1 kv.2 hkv]

theorem mapResult_congr {V W : Type} {f g : V → W} {l : List (String × V)}
    (h : ∀ k v, (k, v) ∈ l → f v = g v) : mapResult f l = mapResult g l := by
  unfold mapResult
  rw [List.map_congr_left fun kv hkv => by rw [h kv.1 kv.2 hkv]]

/-- Two environments that convert all supplied translations and languages in the same way give the
same Thing. -/
theorem Reachable.result_congr (hr : Reachable X title h b) (hl : env.langParse = env'.langParse)
    (hc : ∀ u, History.HasTranslations h u → langResult env u = langResult env' u) :
    b.result env = b.result env' := by
  have hschema : ∀ p s, History.HasSchema h p s →
      s.mapLang (langResult env) = s.mapLang (langResult env') := fun p s hs =>
    mapLang_congr fun x hx u hu => hc u (hu.elim (.schemaTitles hs hx) (.schemaDescriptions hs hx))
  have hopt : ∀ {p : Position} {o : Option (UDS X)}, (∀ s, o = some s → History.HasSchema h p s) →
      o.map (Schema.mapLang (langResult env)) = o.map (Schema.mapLang (langResult env')) :=
    fun ho => optMap_congr fun s hs => hschema _ s (ho s hs)
  have hi : ∀ {i : HumanReadableInfo} {q : PartialInteraction X X.interaction}, History.HasInfo h i →
      (∀ k s, (k, s) ∈ q.uriVariables → History.HasSchema h .uriVariable s) →
      interactionResult env i q = interactionResult env' i q := by
    intro i q h1 h2
    unfold interactionResult
    rw [optMap_congr fun u hu => hc u (.infoTitles h1 hu),
      optMap_congr fun u hu => hc u (.infoDescriptions h1 hu),
      mapVals_congr fun k s hs => hschema _ s (h2 k s hs)]
  unfold ThingBuilder.result
  have e1 : b.titles.map (langResult env) = b.titles.map (langResult env') := by
    rw [hr.titles]
    refine optMap_congr fun u hu => ?_
    obtain ⟨c, h1, rfl⟩ := Option.map_eq_some_iff.1 hu
    exact hc _ (.titles h1)
  have e2 : b.descriptions.map (langResult env) = b.descriptions.map (langResult env') := by
    rw [hr.descriptions]
    refine optMap_congr fun u hu => ?_
    obtain ⟨c, h1, rfl⟩ := Option.map_eq_some_iff.1 hu
    exact hc _ (.descriptions h1)
  have e3 : mapResult (PropertyBuilder.result env) b.properties =
      mapResult (PropertyBuilder.result env') b.properties := by
    rw [hr.properties]
    refine mapResult_congr fun n p hp => ?_
    have hp := History.mem_properties.1 hp
    unfold PropertyBuilder.result
    rw [hi (.property hp) (fun k s hs => .propertyUriVariable hp hs), hschema _ _ (.property hp)]
  have e4 : mapResult (ActionBuilder.result env) b.actions =
      mapResult (ActionBuilder.result env') b.actions := by
    rw [hr.actions]
    refine mapResult_congr fun n p hp => ?_
    have hp := History.mem_actions.1 hp
    unfold ActionBuilder.result
    rw [hi (.action hp) (fun k s hs => .actionUriVariable hp hs), hopt fun s hs => .input hp hs,
      hopt fun s hs => .output hp hs]
  have e5 : mapResult (EventBuilder.result env) b.events =
      mapResult (EventBuilder.result env') b.events := by
    rw [hr.events]
    refine mapResult_congr fun n p hp => ?_
    have hp := History.mem_events.1 hp
    unfold EventBuilder.result
    rw [hi (.event hp) (fun k s hs => .eventUriVariable hp hs), hopt fun s hs => .subscription hp hs,
      hopt fun s hs => .data hp hs, hopt fun s hs => .dataResponse hp hs,
      hopt fun s hs => .cancellation hp hs]
  have e6 : linkResult env = linkResult env' := by
    funext l; unfold linkResult; rw [hl]
  have e7 : b.securityDefinitions.map (fun kv => (kv.1, schemeResult env kv.2)) =
      b.securityDefinitions.map (fun kv => (kv.1, schemeResult env' kv.2)) := by
    rw [hr.securityDefinitions, List.map_map, List.map_map]
    refine List.map_congr_left fun s hs => ?_
    simp only [Function.comp_apply, schemeResult]
    rw [optMap_congr (o := s.scheme.descriptions) fun u hu => hc u (.security hs hu)]
  have e8 : b.uriVariables.map (HMap.mapVals (Schema.mapLang (langResult env))) =
      b.uriVariables.map (HMap.mapVals (Schema.mapLang (langResult env'))) :=
    optMap_congr fun m hm => mapVals_congr fun n s hs =>
      hschema _ s (.uriVariable (hr.thingUriVariable.1 ⟨m, hm, hs⟩))
  have e9 : HMap.mapVals (Schema.mapLang (langResult env)) b.schemaDefinitions =
      HMap.mapVals (Schema.mapLang (langResult env')) b.schemaDefinitions := by
    rw [hr.schemaDefinitions]
    exact mapVals_congr fun n s hs => hschema _ s (.schemaDefinition ((mem_collect_iff _ _ _).1 hs))
  rw [e1, e2, e3, e4, e5, e6, e7, e8, e9]

/-- Validity depends on the environment only through the language tag parser. -/
theorem valid_congr (hl : env.langParse = env'.langParse) :
    History.Valid env h ↔ History.Valid env' h := by
  constructor <;> intro hv
  · exact { hv with languages := fun k hk => hl ▸ hv.languages k hk }
  · exact { hv with languages := fun k hk => hl ▸ hv.languages k hk }

end Wot
