import Verif.Lemmas.Translations
import Verif.Lemmas.Stored
/-
Things from a builder are storable up to the values the user has handed over.
-/
namespace Wot

variable {X : ExtTypes} {title : String} {h : List (ThingOp X)} {b : ThingBuilder X} {env : SerdeEnv}
  {t : Thing X} {C : ExtCodecs X}

theorem SchemaValuesKept.mapLang {L L' D A O : Type} {CD : ExtCodec D} {CA : ExtCodec A}
    {CO : ExtCodec O} {x : Schema L D A O} (h : SchemaValuesKept CD CA CO x) (f : L → L') :
    SchemaValuesKept CD CA CO (x.mapLang f) := by
  have e : (x.mapLang f).subtype = x.subtype.map (SubtypeF.map (Schema.mapLang f)) := mapLang_subtype f x
  have hh : (x.mapLang f).head.constant = x.head.constant ∧ (x.mapLang f).head.default = x.head.default ∧
      (x.mapLang f).head.enumeration = x.head.enumeration ∧ (x.mapLang f).head.other = x.head.other := by
    cases x; rw [mapLang_mk]; exact ⟨rfl, rfl, rfl, rfl⟩
  exact
    { constant := by rw [hh.1]; exact h.constant
      default := by rw [hh.2.1]; exact h.default
      enumeration := by rw [hh.2.2.1]; exact h.enumeration
      other := by rw [hh.2.2.2]; exact h.other
      otherArray := by
        intro a ha
        rw [e] at ha
        obtain ⟨st, hst, he⟩ := Option.map_eq_some_iff.1 ha
        cases st <;> simp only [SubtypeF.map, SubtypeF.array.injEq, reduceCtorEq] at he
        subst he
        exact h.otherArray _ hst
      otherObject := by
        intro a ha
        rw [e] at ha
        obtain ⟨st, hst, he⟩ := Option.map_eq_some_iff.1 ha
        cases st <;> simp only [SubtypeF.map, SubtypeF.object.injEq, reduceCtorEq] at he
        subst he
        exact h.otherObject _ hst }

theorem SchemaLossless.mapLang {L L' D A O : Type} {x : Schema L D A O} (h : SchemaLossless x)
    (f : L → L') : SchemaLossless (x.mapLang f) := by
  have e : (x.mapLang f).subtype = x.subtype.map (SubtypeF.map (Schema.mapLang f)) := mapLang_subtype f x
  have hh : (x.mapLang f).head.constant = x.head.constant ∧
      (x.mapLang f).head.default = x.head.default := by
    cases x; rw [mapLang_mk]; exact ⟨rfl, rfl⟩
  have hn : ∀ n, (x.mapLang f).subtype = some (.number n) → x.subtype = some (.number n) := by
    intro n hn
    rw [e] at hn
    obtain ⟨st, hst, he⟩ := Option.map_eq_some_iff.1 hn
    rw [hst]
    cases st <;> simp only [SubtypeF.map, SubtypeF.number.injEq, reduceCtorEq] at he
    rw [he]
  exact
    { constant := by rw [hh.1]; exact h.constant
      default := by rw [hh.2]; exact h.default
      maximum := fun n b h1 h2 => h.maximum n b (hn n h1) h2
      minimum := fun n b h1 h2 => h.minimum n b (hn n h1) h2
      multipleOf := fun n b h1 h2 => h.multipleOf n b (hn n h1) h2 }

theorem Reachable.translationsKept (hr : Reachable X title h b) (hb : b.build env.toEnv = .ok t)
    (hl : env.TagsStable) {m : MultiLanguage} (hm : t.HasTranslations m) : m.Kept env := by
  obtain ⟨u, hu, rfl⟩ := (hr.hasTranslations hb).1 hm
  have hp : ∀ k ∈ HMap.keys u.values, ∃ t, env.langParse k = some t := fun k hk =>
    (hr.valid_of_build hb).languages k (langKey_iff.2 (.inl ⟨u, hu, hk⟩))
  refine ⟨HMap.collect_sorted _, fun tag htag => ?_⟩
  obtain ⟨k, _, hk⟩ := (keys_langResult hp).1 htag
  exact hl _ _ hk

theorem Reachable.schemaKept (hr : Reachable X title h b) (hb : b.build env.toEnv = .ok t)
    (hl : env.TagsStable) (hv : ValuesKept env C t) {p : Position} {s : DS X}
    (hs : t.HasSchema p s) : DSKept env C s := by
  intro x hx
  refine { hv.schemas p s x hs hx with
    titles := fun m hm => hr.translationsKept hb hl (.schemaTitles hs hx hm)
    descriptions := fun m hm => hr.translationsKept hb hl (.schemaDescriptions hs hx hm)
    properties := fun o m ho hm => ?_ }
  obtain ⟨u, hu, rfl⟩ := (hr.hasSchema hb).1 hs
  obtain ⟨y, hy, rfl⟩ := within_mapLang.1 hx
  have hrep := (hr.wf.schemas u (hr.anySchema.2 ⟨p, hu⟩) y hy).2.2
  rw [mapLang_subtype] at ho
  obtain ⟨st, hst, he⟩ := Option.map_eq_some_iff.1 ho
  cases st <;> simp only [SubtypeF.map, SubtypeF.object.injEq, reduceCtorEq] at he
  subst he
  obtain ⟨m', hm', rfl⟩ := Option.map_eq_some_iff.1 hm
  exact (hrep _ _ hst hm').mapVals _

theorem formKept
    (hv : ValuesKept env C t) {ctx : FormContext} {f : Form X} (hf : t.HasForm ctx f) :
    FormKept C f := by
  exact ⟨(hv.forms ctx f hf).2, (hv.forms ctx f hf).1⟩

theorem sorted_mapResult {A T : Type} {f : A → T} {l : List (String × A)} {m : HMap T}
    (h : mapResult f l = some m) : m.Sorted := by
  unfold mapResult at h
  split at h
  · cases h
  · cases h; exact HMap.collect_sorted _

theorem normMembers_str (m : HMap String) :
    Json.normMembers (HMap.mapVals Json.str m) = HMap.mapVals Json.str m := by
  induction m with
  | nil => rfl
  | cons kv m ih =>
    show (kv.1, (Json.str kv.2).norm) :: Json.normMembers (HMap.mapVals Json.str m) = _
    rw [ih]; rfl

theorem context_isValue {cs : List Context} (hs : ∀ m, Context.map m ∈ cs → HMap.Sorted m) :
    (contextResult cs).IsValue := by
  unfold contextResult
  split
  · rfl
  · rename_i hne
    clear hne
    show Json.arr _ = _
    congr 1
    induction cs with
    | nil => rfl
    | cons c cs ih =>
      rw [List.map_cons]
      show _ :: Json.normList _ = _
      rw [ih fun m hm => hs m (List.mem_cons_of_mem _ hm)]
      congr 1
      cases c with
      | simple s => rfl
      | map m =>
        have h1 := (hs m (List.mem_cons_self ..)).mapVals Json.str
        show Json.obj (HMap.collect (Json.normMembers (HMap.mapVals Json.str m))) = _
        rw [normMembers_str, HMap.collect_of_sorted h1]

theorem Reachable.interactionKept (hr : Reachable X title h b) (hb : b.build env.toEnv = .ok t)
    (hl : env.TagsStable) (hv : ValuesKept env C t) {i : Interaction X} (hi : t.HasInteraction i)
    (hf : ∀ f ∈ i.forms, ∃ ctx, t.HasForm ctx f)
    (hu : ∀ m, i.uriVariables = some m → m.Sorted ∧ ∀ kv ∈ m, t.HasSchema .uriVariable kv.2) :
    InteractionKept env C i where
  titles := fun _ hm => hr.translationsKept hb hl (.interactionTitles hi hm)
  descriptions := fun _ hm => hr.translationsKept hb hl (.interactionDescriptions hi hm)
  forms := fun f hf' => let ⟨_, h⟩ := hf f hf'; formKept hv h
  uriVariables := fun m hm => ⟨(hu m hm).1, fun kv hkv => hr.schemaKept hb hl hv ((hu m hm).2 kv hkv)⟩
  other := hv.interactions i hi

theorem sorted_interactionResult {i : HumanReadableInfo} {p : PartialInteraction X X.interaction}
    {env : Env} (hp : p.uriVariables.Sorted) {m : HMap (DS X)}
    (hm : (interactionResult env i p).uriVariables = some m) : m.Sorted := by
  simp only [interactionResult] at hm
  split at hm
  · cases hm
  · cases hm; exact hp.mapVals _

theorem Reachable.kept (hr : Reachable X title h b) (hb : b.build env.toEnv = .ok t)
    (hl : env.TagsStable) (hv : ValuesKept env C t) : Kept env C t := by
  have hw := hr.wf
  have htr := @Reachable.translationsKept _ _ _ _ _ _ hr hb hl
  have hsch := @Reachable.schemaKept _ _ _ _ _ _ C hr hb hl hv
  have hres := ((hr.ok_iff env.toEnv t).1 hb).2
  refine { context := ?_, titles := fun m hm => htr (.titles hm),
           descriptions := fun m hm => htr (.descriptions hm), created := hv.created,
           modified := hv.modified, properties := ?_, actions := ?_, events := ?_, links := ?_,
           forms := fun l hl f hf => formKept hv (.thing hl hf), securityDefinitions := ?_,
           security := fun kv hkv => ⟨fun m hm => htr (.security hkv hm), hv.security kv hkv⟩,
           uriVariables := ?_, schemaDefinitions := ?_, other := hv.other }
  · rw [hres]; exact context_isValue hw.contextMaps
  · intro m hm
    refine ⟨sorted_mapResult (by rw [← hm, hres]; rfl), fun kv hkv => ?_⟩
    obtain ⟨q, hq, e⟩ := (hr.hasProperty hb).1 ⟨m, hm, hkv⟩
    refine { interaction := ?_, dataSchema := hsch (.property hm hkv), other := hv.properties m hm kv hkv }
    · refine hr.interactionKept hb hl hv (.property hm hkv) (fun f hf => ⟨_, .property hm hkv hf⟩)
        fun u hu => ⟨?_, fun kv' hkv' => .propertyUriVariable hm hkv hu hkv'⟩
      rw [e] at hu
      exact sorted_interactionResult
        (hw.propertyUriVariables kv.1 q (by rw [hr.properties]; exact History.mem_properties.2 hq)) hu
  · intro m hm
    refine ⟨sorted_mapResult (by rw [← hm, hres]; rfl), fun kv hkv => ?_⟩
    obtain ⟨q, hq, e⟩ := (hr.hasAction hb).1 ⟨m, hm, hkv⟩
    refine { interaction := ?_, input := fun s hs => hsch (.input hm hkv hs),
             output := fun s hs => hsch (.output hm hkv hs), other := hv.actions m hm kv hkv }
    refine hr.interactionKept hb hl hv (.action hm hkv) (fun f hf => ⟨_, .action hm hkv hf⟩)
      fun u hu => ⟨?_, fun kv' hkv' => .actionUriVariable hm hkv hu hkv'⟩
    rw [e] at hu
    exact sorted_interactionResult
      (hw.actionUriVariables kv.1 q (by rw [hr.actions]; exact History.mem_actions.2 hq)) hu
  · intro m hm
    refine ⟨sorted_mapResult (by rw [← hm, hres]; rfl), fun kv hkv => ?_⟩
    obtain ⟨q, hq, e⟩ := (hr.hasEvent hb).1 ⟨m, hm, hkv⟩
    refine { interaction := ?_, subscription := fun s hs => hsch (.subscription hm hkv hs),
             data := fun s hs => hsch (.data hm hkv hs),
             dataResponse := fun s hs => hsch (.dataResponse hm hkv hs),
             cancellation := fun s hs => hsch (.cancellation hm hkv hs),
             other := hv.events m hm kv hkv }
    refine hr.interactionKept hb hl hv (.event hm hkv) (fun f hf => ⟨_, .event hm hkv hf⟩)
      fun u hu => ⟨?_, fun kv' hkv' => .eventUriVariable hm hkv hu hkv'⟩
    rw [e] at hu
    exact sorted_interactionResult
      (hw.eventUriVariables kv.1 q (by rw [hr.events]; exact History.mem_events.2 hq)) hu
  · intro l hl' k hk tags htags tag htag
    rw [hres] at hl'
    obtain ⟨ls, hls, rfl⟩ := Option.map_eq_some_iff.1 hl'
    obtain ⟨u, hu, rfl⟩ := List.mem_map.1 hk
    simp only [linkResult] at htags
    split at htags
    · cases htags
    · cases htags
      obtain ⟨k, hk, rfl⟩ := List.mem_map.1 htag
      obtain ⟨tag, ht⟩ := (hr.valid_of_build hb).languages k (hr.langKey.1 (.hreflang hls hu hk))
      rw [ht]
      exact hl _ _ ht
  · rw [hres]; exact HMap.collect_sorted _
  · intro m hm
    refine ⟨?_, fun kv hkv => hsch (.uriVariable hm hkv)⟩
    rw [hres] at hm
    obtain ⟨m', hm', rfl⟩ := Option.map_eq_some_iff.1 hm
    exact (hw.uriVariables m' hm').mapVals _
  · intro m hm
    refine ⟨?_, fun kv hkv => hsch (.schemaDefinition hm hkv)⟩
    rw [hres] at hm
    simp only [ThingBuilder.result] at hm
    split at hm
    · cases hm
    · cases hm; exact hw.schemaDefinitions.mapVals _

/-- In a property from a builder, the two parts agree. -/
theorem Reachable.agrees (hr : Reachable X title h b) (hb : b.build env.toEnv = .ok t)
    {m : HMap (PropertyAffordance X)} (hm : t.properties = some m)
    {kv : String × PropertyAffordance X} (hkv : kv ∈ m) : kv.2.Agrees := by
  obtain ⟨q, hq, e⟩ := (hr.hasProperty hb).1 ⟨m, hm, hkv⟩
  rw [e]
  exact ⟨rfl, rfl, (mapLang_titles (langResult env.toEnv) q.schema).symm, rfl,
    (mapLang_descriptions (langResult env.toEnv) q.schema).symm⟩

/-- Nothing of a Thing from a builder is lost just when none of the values handed over is. -/
theorem Reachable.lossless_iff (hr : Reachable X title h b) (hb : b.build env.toEnv = .ok t) :
    t.Lossless ↔ ValuesLossless t := by
  constructor
  · exact fun h => ⟨h.schemas, h.security⟩
  · intro h
    refine ⟨h.schemas, ?_, fun m hm kv hkv => hr.agrees hb hm hkv, h.security⟩
    intro ctx f hf
    obtain ⟨g, hg, rfl⟩ := (hr.hasForm hb).1 hf
    exact (hr.formReach hg).facts.1

theorem Reachable.storable (hr : Reachable X title h b) (hb : b.build env.toEnv = .ok t)
    (hl : env.TagsStable) (hv : ValuesKept env C t) (hv' : ValuesLossless t) : Storable env C t :=
  ⟨hr.kept hb hl hv, (hr.lossless_iff hb).2 hv'⟩

end Wot
