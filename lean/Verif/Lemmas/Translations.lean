import Verif.Lemmas.Valid
import Verif.Spec.Translations
/-
Translations in a built Thing.
-/
namespace Wot

variable {X : ExtTypes} {title : String} {h : List (ThingOp X)} {b : ThingBuilder X} {env : Env}
  {t : Thing X}

/-- The languages supplied are the keys of all groups and the languages of links. -/
theorem langKey_iff {k : String} : History.LangKey h k ↔
    (∃ u, History.HasTranslations h u ∧ k ∈ HMap.keys u.values) ∨
      ∃ l ∈ History.links h, k ∈ l.hreflang := by
  constructor
  · intro hk
    cases hk with
    | titles h1 h2 =>
      exact .inl ⟨_, .titles h1, by rw [ofCalls_eq]; exact (HMap.mem_keys_collect _ _).2 h2⟩
    | descriptions h1 h2 =>
      exact .inl ⟨_, .descriptions h1, by rw [ofCalls_eq]; exact (HMap.mem_keys_collect _ _).2 h2⟩
    | security h1 h2 => obtain ⟨u, h2, h3⟩ := h2; exact .inl ⟨u, .security h1 h2, h3⟩
    | infoTitles h1 h2 => obtain ⟨u, h2, h3⟩ := h2; exact .inl ⟨u, .infoTitles h1 h2, h3⟩
    | infoDescriptions h1 h2 => obtain ⟨u, h2, h3⟩ := h2; exact .inl ⟨u, .infoDescriptions h1 h2, h3⟩
    | schema h1 h2 =>
      obtain ⟨x, hx, ⟨u, h2, h3⟩ | ⟨u, h2, h3⟩⟩ := h2
      · exact .inl ⟨u, .schemaTitles h1 hx h2, h3⟩
      · exact .inl ⟨u, .schemaDescriptions h1 hx h2, h3⟩
    | hreflang h1 h2 => exact .inr ⟨_, h1, h2⟩
  · rintro (⟨u, hu, hk⟩ | ⟨l, hl, hk⟩)
    · cases hu with
      | titles h1 => exact .titles h1 (by rw [ofCalls_eq] at hk; exact (HMap.mem_keys_collect _ _).1 hk)
      | descriptions h1 =>
        exact .descriptions h1 (by rw [ofCalls_eq] at hk; exact (HMap.mem_keys_collect _ _).1 hk)
      | security h1 h2 => exact .security h1 ⟨_, h2, hk⟩
      | infoTitles h1 h2 => exact .infoTitles h1 ⟨_, h2, hk⟩
      | infoDescriptions h1 h2 => exact .infoDescriptions h1 ⟨_, h2, hk⟩
      | schemaTitles h1 h2 h3 => exact .schema h1 ⟨_, h2, .inl ⟨_, h3, hk⟩⟩
      | schemaDescriptions h1 h2 h3 => exact .schema h1 ⟨_, h2, .inr ⟨_, h3, hk⟩⟩
    · exact .hreflang hl hk

theorem Reachable.titles (hr : Reachable X title h b) :
    b.titles = (lastOf (History.titles h)).map .ofCalls := by
  rw [show b.titles = (lastOf (History.titles h)).map fun c => ⟨HMap.collect c⟩ by rw [hr.supplied]; rfl]
  congr 1
  funext c
  exact (ofCalls_eq c).symm

theorem Reachable.descriptions (hr : Reachable X title h b) :
    b.descriptions = (lastOf (History.descriptions h)).map .ofCalls := by
  rw [show b.descriptions = (lastOf (History.descriptions h)).map fun c => ⟨HMap.collect c⟩ by
    rw [hr.supplied]; rfl]
  congr 1
  funext c
  exact (ofCalls_eq c).symm

/-- The affordances of the Thing have the interaction parts of the supplied ones. -/
theorem Reachable.hasInteraction (hr : Reachable X title h b) (hb : b.build env = .ok t)
    {i : Interaction X} : t.HasInteraction i → ∃ u q, History.HasInfo h u ∧
      i = interactionResult env u q := by
  intro hi
  cases hi with
  | property h1 h2 =>
    obtain ⟨q, hq, rfl⟩ := (hr.hasProperty hb).1 ⟨_, h1, h2⟩
    exact ⟨_, _, .property hq, rfl⟩
  | action h1 h2 =>
    obtain ⟨q, hq, rfl⟩ := (hr.hasAction hb).1 ⟨_, h1, h2⟩
    exact ⟨_, _, .action hq, rfl⟩
  | event h1 h2 =>
    obtain ⟨q, hq, rfl⟩ := (hr.hasEvent hb).1 ⟨_, h1, h2⟩
    exact ⟨_, _, .event hq, rfl⟩

theorem Reachable.hasInfo (hr : Reachable X title h b) (hb : b.build env = .ok t)
    {u : HumanReadableInfo} (hu : History.HasInfo h u) :
    ∃ q, t.HasInteraction (interactionResult env u q) := by
  cases hu with
  | property h1 =>
    obtain ⟨m, h2, h3⟩ := (hr.hasProperty hb).2 ⟨_, h1, rfl⟩
    exact ⟨_, .property h2 h3⟩
  | action h1 =>
    obtain ⟨m, h2, h3⟩ := (hr.hasAction hb).2 ⟨_, h1, rfl⟩
    exact ⟨_, .action h2 h3⟩
  | event h1 =>
    obtain ⟨m, h2, h3⟩ := (hr.hasEvent hb).2 ⟨_, h1, rfl⟩
    exact ⟨_, .event h2 h3⟩

theorem Reachable.hasScheme (hr : Reachable X title h b) (hb : b.build env = .ok t) {n : String}
    {s : SecurityScheme} : (n, s) ∈ t.securityDefinitions ↔
      ∃ q ∈ History.securities h, securityName q = n ∧ s = schemeResult env q.scheme := by
  obtain ⟨hv, rfl⟩ := (hr.ok_iff env t).1 hb
  have hn := hv.securityNames
  show (n, s) ∈ HMap.collect (b.securityDefinitions.map fun kv => (kv.1, schemeResult env kv.2)) ↔ _
  have hn' : ((b.securityDefinitions.map fun kv => (kv.1, schemeResult env kv.2)).map (·.1)).Nodup := by
    rw [List.map_map]; exact hn
  rw [← HMap.get?_eq_some_iff (HMap.collect_sorted _).nodup, HMap.collect_get?_nodup hn',
    HMap.get?_eq_some_iff hn', hr.securityDefinitions]
  simp only [List.map_map, List.mem_map, Function.comp_apply, Prod.mk.injEq]
  constructor
  · rintro ⟨q, hq, rfl, rfl⟩; exact ⟨q, hq, rfl, rfl⟩
  · rintro ⟨q, hq, rfl, rfl⟩; exact ⟨q, hq, rfl, rfl⟩

/-- The groups of translations of the Thing are the groups supplied. -/
theorem Reachable.hasTranslations (hr : Reachable X title h b) (hb : b.build env = .ok t)
    {m : MultiLanguage} :
    t.HasTranslations m ↔ ∃ u, History.HasTranslations h u ∧ m = langResult env u := by
  have htt : t.titles = b.titles.map (langResult env) := by
    obtain ⟨hv, rfl⟩ := (hr.ok_iff env t).1 hb; rfl
  have htd : t.descriptions = b.descriptions.map (langResult env) := by
    obtain ⟨hv, rfl⟩ := (hr.ok_iff env t).1 hb; rfl
  constructor
  · intro hm
    cases hm with
    | titles h1 =>
      rw [htt, hr.titles, Option.map_map] at h1
      obtain ⟨c, h2, rfl⟩ := Option.map_eq_some_iff.1 h1
      exact ⟨_, .titles h2, rfl⟩
    | descriptions h1 =>
      rw [htd, hr.descriptions, Option.map_map] at h1
      obtain ⟨c, h2, rfl⟩ := Option.map_eq_some_iff.1 h1
      exact ⟨_, .descriptions h2, rfl⟩
    | security h1 h2 =>
      obtain ⟨q, hq, -, rfl⟩ := (hr.hasScheme hb).1 h1
      obtain ⟨u, hu, rfl⟩ := Option.map_eq_some_iff.1 h2
      exact ⟨u, .security hq hu, rfl⟩
    | interactionTitles h1 h2 =>
      obtain ⟨i, q, hi, rfl⟩ := hr.hasInteraction hb h1
      obtain ⟨u, hu, rfl⟩ := Option.map_eq_some_iff.1 h2
      exact ⟨u, .infoTitles hi hu, rfl⟩
    | interactionDescriptions h1 h2 =>
      obtain ⟨i, q, hi, rfl⟩ := hr.hasInteraction hb h1
      obtain ⟨u, hu, rfl⟩ := Option.map_eq_some_iff.1 h2
      exact ⟨u, .infoDescriptions hi hu, rfl⟩
    | schemaTitles h1 h2 h3 =>
      obtain ⟨s, hs, rfl⟩ := (hr.hasSchema hb).1 h1
      obtain ⟨y, hy, rfl⟩ := within_mapLang.1 h2
      rw [mapLang_titles] at h3
      obtain ⟨u, hu, rfl⟩ := Option.map_eq_some_iff.1 h3
      exact ⟨u, .schemaTitles hs hy hu, rfl⟩
    | schemaDescriptions h1 h2 h3 =>
      obtain ⟨s, hs, rfl⟩ := (hr.hasSchema hb).1 h1
      obtain ⟨y, hy, rfl⟩ := within_mapLang.1 h2
      rw [mapLang_descriptions] at h3
      obtain ⟨u, hu, rfl⟩ := Option.map_eq_some_iff.1 h3
      exact ⟨u, .schemaDescriptions hs hy hu, rfl⟩
  · rintro ⟨u, hu, rfl⟩
    cases hu with
    | titles h1 => exact .titles (by rw [htt, hr.titles, h1]; rfl)
    | descriptions h1 => exact .descriptions (by rw [htd, hr.descriptions, h1]; rfl)
    | security h1 h2 =>
      refine .security ((hr.hasScheme hb).2 ⟨_, h1, rfl, rfl⟩) ?_
      show Option.map _ _ = _
      exact Option.map_eq_some_iff.2 ⟨u, h2, rfl⟩
    | infoTitles h1 h2 =>
      obtain ⟨q, hq⟩ := hr.hasInfo hb h1
      exact .interactionTitles hq (Option.map_eq_some_iff.2 ⟨u, h2, rfl⟩)
    | infoDescriptions h1 h2 =>
      obtain ⟨q, hq⟩ := hr.hasInfo hb h1
      exact .interactionDescriptions hq (Option.map_eq_some_iff.2 ⟨u, h2, rfl⟩)
    | schemaTitles h1 h2 h3 =>
      exact .schemaTitles ((hr.hasSchema hb).2 ⟨_, h1, rfl⟩) (within_mapLang.2 ⟨_, h2, rfl⟩)
        (by rw [mapLang_titles, h3]; rfl)
    | schemaDescriptions h1 h2 h3 =>
      exact .schemaDescriptions ((hr.hasSchema hb).2 ⟨_, h1, rfl⟩) (within_mapLang.2 ⟨_, h2, rfl⟩)
        (by rw [mapLang_descriptions, h3]; rfl)

/-- Groups of translations are key-sorted. -/
theorem Reachable.sortedTranslations (hr : Reachable X title h b) {u : MultiLanguageBuilder}
    (hu : History.HasTranslations h u) : HMap.Sorted u.values := by
  have hw := hr.wf
  cases hu with
  | titles h1 => rw [ofCalls_eq]; exact HMap.collect_sorted _
  | descriptions h1 => rw [ofCalls_eq]; exact HMap.collect_sorted _
  | security h1 h2 =>
    exact hw.security _ _ (by rw [hr.securityDefinitions]; exact List.mem_map_of_mem h1) _ h2
  | infoTitles h1 h2 => exact (hw.info _ (hr.affordanceInfo.2 h1)).1 _ h2
  | infoDescriptions h1 h2 => exact (hw.info _ (hr.affordanceInfo.2 h1)).2 _ h2
  | schemaTitles h1 h2 h3 => exact (hw.schemas _ (hr.anySchema.2 ⟨_, h1⟩) _ h2).1 _ h3
  | schemaDescriptions h1 h2 h3 => exact (hw.schemas _ (hr.anySchema.2 ⟨_, h1⟩) _ h2).2.1 _ h3

/-! ### One group -/

theorem mem_langResult {u : MultiLanguageBuilder}
    (hp : ∀ k ∈ HMap.keys u.values, ∃ t, env.langParse k = some t) {tag text : String}
    (hm : (tag, text) ∈ (langResult env u).map) :
    ∃ k, (k, text) ∈ u.values ∧ env.langParse k = some tag := by
  have := (mem_collect_iff _ _ _).1 hm
  have := lastOf_mem this
  simp only [History.named, List.mem_filterMap, List.mem_map] at this
  obtain ⟨_, ⟨⟨k, v⟩, hkv, rfl⟩, h⟩ := this
  rw [Env.mem_iter] at hkv
  obtain ⟨tag', ht⟩ := hp k (List.mem_map_of_mem hkv)
  simp only [ht, Option.getD_some] at h
  split at h
  · next e => subst e; cases h; exact ⟨k, hkv, ht⟩
  · cases h

theorem keys_langResult {u : MultiLanguageBuilder}
    (hp : ∀ k ∈ HMap.keys u.values, ∃ t, env.langParse k = some t) {tag : String} :
    tag ∈ HMap.keys (langResult env u).map ↔
      ∃ k ∈ HMap.keys u.values, env.langParse k = some tag := by
  unfold langResult
  rw [HMap.mem_keys_collect]
  simp only [List.mem_map, List.map_map, Function.comp_apply, Env.mem_iter]
  constructor
  · rintro ⟨⟨k, v⟩, hkv, rfl⟩
    obtain ⟨tag', ht⟩ := hp k (List.mem_map_of_mem hkv)
    exact ⟨k, List.mem_map_of_mem hkv, by rw [ht]; rfl⟩
  · rintro ⟨k, hk, ht⟩
    obtain ⟨⟨k', v⟩, hkv, rfl⟩ := List.mem_map.1 hk
    exact ⟨_, hkv, by simp only at ht; rw [ht]; rfl⟩

theorem distinct_nodup {u : MultiLanguageBuilder} (hs : HMap.Sorted u.values)
    (hp : ∀ k ∈ HMap.keys u.values, ∃ t, env.langParse k = some t) (hd : DistinctTags env u) :
    ((u.values.map fun kv => ((env.langParse kv.1).getD kv.1, kv.2)).map (·.1)).Nodup := by
  rw [List.map_map]
  have : ((u.values.map (·.1)).map fun k => (env.langParse k).getD k).Nodup := by
    rw [List.Nodup, List.pairwise_map]
    have hn : (u.values.map (·.1)).Nodup := hs.nodup
    refine List.Pairwise.imp_of_mem ?_ hn
    intro k k' hk hk' hne he
    obtain ⟨a, ha⟩ := hp k hk
    obtain ⟨a', ha'⟩ := hp k' hk'
    rw [ha, ha'] at he
    exact hne (hd k hk k' hk' (by rw [ha, ha']; exact congrArg some he))
  rw [List.map_map] at this
  exact this

/-- With distinct tags every translation is kept. -/
theorem mem_langResult_iff {u : MultiLanguageBuilder} (hs : HMap.Sorted u.values)
    (hp : ∀ k ∈ HMap.keys u.values, ∃ t, env.langParse k = some t) (hd : DistinctTags env u)
    {tag text : String} : (tag, text) ∈ (langResult env u).map ↔
      ∃ k, (k, text) ∈ u.values ∧ env.langParse k = some tag := by
  refine ⟨mem_langResult hp, ?_⟩
  rintro ⟨k, hk, ht⟩
  have hn := distinct_nodup hs hp hd
  unfold langResult
  rw [← HMap.collect_perm ((env.iter_perm u.values).symm.map _) hn,
    ← HMap.get?_eq_some_iff (HMap.collect_sorted _).nodup, HMap.collect_get?_nodup hn,
    HMap.get?_eq_some_iff hn]
  exact List.mem_map.2 ⟨(k, text), hk, by simp only [ht]; rfl⟩

theorem langResult_length_le (u : MultiLanguageBuilder) :
    (langResult env u).map.length ≤ u.values.length := by
  have key : ∀ (l : List (String × String)) (m : HMap String),
      (l.foldl (fun m kv => m.insert kv.1 kv.2) m).length ≤ m.length + l.length := by
    intro l
    induction l with
    | nil => intro m; simp
    | cons a l ih =>
      intro m
      have h1 := ih (m.insert a.1 a.2)
      have h2 : ∀ m : HMap String, (m.insert a.1 a.2).length ≤ m.length + 1 := by
        intro m
        induction m with
        | nil => simp [HMap.insert]
        | cons c m ih =>
          obtain ⟨k, v⟩ := c
          simp only [HMap.insert]
          split
          · simp
          · split <;> simp only [List.length_cons] <;> omega
      have := h2 m
      simp only [List.foldl_cons, List.length_cons]
      omega
  have := key ((env.iter u.values).map fun kv => ((env.langParse kv.1).getD kv.1, kv.2)) []
  simpa [langResult, HMap.collect, (env.iter_perm u.values).length_eq] using this

/-- The conversion does not depend on the iteration order if the tags are distinct. -/
theorem langResult_congr {env' : Env} (hl : env.langParse = env'.langParse) {u : MultiLanguageBuilder}
    (hs : HMap.Sorted u.values) (hp : ∀ k ∈ HMap.keys u.values, ∃ t, env.langParse k = some t)
    (hd : DistinctTags env u) : langResult env u = langResult env' u := by
  have hn := distinct_nodup hs hp hd
  unfold langResult
  rw [← HMap.collect_perm ((env.iter_perm u.values).symm.map _) hn, ← hl,
    ← HMap.collect_perm ((env'.iter_perm u.values).symm.map _) hn]

end Wot
