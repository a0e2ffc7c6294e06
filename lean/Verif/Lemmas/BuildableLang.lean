import Verif.Lemmas.BuildableSchema
import Verif.Lemmas.Congr
import Verif.Lemmas.EditNorm
/-
Translations and data schemas whose languages are tags are what is made of some translations and data
schemas.
-/
namespace Wot

open Classical in
/-- A text that is parsed to a given tag. -/
noncomputable def untag (env : Env) (tag : String) : String :=
  if h : IsTag env tag then h.choose else tag

theorem parse_untag {env : Env} {tag : String} (h : IsTag env tag) :
    env.langParse (untag env tag) = some tag := by
  unfold untag
  rw [dif_pos h]
  exact h.choose_spec

/-- Translations that are converted to the given ones. -/
noncomputable def unLang (env : Env) (m : MultiLanguage) : MultiLanguageBuilder :=
  ⟨HMap.collect (m.map.map fun kv => (untag env kv.1, kv.2))⟩

variable {env : Env}

theorem MultiLanguage.Made.nodup {m : MultiLanguage} (h : m.Made env) :
    ((m.map.map fun kv => (untag env kv.1, kv.2)).map (·.1)).Nodup := by
  rw [List.map_map]
  have hn := h.sorted.nodup
  have ht := h.tags
  unfold HMap.keys at hn ht
  unfold List.Nodup at hn ⊢
  rw [List.pairwise_map] at hn ⊢
  refine hn.imp_of_mem fun {a b} ha hb hne heq => hne ?_
  have h1 := parse_untag (ht _ (List.mem_map_of_mem ha))
  have h2 := parse_untag (ht _ (List.mem_map_of_mem hb))
  have heq : untag env a.1 = untag env b.1 := heq
  rw [heq, h2] at h1
  exact (Option.some.inj h1).symm

theorem unLang_values {m : MultiLanguage} (h : m.Made env) :
    (unLang env m).values.Perm (m.map.map fun kv => (untag env kv.1, kv.2)) :=
  (perm_collect h.nodup).symm

theorem unLang_keys {m : MultiLanguage} (h : m.Made env) {k : String}
    (hk : k ∈ HMap.keys (unLang env m).values) : ∃ tag, env.langParse k = some tag := by
  have := (HMap.mem_keys_collect _ _).1 hk
  rw [List.map_map] at this
  obtain ⟨kv, hkv, rfl⟩ := List.mem_map.1 this
  exact ⟨kv.1, parse_untag (h.tags _ (List.mem_map_of_mem hkv))⟩

theorem langResult_unLang {m : MultiLanguage} (h : m.Made env) : langResult env (unLang env m) = m := by
  unfold langResult
  have hp := ((env.iter_perm (unLang env m).values).trans (unLang_values h)).map
    fun kv => ((env.langParse kv.1).getD kv.1, kv.2)
  have e : (m.map.map fun kv => (untag env kv.1, kv.2)).map
      (fun kv => ((env.langParse kv.1).getD kv.1, kv.2)) = m.map := by
    rw [List.map_map]
    refine (List.map_congr_left fun kv hkv => ?_).trans (List.map_id _)
    show ((env.langParse (untag env kv.1)).getD _, _) = kv
    rw [parse_untag (h.tags _ (List.mem_map_of_mem hkv))]
    rfl
  rw [e] at hp
  rw [HMap.collect_perm hp ((hp.map _).nodup_iff.2 h.sorted.nodup), HMap.collect_of_sorted h.sorted]

theorem made_langResult {b : MultiLanguageBuilder}
    (h : ∀ k ∈ HMap.keys b.values, ∃ tag, env.langParse k = some tag) : (langResult env b).Made env := by
  refine ⟨HMap.collect_sorted _, fun tag ht => ?_⟩
  have := (HMap.mem_keys_collect _ _).1 ht
  rw [List.map_map] at this
  obtain ⟨kv, hkv, rfl⟩ := List.mem_map.1 this
  obtain ⟨tag, hp⟩ := h kv.1 (List.mem_map_of_mem ((Env.mem_iter _ _ _).1 hkv))
  exact ⟨kv.1, by simp [hp]⟩

/-! ### Data schemas -/

section
variable {L L' L'' D A O : Type}

theorem subtype_map_map {S S' S'' : Type} (f : S → S') (g : S' → S'') (st : SubtypeF A O S) :
    (st.map f).map g = st.map fun s => g (f s) := by
  rcases st with ⟨_ | (_ | _), _, _, _⟩ | _ | _ | _ | ⟨_ | _, _, _⟩ | _ | _ <;>
    simp [SubtypeF.map, ElemOrVec.map, HMap.mapVals]

theorem subtype_map_id {S : Type} (st : SubtypeF A O S) : st.map (fun s => s) = st := by
  rcases st with ⟨_ | (_ | _), _, _, _⟩ | _ | _ | _ | ⟨_ | _, _, _⟩ | _ | _ <;>
    simp [SubtypeF.map, ElemOrVec.map, HMap.mapVals]

theorem mapLang_mapLang (f : L → L') (g : L' → L'') (s : Schema L D A O) :
    (s.mapLang f).mapLang g = s.mapLang fun l => g (f l) := by
  induction s using Schema.ind with
  | h hd o st ih1 ih2 =>
    rw [mapLang_mk, mapLang_mk, mapLang_mk]
    simp only [Option.map_map]
    congr 1
    · cases o with
      | none => rfl
      | some l =>
        simp only [Option.map_some, Function.comp_apply, List.map_map]
        congr 1
        exact List.map_congr_left fun c hc => ih1 l rfl c hc
    · cases st with
      | none => rfl
      | some st =>
        simp only [Option.map_some, Function.comp_apply, subtype_map_map]
        congr 1
        exact subtype_map_congr fun c hc => ih2 st rfl c hc

theorem mapLang_id (s : Schema L D A O) : s.mapLang (fun l => l) = s := by
  induction s using Schema.ind with
  | h hd o st ih1 ih2 =>
    rw [mapLang_mk]
    simp only [Option.map_id']
    congr 1
    · cases o with
      | none => rfl
      | some l =>
        simp only [Option.map_some]
        congr 1
        exact (List.map_congr_left fun c hc => ih1 l rfl c hc).trans (List.map_id' l)
    · cases st with
      | none => rfl
      | some st =>
        simp only [Option.map_some]
        congr 1
        exact (subtype_map_congr fun c hc => ih2 st rfl c hc).trans (subtype_map_id st)

theorem open_mapLang {f : L → L'} {s : Schema L D A O} : (s.mapLang f).Open ↔ s.Open := by
  unfold Schema.Open
  rw [mapLang_subtype, mapLang_oneOf]
  cases s
  rw [mapLang_mk]
  simp [Schema.head, Schema.oneOf, Schema.subtype]

end

variable {D A O : Type}

theorem SchemaMade.unchecked {x : DataSchema D A O} (h : SchemaMade env x) (hu : Uninformed x) :
    UncheckedMade (x.mapLang (unLang env)) := by
  refine ⟨h.toSchemaShape.mapLang (f := unLang env), ?_, ?_, ?_, ?_, ?_⟩
  · have := h.attype
    cases x; rw [mapLang_mk]; exact this
  · rw [mapLang_titles]
    intro b hb
    obtain ⟨m, -, rfl⟩ := Option.map_eq_some_iff.1 hb
    exact HMap.collect_sorted _
  · rw [mapLang_descriptions]
    intro b hb
    obtain ⟨m, -, rfl⟩ := Option.map_eq_some_iff.1 hb
    exact HMap.collect_sorted _
  · intro o m ho hm
    rw [mapLang_subtype] at ho
    obtain ⟨st, hst, ho⟩ := Option.map_eq_some_iff.1 ho
    cases st <;> cases ho
    obtain ⟨m', hm', rfl⟩ := Option.map_eq_some_iff.1 hm
    exact (h.sorted _ _ hst hm').mapVals _
  · intro ho
    have ho := open_mapLang.1 ho
    obtain ⟨a1, a2, a3, a4, a5⟩ := h.unspecified ho
    obtain ⟨b1, b2, b3, b4, b5⟩ := hu ho
    obtain ⟨c1, c2, c3, c4⟩ := ho
    obtain ⟨⟨_, _, _, _, _, _, _, _, _, _, _, _, _⟩, o, st⟩ := x
    rw [mapLang_mk]
    simp only [Schema.head, Schema.oneOf, Schema.subtype] at *
    subst a1 a2 a3 a4 a5 b1 b2 b3 b4 b5 c1 c2 c3 c4
    rfl

/-- A data schema in which everything is as builders make it is built. -/
theorem schemaBuilt_unLang {s : DataSchema D A O} (h : ∀ x, Within x s → SchemaMade env x ∧ Uninformed x) :
    SchemaBuilt (s.mapLang (unLang env)) := by
  refine schemaBuilt_of fun x hx => ?_
  obtain ⟨y, hy, rfl⟩ := within_mapLang.1 hx
  exact (h y hy).1.unchecked (h y hy).2

theorem mapLang_unLang {s : DataSchema D A O} (h : ∀ x, Within x s → SchemaMade env x) :
    (s.mapLang (unLang env)).mapLang (langResult env) = s := by
  rw [mapLang_mapLang]
  refine (mapLang_congr fun x hx m hm => ?_).trans (mapLang_id s)
  rcases hm with hm | hm
  · exact langResult_unLang ((h x hx).titles m hm)
  · exact langResult_unLang ((h x hx).descriptions m hm)

theorem schemaKey_unLang {s : DataSchema D A O} (h : ∀ x, Within x s → SchemaMade env x) {k : String}
    (hk : SchemaKey (s.mapLang (unLang env)) k) : ∃ tag, env.langParse k = some tag := by
  obtain ⟨x, hx, hk⟩ := hk
  obtain ⟨y, hy, rfl⟩ := within_mapLang.1 hx
  rcases hk with ⟨b, hb, hk⟩ | ⟨b, hb, hk⟩
  · rw [mapLang_titles] at hb
    obtain ⟨m, hm, rfl⟩ := Option.map_eq_some_iff.1 hb
    exact unLang_keys ((h y hy).titles m hm) hk
  · rw [mapLang_descriptions] at hb
    obtain ⟨m, hm, rfl⟩ := Option.map_eq_some_iff.1 hb
    exact unLang_keys ((h y hy).descriptions m hm) hk

/-! ### What is made of built data schemas -/

theorem UncheckedMade.made {x : UncheckedDataSchema D A O} (h : UncheckedMade x)
    (hk : ∀ k, KeyOf x.head.titles k ∨ KeyOf x.head.descriptions k → ∃ tag, env.langParse k = some tag) :
    SchemaMade env (x.mapLang (langResult env)) := by
  refine ⟨h.toSchemaShape.mapLang (f := langResult env), ?_, ?_, ?_, ?_, ?_⟩
  · have := h.attype
    cases x; rw [mapLang_mk]; exact this
  · rw [mapLang_titles]
    intro m hm
    obtain ⟨b, hb, rfl⟩ := Option.map_eq_some_iff.1 hm
    exact made_langResult fun k hk' => hk k (.inl ⟨b, hb, hk'⟩)
  · rw [mapLang_descriptions]
    intro m hm
    obtain ⟨b, hb, rfl⟩ := Option.map_eq_some_iff.1 hm
    exact made_langResult fun k hk' => hk k (.inr ⟨b, hb, hk'⟩)
  · intro o m ho hm
    rw [mapLang_subtype] at ho
    obtain ⟨st, hst, ho⟩ := Option.map_eq_some_iff.1 ho
    cases st <;> cases ho
    obtain ⟨m', hm', rfl⟩ := Option.map_eq_some_iff.1 hm
    exact (h.sorted _ _ hst hm').mapVals _
  · intro ho
    rw [h.unspecified (open_mapLang.1 ho)]
    exact ⟨rfl, rfl, rfl, rfl, rfl⟩

theorem UncheckedMade.uninformed {x : UncheckedDataSchema D A O} (h : UncheckedMade x) :
    Uninformed (x.mapLang (langResult env)) := by
  intro ho
  rw [h.unspecified (open_mapLang.1 ho)]
  exact ⟨rfl, rfl, rfl, rfl, rfl⟩

end Wot
