import Verif.Lemmas.CodecThing
/-
Which documents contain no member twice.
-/
namespace Wot

/-- Members with distinct names from `K`, whose values contain no member twice. -/
structure Clean (K : List String) (m : Members) : Prop where
  nodup : (m.map (·.1)).Nodup
  keys : ∀ kv ∈ m, kv.1 ∈ K
  vals : ∀ kv ∈ m, kv.2.NoDup

theorem Clean.obj {K : List String} {m : Members} (h : Clean K m) : (Json.obj m).NoDup :=
  ⟨h.nodup, (noDupMembers_iff m).2 h.vals⟩

theorem Clean.append {K K' : List String} {a b : Members} (ha : Clean K a) (hb : Clean K' b)
    (hd : Apart K' K) : Clean (K ++ K') (a ++ b) where
  nodup := by
    rw [List.map_append, List.nodup_append]
    refine ⟨ha.nodup, hb.nodup, ?_⟩
    rintro _ h1 _ h2 rfl
    obtain ⟨kv, hkv, e⟩ := List.mem_map.1 h1
    obtain ⟨kv', hkv', e'⟩ := List.mem_map.1 h2
    exact hd _ (hb.keys kv' hkv') (by rw [e', ← e]; exact ha.keys kv hkv)
  keys := by
    intro kv h
    rcases List.mem_append.1 h with h | h
    · exact List.mem_append_left _ (ha.keys kv h)
    · exact List.mem_append_right _ (hb.keys kv h)
  vals := by
    intro kv h
    rcases List.mem_append.1 h with h | h
    · exact ha.vals kv h
    · exact hb.vals kv h

theorem Clean.mono {K K' : List String} {m : Members} (h : Clean K m) (hk : ∀ k ∈ K, k ∈ K') :
    Clean K' m := ⟨h.nodup, fun kv hkv => hk _ (h.keys kv hkv), h.vals⟩

theorem Clean.nil (K : List String) : Clean K [] := ⟨.nil, nofun, nofun⟩

theorem Clean.cons {K : List String} {m : Members} {k : String} {v : Json} (h : Clean K m)
    (hk : k ∉ K) (hv : v.NoDup) : Clean (k :: K) ((k, v) :: m) where
  nodup := by
    rw [List.map_cons, List.nodup_cons]
    refine ⟨fun hm => ?_, h.nodup⟩
    obtain ⟨kv, hkv, e⟩ := List.mem_map.1 hm
    exact hk (show k ∈ K from (show kv.1 = k from e) ▸ h.keys kv hkv)
  keys := by
    intro kv hkv
    rcases List.mem_cons.1 hkv with rfl | h'
    · simp
    · exact List.mem_cons_of_mem _ (h.keys kv h')
  vals := by
    intro kv hkv
    rcases List.mem_cons.1 hkv with rfl | h'
    · exact hv
    · exact h.vals kv h'

/-- An optional written value contains no member twice. -/
abbrev CleanOpt (o : Option Json) : Prop := ∀ j, o = some j → j.NoDup

theorem Clean.members {L : List (String × Option Json)} (hn : (L.map (·.1)).Nodup)
    (hv : ∀ e ∈ L, CleanOpt e.2) : Clean (L.map (·.1)) (members L) := by
  induction L with
  | nil => exact .nil _
  | cons e L ih =>
    obtain ⟨k, v⟩ := e
    rw [List.map_cons, List.nodup_cons] at hn
    have ih := ih hn.2 fun e he => hv e (List.mem_cons_of_mem _ he)
    rw [members_cons]
    cases v with
    | none => exact ih.mono fun k hk => List.mem_cons_of_mem _ hk
    | some v => exact ih.cons hn.1 (hv (k, some v) (by simp) v rfl)

theorem members_append (a b : List (String × Option Json)) :
    members (a ++ b) = members a ++ members b := List.filterMap_append

theorem Clean.fields {L : List (String × Option Json)} (K : List String) (hn : K.Nodup)
    (hK : L.map (·.1) = K) (hv : ∀ e ∈ L, CleanOpt e.2) : Clean K (Wot.members L) := by
  subst hK
  exact Clean.members hn hv

theorem Clean.ext {A : Type} {c : ExtCodec A} {a : A} {m : Members}
    (hw : ∀ a m, c.ser a = some m → (Json.obj m).NoDup) (hr : c.Reads a) (h : c.ser a = some m) :
    Clean c.keys m :=
  ⟨(hw a m h).1, hr.own m h, (noDupMembers_iff m).1 (hw a m h).2⟩

theorem noDup_of_isValue {j : Json} (h : j.IsValue) : j.NoDup := h ▸ norm_noDup j

theorem noDup_arr {l : List Json} (h : ∀ j ∈ l, j.NoDup) : (Json.arr l).NoDup := (noDupList_iff l).2 h

theorem noDup_oneOrMany {l : List Json} (h : ∀ j ∈ l, j.NoDup) : (serOneOrMany l).NoDup := by
  unfold serOneOrMany
  split
  · exact h _ (by simp)
  · exact noDup_arr h

theorem noDup_strings (l : List String) : (serStrings l).NoDup :=
  noDup_oneOrMany fun j hj => by obtain ⟨s, _, rfl⟩ := List.mem_map.1 hj; trivial

theorem clean_none : CleanOpt none := nofun

theorem clean_some {j : Json} (h : j.NoDup) : CleanOpt (some j) := fun _ e => by cases e; exact h

theorem clean_map {α : Type} {f : α → Json} {o : Option α} (h : ∀ a, o = some a → (f a).NoDup) :
    CleanOpt (o.map f) := by
  intro j hj
  obtain ⟨a, ha, rfl⟩ := Option.map_eq_some_iff.1 hj
  exact h a ha

theorem clean_str {o : Option String} : CleanOpt (o.map Json.str) := clean_map fun _ _ => trivial

theorem clean_strings {o : Option (List String)} : CleanOpt (o.map serStrings) :=
  clean_map fun l _ => noDup_strings l

theorem clean_optOpt {α : Type} {f : α → Option Json} {o : Option α} {r : Option Json}
    (hr : optOpt f o = some r) (h : ∀ a j, o = some a → f a = some j → j.NoDup) : CleanOpt r := by
  intro j e
  subst e
  cases o with
  | none => cases hr
  | some a =>
    obtain ⟨j', h1, h2⟩ := Option.map_eq_some_iff.1 hr
    cases h2
    exact h a _ rfl h1

theorem noDup_lang {env : SerdeEnv} {m : MultiLanguage} (h : m.Kept env) :
    (serLang env.toEnv m).NoDup := by
  refine ⟨?_, (noDupMembers_iff _).2 ?_⟩
  · rw [List.map_map]
    have hp : ((env.iter m.map).map (·.1)).Perm (m.map.map (·.1)) := (env.iter_perm m.map).map _
    exact hp.nodup_iff.2 h.1.nodup
  · intro kv hkv
    obtain ⟨e, _, rfl⟩ := List.mem_map.1 hkv
    trivial

theorem clean_lang {env : SerdeEnv} {o : Option MultiLanguage} (h : LangKept env o) :
    CleanOpt (o.map (serLang env.toEnv)) := clean_map fun m hm => noDup_lang (h m hm)

theorem noDup_serMap {α : Type} {env : Env} {f : α → Option Json} {m : HMap α} {j : Json}
    (hs : m.Sorted) (hw : serMap env f m = some j)
    (h : ∀ kv ∈ m, ∀ j, f kv.2 = some j → j.NoDup) : j.NoDup := by
  obtain ⟨ms, h1, rfl⟩ := Option.map_eq_some_iff.1 hw
  have h2 := mapOptVals_eq_some.1 h1
  have hperm := env.iter_perm m
  generalize env.iter m = l at h2 hperm
  have hkeys : ms.map (·.1) = l.map (·.1) := by
    clear h1 hw hperm
    induction h2 with
    | nil => rfl
    | cons hab _ ih => rw [List.map_cons, List.map_cons, ih, hab.1]
  refine ⟨?_, (noDupMembers_iff _).2 ?_⟩
  · rw [hkeys]
    exact (hperm.map _).nodup_iff.2 hs.nodup
  · have hall : ∀ kv ∈ l, ∀ j, f kv.2 = some j → j.NoDup := fun kv hkv =>
      h kv (hperm.mem_iff.1 hkv)
    clear h1 hw hkeys hperm
    induction h2 with
    | nil => nofun
    | cons hab _ ih =>
      intro kv hkv
      rcases List.mem_cons.1 hkv with rfl | hkv
      · exact hall _ (by simp) _ hab.2
      · exact ih (fun kv hkv => hall kv (by simp [hkv])) kv hkv

theorem noDup_mapOpt {α : Type} {f : α → Option Json} {l : List α} {js : List Json}
    (hw : mapOpt f l = some js) (h : ∀ a ∈ l, ∀ j, f a = some j → j.NoDup) : (Json.arr js).NoDup := by
  apply noDup_arr
  have := mapOpt_eq_some.1 hw
  clear hw
  induction this with
  | nil => nofun
  | cons hab _ ih =>
    intro j hj
    rcases List.mem_cons.1 hj with rfl | hj
    · exact h _ (by simp) _ hab
    · exact ih (fun a ha => h a (by simp [ha])) j hj

/-- All entries of a literal list of fields. -/
macro "fields" : tactic =>
  `(tactic| simp only [List.forall_mem_cons, List.not_mem_nil, false_imp_iff, implies_true, and_true])

/-! ### Security -/

theorem noDup_location (l : SecLocation) : (serLocation l).NoDup := by cases l <;> trivial
theorem noDup_qop (l : QoP) : (serQoP l).NoDup := by cases l <;> trivial

theorem clean_known (k : KnownScheme) : Clean ("scheme" :: knownNames k) (serKnown k) := by
  cases k with
  | noSec => exact (Clean.nil []).cons (by simp) trivial
  | auto => exact (Clean.nil []).cons (by simp) trivial
  | combo c =>
    cases c with
    | oneOf l => exact ((Clean.nil []).cons (by simp) (noDup_strings l)).cons (by decide) trivial
    | allOf l => exact ((Clean.nil []).cons (by simp) (noDup_strings l)).cons (by decide) trivial
  | basic s =>
    refine Clean.fields _ (by simp only [knownNames]; decide) rfl ?_
    fields
    exact ⟨clean_some trivial, clean_some (noDup_location _), clean_str⟩
  | digest s =>
    refine Clean.fields _ (by simp only [knownNames]; decide) rfl ?_
    fields
    exact ⟨clean_some trivial, clean_some (noDup_qop _), clean_some (noDup_location _), clean_str⟩
  | bearer s =>
    refine Clean.fields _ (by simp only [knownNames]; decide) rfl ?_
    fields
    exact ⟨clean_some trivial, clean_str, clean_some trivial, clean_some trivial,
      clean_some (noDup_location _), clean_str⟩
  | psk s =>
    refine Clean.fields _ (by simp only [knownNames]; decide) rfl ?_
    fields
    exact ⟨clean_some trivial, clean_str⟩
  | oauth2 s =>
    refine Clean.fields _ (by simp only [knownNames]; decide) rfl ?_
    fields
    exact ⟨clean_some trivial, clean_str, clean_str, clean_str, clean_strings, clean_some trivial⟩
  | apiKey s =>
    refine Clean.fields _ (by simp only [knownNames]; decide) rfl ?_
    fields
    exact ⟨clean_some trivial, clean_some (noDup_location _), clean_str⟩

theorem noDup_security {env : SerdeEnv} {s : SecurityScheme} {j : Json} (hst : s.Kept env)
    (hw : serSecurity env.toEnv s = some j) : j.NoDup := by
  obtain ⟨m, hm, rfl⟩ := Option.map_eq_some_iff.1 hw
  have h1 : Clean Names.security (members [("@type", s.attype.map serStrings),
      ("description", s.description.map .str), ("descriptions", s.descriptions.map (serLang env.toEnv)),
      ("proxy", s.proxy.map .str)]) := by
    refine Clean.fields _ (by decide) rfl ?_
    fields
    exact ⟨clean_strings, clean_str, clean_lang hst.descriptions, clean_str⟩
  have h2 : ∃ K, Clean K m ∧ Apart K Names.security := by
    have hsub := hst.subtype
    cases hs : s.subtype with
    | known k =>
      rw [hs] at hm
      cases hm
      exact ⟨_, clean_known k, by
        rcases k with _ | _ | (_ | _) | _ | _ | _ | _ | _ | _ <;> simp only [knownNames, Apart] <;> decide⟩
    | unknown scheme data =>
      rw [hs] at hm hsub
      obtain ⟨_, hv, rfl | ⟨m', rfl, hm'⟩⟩ := hsub
      · cases hm
        exact ⟨["scheme"], (Clean.nil []).cons (v := .str _) (by simp) trivial, by unfold Apart; decide⟩
      cases hm
      have hnd := noDup_of_isValue hv
      refine ⟨"scheme" :: m'.map (·.1), (Clean.mk hnd.1 (fun kv hkv => List.mem_map_of_mem hkv)
        ((noDupMembers_iff _).1 hnd.2)).cons (v := .str _) ?_ trivial, ?_⟩
      · intro h
        obtain ⟨kv, hkv, e⟩ := List.mem_map.1 h
        exact hm' kv hkv (by rw [e]; simp)
      · intro k hk hk'
        rcases List.mem_cons.1 hk with rfl | hk
        · exact absurd hk' (by decide)
        · obtain ⟨kv, hkv, rfl⟩ := List.mem_map.1 hk
          exact hm' kv hkv (List.mem_cons_of_mem _ hk')
  obtain ⟨K, h2, h3⟩ := h2
  exact (h1.append h2 h3).obj

/-! ### Schemas -/

section
variable {DSx AS OS : Type} {C : ExtCodec DSx} {CA : ExtCodec AS} {CO : ExtCodec OS} {env : SerdeEnv}

theorem noDup_f64 (f : F64) : (serF64 f).NoDup := by unfold serF64; split <;> trivial
theorem noDup_i64 (f : I64) : (serI64 f).NoDup := by unfold serI64; split <;> trivial

theorem clean_max {T : Type} {f : T → Json} (hf : ∀ t, (f t).NoDup) (o : Option (Maximum T)) :
    Clean ["maximum", "exclusiveMaximum"] (serFlatOption (serMaximum f) o) := by
  cases o with
  | none => exact .nil _
  | some m =>
    cases m with
    | inclusive a => exact ((Clean.nil []).cons (k := "maximum") (by simp) (hf a)).mono (by simp)
    | exclusive a => exact ((Clean.nil []).cons (k := "exclusiveMaximum") (by simp) (hf a)).mono (by simp)

theorem clean_min {T : Type} {f : T → Json} (hf : ∀ t, (f t).NoDup) (o : Option (Minimum T)) :
    Clean ["minimum", "exclusiveMinimum"] (serFlatOption (serMinimum f) o) := by
  cases o with
  | none => exact .nil _
  | some m =>
    cases m with
    | inclusive a => exact ((Clean.nil []).cons (k := "minimum") (by simp) (hf a)).mono (by simp)
    | exclusive a => exact ((Clean.nil []).cons (k := "exclusiveMinimum") (by simp) (hf a)).mono (by simp)

theorem clean_subtype {st : SubtypeF AS OS (Option Json)} {m : Members}
    (hw : serSchemaSubtype CA CO env.toEnv st = some m)
    (hwa : ∀ a m, CA.ser a = some m → (Json.obj m).NoDup)
    (hwo : ∀ a m, CO.ser a = some m → (Json.obj m).NoDup)
    (hra : ∀ a, st = .array a → CA.Reads a.other) (hro : ∀ a, st = .object a → CO.Reads a.other)
    (hapA : Apart CA.keys Names.schema) (hapO : Apart CO.keys Names.schema)
    (hs : ∀ o m, st = .object o → o.properties = some m → HMap.Sorted m)
    (hc : ∀ c ∈ st.children, CleanOpt c) : Clean (Names.schemaType ++ (CA.keys ++ CO.keys)) m := by
  have tagged : ∀ {K : List String} {ty : String} {m : Members}, Clean K m → "type" ∉ K →
      (∀ k ∈ K, k ∈ Names.schemaType ++ (CA.keys ++ CO.keys)) →
      Clean (Names.schemaType ++ (CA.keys ++ CO.keys)) (("type", Json.str ty) :: m) := by
    intro K ty m h1 h2 h3
    refine (h1.cons (v := .str _) h2 trivial).mono fun k hk => ?_
    rcases List.mem_cons.1 hk with rfl | hk
    · exact List.mem_append_left _ (by decide)
    · exact h3 k hk
  have sub : ∀ {K : List String}, (∀ k ∈ K, k ∈ Names.schemaType) →
      ∀ k ∈ K, k ∈ Names.schemaType ++ (CA.keys ++ CO.keys) :=
    fun h k hk => List.mem_append_left _ (h k hk)
  cases st with
  | boolean => cases hw; exact tagged (.nil []) (by simp) (by simp)
  | null => cases hw; exact tagged (.nil []) (by simp) (by simp)
  | number n =>
    cases hw
    refine tagged (K := _) (((clean_max noDup_f64 _).append (clean_min noDup_f64 _) (by unfold Apart; decide)).append
      (Clean.fields ["multipleOf"] (by decide) rfl ?_) (by unfold Apart; decide)) (by decide) (sub (by decide))
    fields
    exact clean_map fun _ _ => noDup_f64 _
  | integer n =>
    cases hw
    refine tagged (K := _) (((clean_max noDup_i64 _).append (clean_min noDup_i64 _) (by unfold Apart; decide)).append
      (Clean.fields ["multipleOf"] (by decide) rfl ?_) (by unfold Apart; decide)) (by decide) (sub (by decide))
    fields
    exact clean_map fun _ _ => trivial
  | string s =>
    cases hw
    refine tagged (Clean.fields ["minLength", "maxLength", "pattern", "contentEncoding", "contentMediaType"] (by decide) rfl ?_) (by decide) (sub (by decide))
    fields
    exact ⟨clean_map fun _ _ => trivial, clean_map fun _ _ => trivial, clean_str, clean_str, clean_str⟩
  | array a =>
    obtain ⟨m', hm', rfl⟩ := Option.map_eq_some_iff.1 hw
    simp only [serArray, bind, pure, Option.bind_eq_some_iff] at hm'
    obtain ⟨items, hi, other, ho, e⟩ := hm'
    cases e
    have hx := Clean.ext hwa (hra a rfl) ho
    have hK : ∀ k ∈ ["items", "min_items", "max_items"], k ∈ Names.schemaType := by decide
    have h1 : Clean ["items", "min_items", "max_items"] (members [("items", items),
        ("min_items", a.minItems.map fun n => serNat n.1), ("max_items", a.maxItems.map fun n => serNat n.1)]) := by
      refine Clean.fields _ (by decide) rfl ?_
      fields
      refine ⟨clean_optOpt hi ?_, clean_map fun _ _ => trivial, clean_map fun _ _ => trivial⟩
      intro e j he hj
      cases e with
      | elem c =>
        refine hc c ?_ j hj
        simp [SubtypeF.children, he, ElemOrVec.toList]
      | vec l =>
        obtain ⟨js, hjs, rfl⟩ := Option.map_eq_some_iff.1 hj
        exact noDup_mapOpt hjs fun c hcl j hcj => hc c (by simp [SubtypeF.children, he, ElemOrVec.toList, hcl]) j hcj
    refine tagged (h1.append hx ?_) ?_ ?_
    · intro k hk hk'
      exact hapA k hk (List.mem_append_right _ (hK k hk'))
    · intro h
      rcases List.mem_append.1 h with h | h
      · exact absurd h (by decide)
      · exact hapA _ h (by decide)
    · intro k hk
      rcases List.mem_append.1 hk with h | h
      · exact List.mem_append_left _ (hK k h)
      · exact List.mem_append_right _ (List.mem_append_left _ h)
  | object o =>
    obtain ⟨m', hm', rfl⟩ := Option.map_eq_some_iff.1 hw
    simp only [serObject, bind, pure, Option.bind_eq_some_iff] at hm'
    obtain ⟨props, hp, other, ho, e⟩ := hm'
    cases e
    have hx := Clean.ext hwo (hro o rfl) ho
    have hK : ∀ k ∈ ["properties", "required"], k ∈ Names.schemaType := by decide
    have h1 : Clean ["properties", "required"] (members [("properties", props),
        ("required", o.required.map fun l => .arr (l.map .str))]) := by
      refine Clean.fields _ (by decide) rfl ?_
      fields
      refine ⟨clean_optOpt hp ?_, clean_map fun l _ => noDup_arr fun j hj => by
        obtain ⟨s, _, rfl⟩ := List.mem_map.1 hj; trivial⟩
      intro m j hm hj
      refine noDup_serMap (hs o m rfl hm) hj fun kv hkv j hj => hc kv.2 ?_ j hj
      simp only [SubtypeF.children, hm, Option.map_some, Option.getD_some, HMap.values]
      exact List.mem_map_of_mem hkv
    refine tagged (h1.append hx ?_) ?_ ?_
    · intro k hk hk'
      exact hapO k hk (List.mem_append_right _ (hK k hk'))
    · intro h
      rcases List.mem_append.1 h with h | h
      · exact absurd h (by decide)
      · exact hapO _ h (by decide)
    · intro k hk
      rcases List.mem_append.1 hk with h | h
      · exact List.mem_append_left _ (hK k h)
      · exact List.mem_append_right _ (List.mem_append_right _ h)

/-- The names of all members of schemas. -/
def allSchemaNames (C : ExtCodec DSx) (CA : ExtCodec AS) (CO : ExtCodec OS) : List String :=
  Names.schemaHead ++ (Names.schemaType ++ (CA.keys ++ CO.keys)) ++ C.keys

variable (sep : SchemaApart C.keys CA.keys CO.keys)
  (hwc : ∀ a m, C.ser a = some m → (Json.obj m).NoDup)
  (hwa : ∀ a m, CA.ser a = some m → (Json.obj m).NoDup)
  (hwo : ∀ a m, CO.ser a = some m → (Json.obj m).NoDup)

include sep hwc hwa hwo in
theorem clean_schemaMembers {s : DataSchema DSx AS OS} {m : Members}
    (hst : SchemaKept env C CA CO s) (hw : serSchemaMembers C CA CO env.toEnv s = some m)
    (ih : ∀ c, (∃ l, s.oneOf = some l ∧ c ∈ l) ∨ (∃ st, s.subtype = some st ∧ c ∈ st.children) →
      CleanOpt (serSchema C CA CO env.toEnv c)) (K : List String)
    (hK : Clean K (members [("@type", s.head.attype.map serStrings), ("title", s.head.title.map .str),
      ("titles", s.head.titles.map (serLang env.toEnv)), ("description", s.head.description.map .str),
      ("descriptions", s.head.descriptions.map (serLang env.toEnv))])) (hsub : ∀ k ∈ K, k ∈ ["@type", "title", "titles", "description", "descriptions"]) :
    Clean (K ++ ["const", "default", "unit", "oneOf", "enum", "readOnly", "writeOnly", "format"] ++
      (Names.schemaType ++ (CA.keys ++ CO.keys)) ++ C.keys) m := by
  have hn := hst s (.self s)
  simp only [serSchemaMembers, serSchemaStep, bind, pure, Option.bind_eq_some_iff] at hw
  obtain ⟨oneOf, h1, sub, h2, other, h3, e⟩ := hw
  injection e with e
  have hx := Clean.ext hwc hn.other h3
  have hsubty : Clean (Names.schemaType ++ (CA.keys ++ CO.keys)) (sub.getD []) := by
    cases hs : s.subtype with
    | none => rw [hs] at h2; cases h2; exact .nil _
    | some st =>
      rw [hs] at h2
      obtain ⟨m', hm', e⟩ := Option.map_eq_some_iff.1 h2
      cases e
      refine clean_subtype hm' hwa hwo ?_ ?_ (fun k hk h => sep.array k hk (List.mem_append_left _ h))
        (fun k hk h => sep.object k hk (List.mem_append_left _ h)) ?_ ?_
      · intro a ha
        cases st <;> simp only [SubtypeF.map, SubtypeF.array.injEq, reduceCtorEq] at ha
        subst ha
        exact hn.otherArray _ hs
      · intro a ha
        cases st <;> simp only [SubtypeF.map, SubtypeF.object.injEq, reduceCtorEq] at ha
        subst ha
        exact hn.otherObject _ hs
      · intro o m ho hm
        cases st <;> simp only [SubtypeF.map, SubtypeF.object.injEq, reduceCtorEq] at ho
        subst ho
        obtain ⟨m', hm', rfl⟩ := Option.map_eq_some_iff.1 hm
        exact HMap.Sorted.mapVals (hn.properties _ _ hs hm') _
      · intro c hc
        rw [SubtypeF.children_map] at hc
        obtain ⟨c', hc', rfl⟩ := List.mem_map.1 hc
        exact ih c' (.inr ⟨st, hs, hc'⟩)
  have hrest : Clean ["const", "default", "unit", "oneOf", "enum", "readOnly", "writeOnly", "format"]
      (members [("const", s.head.constant),
      ("default", s.head.default), ("unit", s.head.unit.map .str), ("oneOf", oneOf),
      ("enum", s.head.enumeration.map .arr), ("readOnly", some (.bool s.head.readOnly)),
      ("writeOnly", some (.bool s.head.writeOnly)), ("format", s.head.format.map .str)]) := by
    refine Clean.fields _ (by decide) rfl ?_
    fields
    refine ⟨fun v hv => noDup_of_isValue (hn.constant v hv),
      fun v hv => noDup_of_isValue (hn.default v hv), clean_str, clean_optOpt h1 ?_,
      clean_map fun l hl => noDup_arr fun v hv => noDup_of_isValue (hn.enumeration l hl v hv),
      clean_some trivial, clean_some trivial, clean_str⟩
    intro l j hl hj
    obtain ⟨l', hl', rfl⟩ := Option.map_eq_some_iff.1 hl
    obtain ⟨js, hjs, rfl⟩ := Option.map_eq_some_iff.1 hj
    refine noDup_mapOpt hjs fun c hc j hcj => ?_
    obtain ⟨c', hc', rfl⟩ := List.mem_map.1 hc
    exact ih c' (.inl ⟨l', hl', hc'⟩) j hcj
  have hhead := hK.append hrest (by
    intro k hk hk'
    have := hsub k hk'
    revert this
    revert k
    simp only [List.mem_cons, List.not_mem_nil, or_false]
    rintro k (rfl | rfl | rfl | rfl | rfl | rfl | rfl | rfl) _ <;> decide)
  have hsub' : ∀ k ∈ K ++ ["const", "default", "unit", "oneOf", "enum", "readOnly", "writeOnly", "format"],
      k ∈ Names.schemaHead := by
    intro k hk
    rcases List.mem_append.1 hk with h | h
    · have := hsub k h
      revert this k
      simp only [List.mem_cons, List.not_mem_nil, or_false]
      rintro k - - (rfl | rfl | rfl | rfl | rfl) <;> decide
    · exact (show ∀ k ∈ ["const", "default", "unit", "oneOf", "enum", "readOnly", "writeOnly", "format"],
        k ∈ Names.schemaHead by decide) k h
  rw [← e]
  rw [show ∀ (a b c d : Members), a = b → a ++ c ++ d = b ++ c ++ d from fun a b c d h => by rw [h]]
  · refine (hhead.append hsubty ?_).append hx ?_
    · intro k hk hk'
      have hk' := hsub' k hk'
      rcases List.mem_append.1 hk with h | h
      · exact schema_type_head k h hk'
      · rcases List.mem_append.1 h with h | h
        · exact sep.array k h (List.mem_append_left _ (List.mem_append_left _ hk'))
        · exact sep.object k h (List.mem_append_left _ (List.mem_append_left _ hk'))
    · intro k hk hk'
      rcases List.mem_append.1 hk' with h | h
      · exact sep.schema k hk (List.mem_append_left _ (hsub' k h))
      · rcases List.mem_append.1 h with h | h
        · exact sep.schema k hk (List.mem_append_right _ h)
        · rcases List.mem_append.1 h with h | h
          · exact sep.array k h (List.mem_append_right _ hk)
          · exact sep.object k h (List.mem_append_right _ hk)
  · rw [members, members, members, ← List.filterMap_append]; rfl

include sep hwc hwa hwo in
theorem noDup_schema (s : DataSchema DSx AS OS) : SchemaKept env C CA CO s →
    CleanOpt (serSchema C CA CO env.toEnv s) := by
  induction s using Schema.ind with
  | h hd o st ih1 ih2 =>
    intro hst j hj
    rw [serSchema_eq] at hj
    obtain ⟨m, hm, rfl⟩ := Option.map_eq_some_iff.1 hj
    have hn := hst _ (.self _)
    refine (clean_schemaMembers sep hwc hwa hwo hst hm ?_
      ["@type", "title", "titles", "description", "descriptions"] (Clean.fields _ (by decide) rfl ?_)
      fun _ h => h).obj
    · rintro c (⟨l, e, hc⟩ | ⟨t, e, hc⟩)
      · exact ih1 l e c hc fun x hx => hst x (.oneOf e hc hx)
      · exact ih2 t e c hc fun x hx => hst x (within_child e hc hx)
    · fields
      exact ⟨clean_strings, clean_str, clean_lang hn.titles, clean_str, clean_lang hn.descriptions⟩

end

/-! ### Things -/

section
variable {X : ExtTypes} {C : ExtCodecs X} {env : SerdeEnv} (sep : C.Separate) (hw : C.WriteOnce)

include sep hw

theorem noDup_form {f : Form X} {j : Json} (hst : FormKept C f) (hj : serForm C f = some j) :
    j.NoDup := by
  simp only [serForm, bind, pure, Option.bind_eq_some_iff] at hj
  obtain ⟨response, h1, other, h2, e⟩ := hj
  injection e with e
  subst e
  refine ((Clean.fields Names.form (by decide) rfl ?_).append (Clean.ext hw.form hst.other h2)
    sep.form).obj
  fields
  refine ⟨?_, clean_some trivial, clean_str, clean_str, clean_str, clean_strings, clean_strings,
    clean_optOpt h1 ?_, clean_map ?_⟩
  · intro j hj
    cases hf : f.op with
    | default => rw [hf] at hj; cases hj
    | custom l =>
      rw [hf] at hj
      cases l with
      | nil => cases hj; trivial
      | cons a l =>
        cases hj
        exact noDup_arr fun j hj => by obtain ⟨s, _, rfl⟩ := List.mem_map.1 hj; trivial
  · intro r j hr hj
    obtain ⟨m, hm, rfl⟩ := Option.map_eq_some_iff.1 hj
    exact ((Clean.ext hw.response (hst.response r hr) hm).cons (v := .str _)
      (fun h => sep.response _ h (by simp)) trivial).obj
  · intro l _
    refine noDup_oneOrMany fun j hj => ?_
    obtain ⟨r, _, rfl⟩ := List.mem_map.1 hj
    refine (Clean.fields ["success", "contentType", "schema"] (by decide) rfl ?_).obj
    fields
    refine ⟨?_, clean_str, clean_str⟩
    intro j hj
    split at hj <;> cases hj
    trivial

theorem noDup_ds {s : DS X} (hst : DSKept env C s) : CleanOpt (serDS C env.toEnv s) :=
  noDup_schema sep.schemas hw.dataSchema hw.arraySchema hw.objectSchema s hst

theorem noDup_schemas {o : Option (HMap (DS X))} {r : Option Json} (hst : SchemasKept env C o)
    (hr : optOpt (serMap env.toEnv (serDS C env.toEnv)) o = some r) : CleanOpt r :=
  clean_optOpt hr fun m _ hm hj => noDup_serMap (hst m hm).1 hj fun kv hkv j hkj =>
    noDup_ds sep hw ((hst m hm).2 kv hkv) j hkj

/-- Interactions, with the names that occur. -/
theorem clean_interaction {i : Interaction X} {m : Members} (hst : InteractionKept env C i)
    (hm : serInteraction C env.toEnv i = some m) (K : List String)
    (hK : Clean K (members [("@type", i.attype.map serStrings), ("title", i.title.map .str),
      ("titles", i.titles.map (serLang env.toEnv)), ("description", i.description.map .str),
      ("descriptions", i.descriptions.map (serLang env.toEnv))]))
    (hsub : ∀ k ∈ K, k ∈ ["@type", "title", "titles", "description", "descriptions"]) :
    Clean (K ++ ["forms", "uriVariables"] ++ C.interaction.keys) m := by
  simp only [serInteraction, bind, pure, Option.bind_eq_some_iff] at hm
  obtain ⟨forms, h1, uris, h2, other, h3, e⟩ := hm
  injection e with e
  have e2 := members_append [("@type", i.attype.map serStrings), ("title", i.title.map Json.str),
      ("titles", i.titles.map (serLang env.toEnv)), ("description", i.description.map Json.str),
      ("descriptions", i.descriptions.map (serLang env.toEnv))]
      [("forms", some (.arr forms)), ("uriVariables", uris)]
  rw [List.cons_append, List.cons_append, List.cons_append, List.cons_append, List.cons_append,
    List.nil_append] at e2
  rw [← e, e2]
  · refine (hK.append (Clean.fields ["forms", "uriVariables"] (by decide) rfl ?_) ?_).append
      (Clean.ext hw.interaction hst.other h3) ?_
    · fields
      exact ⟨clean_some (noDup_mapOpt h1 fun f hf j hj => noDup_form sep hw (hst.forms f hf) hj),
        noDup_schemas sep hw hst.uriVariables h2⟩
    · intro k hk hk'
      have := hsub k hk'
      revert this hk
      exact (show ∀ k ∈ ["forms", "uriVariables"],
        k ∉ ["@type", "title", "titles", "description", "descriptions"] by decide) k
    · intro k hk hk'
      refine sep.interaction k hk ?_
      rcases List.mem_append.1 hk' with h | h
      · have := hsub k h
        exact (show ∀ k ∈ ["@type", "title", "titles", "description", "descriptions"],
          k ∈ Names.interaction by decide) k this
      · exact (show ∀ k ∈ ["forms", "uriVariables"], k ∈ Names.interaction by decide) k h

theorem clean_interaction' {i : Interaction X} {m : Members} (hst : InteractionKept env C i)
    (hm : serInteraction C env.toEnv i = some m) :
    Clean (Names.interaction ++ C.interaction.keys) m := by
  refine clean_interaction sep hw hst hm ["@type", "title", "titles", "description", "descriptions"]
    (Clean.fields _ (by decide) rfl ?_) fun _ h => h
  fields
  exact ⟨clean_strings, clean_str, clean_lang hst.titles, clean_str, clean_lang hst.descriptions⟩

theorem noDup_action {a : ActionAffordance X} {j : Json} (hst : ActionKept env C a)
    (hj : serAction C env.toEnv a = some j) : j.NoDup := by
  simp only [serAction, bind, pure, Option.bind_eq_some_iff] at hj
  obtain ⟨m, h1, input, h2, output, h3, other, h4, e⟩ := hj
  injection e with e
  subst e
  refine (((clean_interaction' sep hw hst.interaction h1).append (Clean.fields Names.action (by decide) rfl ?_)
    ?_).append (Clean.ext hw.action hst.other h4) sep.action).obj
  · fields
    exact ⟨clean_optOpt h2 fun s j hs hj => noDup_ds sep hw (hst.input s hs) j hj,
      clean_optOpt h3 fun s j hs hj => noDup_ds sep hw (hst.output s hs) j hj,
      clean_some trivial, clean_some trivial, clean_map fun _ _ => trivial⟩
  · intro k hk hk'
    rcases List.mem_append.1 hk' with h | h
    · exact names_ia k h hk
    · exact sep.interactionAction k h hk

theorem noDup_event {a : EventAffordance X} {j : Json} (hst : EventKept env C a)
    (hj : serEvent C env.toEnv a = some j) : j.NoDup := by
  simp only [serEvent, bind, pure, Option.bind_eq_some_iff] at hj
  obtain ⟨m, h1, s1, h2, s2, h3, s3, h4, s4, h5, other, h6, e⟩ := hj
  injection e with e
  subst e
  refine (((clean_interaction' sep hw hst.interaction h1).append (Clean.fields Names.event (by decide) rfl ?_)
    ?_).append (Clean.ext hw.event hst.other h6) sep.event).obj
  · fields
    exact ⟨clean_optOpt h2 fun s j hs hj => noDup_ds sep hw (hst.subscription s hs) j hj,
      clean_optOpt h3 fun s j hs hj => noDup_ds sep hw (hst.data s hs) j hj,
      clean_optOpt h4 fun s j hs hj => noDup_ds sep hw (hst.dataResponse s hs) j hj,
      clean_optOpt h5 fun s j hs hj => noDup_ds sep hw (hst.cancellation s hs) j hj⟩
  · intro k hk hk'
    rcases List.mem_append.1 hk' with h | h
    · exact names_ie k h hk
    · exact sep.interactionEvent k h hk

/-- The members that carry human readable information. -/
abbrev infoMembers (env : Env) (n : Info) : Members :=
  members [("@type", n.attype.map serStrings), ("title", n.title.map .str),
    ("titles", n.titles.map (serLang env)), ("description", n.description.map .str),
    ("descriptions", n.descriptions.map (serLang env))]

omit sep hw in
theorem infoMembers_keys {n : Info} {env : Env} {k : String} (h : k ∈ (infoMembers env n).map (·.1)) :
    (k = "@type" ∧ n.attype.isSome) ∨ (k = "title" ∧ n.title.isSome) ∨ (k = "titles" ∧ n.titles.isSome) ∨
    (k = "description" ∧ n.description.isSome) ∨ (k = "descriptions" ∧ n.descriptions.isSome) := by
  obtain ⟨kv, hkv, rfl⟩ := List.mem_map.1 h
  obtain ⟨⟨k, o⟩, hm, ho⟩ := List.mem_filterMap.1 hkv
  obtain ⟨v, hv, rfl⟩ := Option.map_eq_some_iff.1 ho
  simp only [List.mem_cons, List.not_mem_nil, or_false, Prod.mk.injEq] at hm
  rcases hm with ⟨rfl, he⟩ | ⟨rfl, he⟩ | ⟨rfl, he⟩ | ⟨rfl, he⟩ | ⟨rfl, he⟩ <;>
    (subst he
     obtain ⟨_, e, _⟩ := Option.map_eq_some_iff.1 hv
     simp [e])

omit sep hw in
theorem clean_info {n : Info} (h1 : LangKept env n.titles) (h2 : LangKept env n.descriptions) :
    Clean ((infoMembers env.toEnv n).map (·.1)) (infoMembers env.toEnv n) := by
  have h : Clean ["@type", "title", "titles", "description", "descriptions"] (infoMembers env.toEnv n) := by
    refine Clean.fields _ (by decide) rfl ?_
    fields
    exact ⟨clean_strings, clean_str, clean_lang h1, clean_str, clean_lang h2⟩
  exact ⟨h.nodup, fun kv hkv => List.mem_map_of_mem hkv, h.vals⟩

theorem noDup_property {p : PropertyAffordance X} {j : Json} (hst : PropertyKept env C p)
    (hn : ¬ p.RepeatsInfo) (hj : serProperty C env.toEnv p = some j) : j.NoDup := by
  simp only [serProperty, bind, pure, Option.bind_eq_some_iff] at hj
  obtain ⟨m, h1, s, h2, other, h3, e⟩ := hj
  injection e with e
  subst e
  let ni : Info := ⟨p.interaction.attype, p.interaction.title, p.interaction.titles,
    p.interaction.description, p.interaction.descriptions⟩
  let ns : Info := ⟨p.dataSchema.head.attype, p.dataSchema.head.title, p.dataSchema.head.titles,
    p.dataSchema.head.description, p.dataSchema.head.descriptions⟩
  have hsn := hst.dataSchema _ (.self _)
  have sub : ∀ (n : Info) k, k ∈ (infoMembers env.toEnv n).map (·.1) →
      k ∈ ["@type", "title", "titles", "description", "descriptions"] := by
    intro n k hk
    rcases infoMembers_keys hk with ⟨rfl, _⟩ | ⟨rfl, _⟩ | ⟨rfl, _⟩ | ⟨rfl, _⟩ | ⟨rfl, _⟩ <;> decide
  have hap : ∀ k ∈ (infoMembers env.toEnv ns).map (·.1), k ∉ (infoMembers env.toEnv ni).map (·.1) := by
    intro k hk hk'
    apply hn
    rcases infoMembers_keys hk with ⟨rfl, h⟩ | ⟨rfl, h⟩ | ⟨rfl, h⟩ | ⟨rfl, h⟩ | ⟨rfl, h⟩ <;>
      rcases infoMembers_keys hk' with ⟨e, h'⟩ | ⟨e, h'⟩ | ⟨e, h'⟩ | ⟨e, h'⟩ | ⟨e, h'⟩ <;>
      first
      | exact absurd e (by decide)
      | exact .inl ⟨h', h⟩
      | exact .inr (.inl ⟨h', h⟩)
      | exact .inr (.inr (.inl ⟨h', h⟩))
      | exact .inr (.inr (.inr (.inl ⟨h', h⟩)))
      | exact .inr (.inr (.inr (.inr ⟨h', h⟩)))
  have hi := clean_interaction sep hw hst.interaction h1 ((infoMembers env.toEnv ni).map (·.1))
    (clean_info (n := ni) hst.interaction.titles hst.interaction.descriptions) (sub ni)
  have hs := clean_schemaMembers sep.schemas hw.dataSchema hw.arraySchema hw.objectSchema hst.dataSchema h2
    (by
      rintro c (⟨l, e, hc⟩ | ⟨t, e, hc⟩)
      · exact noDup_ds sep hw fun x hx => hst.dataSchema x (.oneOf e hc hx)
      · exact noDup_ds sep hw fun x hx => hst.dataSchema x (within_child e hc hx))
    ((infoMembers env.toEnv ns).map (·.1)) (clean_info (n := ns) hsn.titles hsn.descriptions) (sub ns)
  have names0 : ∀ k ∈ ["@type", "title", "titles", "description", "descriptions"],
      k ∈ Names.interaction ∧ k ∈ Names.schema ∧ k ∉ ["forms", "uriVariables"] ∧ k ≠ "observable" := by decide
  have names1 : ∀ k ∈ ["const", "default", "unit", "oneOf", "enum", "readOnly", "writeOnly", "format"],
      k ∈ Names.schema ∧ k ∉ Names.interaction ∧ k ≠ "observable" := by decide
  have names2 : ∀ k ∈ Names.schemaType, k ∉ Names.interaction ∧ k ≠ "observable" := by decide
  have names3 : ∀ k ∈ ["forms", "uriVariables"], k ∈ Names.interaction ∧ k ≠ "observable" := by decide
  have subI := sub ni
  have subS := sub ns
  generalize (infoMembers env.toEnv ni).map (·.1) = KI at hi hap subI
  generalize (infoMembers env.toEnv ns).map (·.1) = KS at hs hap subS
  have hKI : ∀ k ∈ KI ++ ["forms", "uriVariables"] ++ C.interaction.keys,
      k ∈ Names.interaction ++ C.interaction.keys ∧ k ≠ "observable" := by
    intro k hk
    rcases List.mem_append.1 hk with h | h
    · rcases List.mem_append.1 h with h | h
      · exact ⟨List.mem_append_left _ (names0 k (subI k h)).1, (names0 k (subI k h)).2.2.2⟩
      · exact ⟨List.mem_append_left _ (names3 k h).1, (names3 k h).2⟩
    · exact ⟨List.mem_append_right _ h, fun e => sep.interactionProperty k h (by simp [e])⟩
  have hKS : ∀ k ∈ KS ++ ["const", "default", "unit", "oneOf", "enum", "readOnly", "writeOnly", "format"] ++
      (Names.schemaType ++ (C.arraySchema.keys ++ C.objectSchema.keys)) ++ C.dataSchema.keys,
      (k ∈ Names.schema ∨ k ∈ C.dataSchema.keys ∨ k ∈ C.arraySchema.keys ∨ k ∈ C.objectSchema.keys) ∧
      k ∉ KI ++ ["forms", "uriVariables"] ∧ k ≠ "observable" := by
    have sub : ∀ {k}, k ∈ KI ++ ["forms", "uriVariables"] → k ∈ "observable" :: Names.interaction := fun h =>
      List.mem_cons_of_mem _ <| by
        rcases List.mem_append.1 h with h | h
        · exact (names0 _ (subI _ h)).1
        · exact (names3 _ h).1
    have sub' : ∀ {k}, k ∉ Names.interaction → k ≠ "observable" → k ∉ KI ++ ["forms", "uriVariables"] :=
      fun h h2 h' => (List.mem_cons.1 (sub h')).elim h2 h
    intro k hk
    rcases List.mem_append.1 hk with h | h
    · rcases List.mem_append.1 h with h | h
      · rcases List.mem_append.1 h with h | h
        · have := names0 k (subS k h)
          exact ⟨.inl this.2.1, fun h' => (List.mem_append.1 h').elim (hap k h) this.2.2.1, this.2.2.2⟩
        · exact ⟨.inl (names1 k h).1, sub' (names1 k h).2.1 (names1 k h).2.2, (names1 k h).2.2⟩
      · rcases List.mem_append.1 h with h | h
        · exact ⟨.inl (List.mem_append_right _ h), sub' (names2 k h).1 (names2 k h).2, (names2 k h).2⟩
        · rcases List.mem_append.1 h with h | h
          · exact ⟨.inr (.inr (.inl h)), fun h' => sep.arraySchemaProperty k h (sub h'),
              fun e => sep.arraySchemaProperty k h (by simp [e])⟩
          · exact ⟨.inr (.inr (.inr h)), fun h' => sep.objectSchemaProperty k h (sub h'),
              fun e => sep.objectSchemaProperty k h (by simp [e])⟩
    · exact ⟨.inr (.inl h), fun h' => sep.dataSchemaProperty k h (sub h'),
        fun e => sep.dataSchemaProperty k h (by simp [e])⟩
  refine (((hi.append hs ?_).append (Clean.fields ["observable"] (by decide) rfl ?_) ?_).append
    (Clean.ext hw.property hst.other h3) ?_).obj
  · intro k hk hk'
    obtain ⟨hin, hno, _⟩ := hKS k hk
    rcases List.mem_append.1 hk' with h | h
    · exact hno h
    · have no := sep.interactionProperty k h
      simp only [List.mem_append, List.mem_cons, List.cons_append, List.append_assoc] at no
      rcases hin with h | h | h | h <;> simp [h] at no
  · fields
    exact clean_map fun _ _ => trivial
  · intro k hk hk'
    rw [List.mem_singleton] at hk
    rcases List.mem_append.1 hk' with h | h
    · exact (hKI k h).2 hk
    · exact (hKS k h).2.2 hk
  · intro k hk hk'
    have no := sep.property k hk
    simp only [List.mem_append, List.mem_cons, List.cons_append, List.append_assoc] at no
    rcases List.mem_append.1 hk' with h | h
    · rcases List.mem_append.1 h with h | h
      · rcases List.mem_append.1 (hKI k h).1 with h | h <;> simp [h] at no
      · rcases (hKS k h).1 with h | h | h | h <;> simp [h] at no
    · rw [List.mem_singleton] at h
      simp [h] at no

/-- The document of a Thing whose properties do not carry the same information twice contains no member
twice. -/
theorem noDup_thing {t : Thing X} {j : Json} (hst : Kept env C t)
    (hn : ∀ m, t.properties = some m → ∀ kv ∈ m, ¬ kv.2.RepeatsInfo) (hj : serThing C env t = some j) :
    j.NoDup := by
  simp only [serThing, bind, pure, Option.bind_eq_some_iff] at hj
  obtain ⟨created, hcr, modified, hmo, properties, hpr, actions, hac, events, hev, forms, hfo,
    secs, hsec, uris, huri, schemas, hsch, other, ho, e⟩ := hj
  injection e with e
  subst e
  refine ((Clean.fields Names.thing (by decide) rfl ?_).append (Clean.ext hw.thing hst.other ho)
    sep.thing).obj
  fields
  have htime : ∀ {x : Option OffsetDateTime} {r : Option Json},
      optOpt (fun d => (env.timeFormat d).map Json.str) x = some r → CleanOpt r := fun h =>
    clean_optOpt h fun a j _ hj => by obtain ⟨s, _, rfl⟩ := Option.map_eq_some_iff.1 hj; trivial
  refine ⟨clean_some (noDup_of_isValue hst.context), clean_str, clean_strings, clean_some trivial,
    clean_lang hst.titles, clean_str, clean_lang hst.descriptions, clean_map ?_, htime hcr, htime hmo,
    clean_str, clean_str, clean_optOpt hpr ?_, clean_optOpt hac ?_, clean_optOpt hev ?_, clean_map ?_,
    clean_optOpt hfo ?_, clean_some (noDup_strings _), clean_some ?_,
    noDup_schemas sep hw hst.uriVariables huri, clean_strings,
    noDup_schemas sep hw hst.schemaDefinitions hsch⟩
  · intro v _
    have hm : ((v.model.map Json.str).getD .null).NoDup := by cases v.model <;> trivial
    exact (((Clean.nil []).cons (k := "model") (by simp) hm).cons (k := "instance")
      (v := .str v.instance_) (by decide) trivial).obj
  · intro m j hm hj
    exact noDup_serMap (hst.properties m hm).1 hj fun kv hkv j hkj =>
      noDup_property sep hw ((hst.properties m hm).2 kv hkv) (hn m hm kv hkv) hkj
  · intro m j hm hj
    exact noDup_serMap (hst.actions m hm).1 hj fun kv hkv j hkj =>
      noDup_action sep hw ((hst.actions m hm).2 kv hkv) hkj
  · intro m j hm hj
    exact noDup_serMap (hst.events m hm).1 hj fun kv hkv j hkj =>
      noDup_event sep hw ((hst.events m hm).2 kv hkv) hkj
  · intro l _
    refine noDup_arr fun j hj => ?_
    obtain ⟨k, _, rfl⟩ := List.mem_map.1 hj
    refine (Clean.fields ["href", "type", "rel", "anchor", "sizes", "hreflang"] (by decide) rfl ?_).obj
    fields
    exact ⟨clean_some trivial, clean_str, clean_str, clean_str, clean_str, clean_strings⟩
  · intro l j hl hj
    obtain ⟨js, hjs, rfl⟩ := Option.map_eq_some_iff.1 hj
    exact noDup_mapOpt hjs fun f hf j hfj => noDup_form sep hw (hst.forms l hl f hf) hfj
  · exact noDup_serMap hst.securityDefinitions hsec fun kv hkv j hkj =>
      noDup_security (hst.security kv hkv) hkj

end

/-! ### Repeated members -/

section
variable {X : ExtTypes} {C : ExtCodecs X} {env : SerdeEnv}

theorem optional_twice {α : Type} {de : Json → Option α} {k : String} {a b : Members} (c : Members)
    (ha : occ k a ≠ []) (hb : occ k b ≠ []) : optional k de (a ++ b ++ c) = none := by
  unfold optional defaulted
  rw [occ_append, occ_append]
  cases ea : occ k a with
  | nil => exact absurd ea ha
  | cons v l =>
    cases eb : occ k b with
    | nil => exact absurd eb hb
    | cons w l' => cases l <;> simp

theorem occ_members {k : String} {v : Json} {L : List (String × Option Json)} (h : (k, some v) ∈ L) :
    occ k (members L) ≠ [] := by
  intro e
  have : v ∈ occ k (members L) := mem_occ.2 (List.mem_filterMap.2 ⟨_, h, rfl⟩)
  rw [e] at this
  cases this

/-- A property whose interaction and schema both carry some information is not read back from text. -/
theorem property_twice {p : PropertyAffordance X} {j : Json} (hr : p.RepeatsInfo)
    (hj : serProperty C env.toEnv p = some j) : deProperty C env j = none := by
  simp only [serProperty, bind, pure, Option.bind_eq_some_iff] at hj
  obtain ⟨m, h1, s, h2, other, h3, e⟩ := hj
  injection e with e
  subst e
  obtain ⟨pi⟩ := InteractionParts.of h1
  obtain ⟨ps⟩ := SchemaParts.of h2
  have twice : ∀ (k : String) {α : Type} (de : Json → Option α), k ≠ "observable" → occ k m ≠ [] →
      occ k s ≠ [] → optional k de (rest ["observable"] (m ++ s ++
        members [("observable", p.observable.map Json.bool)] ++ other)) = none := by
    intro k α de hk h1 h2
    have := optional_twice (de := de) (members [("observable", p.observable.map Json.bool)] ++ other) h1 h2
    unfold optional defaulted at this ⊢
    rw [occ_rest, if_neg (by simpa using hk), List.append_assoc]
    exact this
  have inI : ∀ {k : String} {v : Json}, (k, some v) ∈ _ → occ k m ≠ [] := fun h => by
    rw [congrArg (occ _) pi.eq, occ_append]
    exact fun e => occ_members h (List.append_eq_nil_iff.1 e).1
  have inS : ∀ {k : String} {v : Json}, (k, some v) ∈ _ → occ k s ≠ [] := fun h => by
    rw [congrArg (occ _) ps.eq, occ_append, occ_append]
    exact fun e => occ_members h (List.append_eq_nil_iff.1 (List.append_eq_nil_iff.1 e).1).1
  cases hd : deProperty C env _ with
  | none => rfl
  | some q =>
    exfalso
    simp only [deProperty, deInteraction, bind, pure, Option.bind_eq_some_iff] at hd
    obtain ⟨_, _, _, ⟨_, d1, _, d2, _, d3, _, d4, _, d5, _⟩, _⟩ := hd
    rcases hr with ⟨h, h'⟩ | ⟨h, h'⟩ | ⟨h, h'⟩ | ⟨h, h'⟩ | ⟨h, h'⟩ <;>
      obtain ⟨a, ha⟩ := Option.isSome_iff_exists.1 h <;>
      obtain ⟨b, hb⟩ := Option.isSome_iff_exists.1 h'
    · have := twice "@type" deStrings (by decide) (inI (v := serStrings a) (by simp [ha])) (inS (v := serStrings b) (by simp [hb]))
      rw [d1] at this; cases this
    · have := twice "title" deStr (by decide) (inI (v := .str a) (by simp [ha])) (inS (v := .str b) (by simp [hb]))
      rw [d2] at this; cases this
    · have := twice "titles" (deLang env) (by decide) (inI (v := serLang env.toEnv a) (by simp [ha])) (inS (v := serLang env.toEnv b) (by simp [hb]))
      rw [d3] at this; cases this
    · have := twice "description" deStr (by decide) (inI (v := .str a) (by simp [ha])) (inS (v := .str b) (by simp [hb]))
      rw [d4] at this; cases this
    · have := twice "descriptions" (deLang env) (by decide) (inI (v := serLang env.toEnv a) (by simp [ha])) (inS (v := serLang env.toEnv b) (by simp [hb]))
      rw [d5] at this; cases this

theorem Pointwise.of_mem_left {α β : Type} {R : α → β → Prop} {l : List α} {m : List β}
    (h : Pointwise R l m) : ∀ a ∈ l, ∃ b ∈ m, R a b := by
  induction h with
  | nil => nofun
  | cons hab _ ih =>
    intro a ha
    rcases List.mem_cons.1 ha with rfl | ha
    · exact ⟨_, by simp, hab⟩
    · obtain ⟨b, hb, hr⟩ := ih a ha
      exact ⟨b, List.mem_cons_of_mem _ hb, hr⟩

/-- A Thing with such a property is not read back from text. -/
theorem thing_twice {t : Thing X} {j : Json} {m : HMap (PropertyAffordance X)}
    {kv : String × PropertyAffordance X} (hm : t.properties = some m) (hkv : kv ∈ m)
    (hr : kv.2.RepeatsInfo) (hj : serThing C env t = some j) : deThing C env j = none := by
  simp only [serThing, bind, pure, Option.bind_eq_some_iff] at hj
  obtain ⟨created, hcr, modified, hmo, properties, hpr, actions, hac, events, hev, forms, hfo,
    secs, hsec, uris, huri, schemas, hsch, other, ho, e⟩ := hj
  injection e with e
  subst e
  rw [hm] at hpr
  obtain ⟨jp, hjp, rfl⟩ := Option.map_eq_some_iff.1 hpr
  obtain ⟨ms, hms, rfl⟩ := Option.map_eq_some_iff.1 hjp
  obtain ⟨jkv, hjkv, hk, hser⟩ := (mapOptVals_eq_some.1 hms).of_mem_left kv
    ((env.iter_perm m).mem_iff.2 hkv)
  have hno := property_twice hr hser
  cases hd : deThing C env _ with
  | none => rfl
  | some q =>
    exfalso
    simp only [deThing, bind, pure, Option.bind_eq_some_iff] at hd
    obtain ⟨_, _, _, _, _, _, _, _, _, _, _, _, _, _, _, _, _, _, _, _, _, _, _, _, ps, hps, _⟩ := hd
    have hin : ∀ L, ("properties", some (Json.obj ms)) ∈ L →
        ∀ l, occ "properties" (members L ++ other) = l → Json.obj ms ∈ l := by
      rintro L hL _ rfl
      rw [occ_append]
      exact List.mem_append_left _ (mem_occ.2 (List.mem_filterMap.2 ⟨_, hL, rfl⟩))
    unfold optional defaulted at hps
    split at hps
    · next e =>
      have hin := hin _ (by simp) _ e
      cases hin
    · next v e =>
      have hin := hin _ (by simp) _ e
      rw [List.mem_singleton] at hin
      subst hin
      simp only [deOption, deMap, Option.map_eq_some_iff] at hps
      obtain ⟨_, ⟨l, hl, _⟩, _⟩ := hps
      obtain ⟨b, _, _, hb⟩ := (mapOptVals_eq_some.1 hl).of_mem_left jkv hjkv
      rw [hno] at hb
      cases hb
    · cases hps

end
end Wot
