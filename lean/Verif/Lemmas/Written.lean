import Verif.Spec.Written
import Verif.Lemmas.Unordered
/-
What is written for a Thing, member by member.
-/
namespace Wot

/-! ### Members of what is written -/

/-- The value under a name when the members are stored. -/
def written (m : Members) (k : String) : Option Json := (lastOf (occ k m)).map Json.norm

theorem member_norm (m : Members) (k : String) : (Json.obj m).norm.member k = written m k := get?_norm m k

theorem written_append (a b : Members) (k : String) :
    written (a ++ b) k = (written b k).or (written a k) := by
  unfold written
  rw [occ_append, lastOf_append_list]
  cases lastOf (occ k b) <;> rfl

theorem written_none {m : Members} {k : String} (h : k ∉ m.map (·.1)) : written m k = none := by
  unfold written; rw [occ_eq_nil.2 h]; rfl

theorem written_members {L : List (String × Option Json)} (hn : (L.map (·.1)).Nodup) (k : String) :
    written (members L) k = (fieldOf k L).map Json.norm := by
  unfold written; rw [last_members hn]

theorem written_cons (k' : String) (v : Json) (m : Members) (k : String) :
    written ((k', v) :: m) k = (written m k).or (if k' = k then some v.norm else none) := by
  rw [show (k', v) :: m = [(k', v)] ++ m from rfl, written_append]
  congr 1
  unfold written
  rw [occ_cons]
  by_cases h : k' = k
  · rw [if_pos h, if_pos h]; rfl
  · rw [if_neg h, if_neg h]; rfl

theorem written_own {K : List String} {m : Members} (h : ∀ kv ∈ m, kv.1 ∈ K) {k : String} (hk : k ∉ K) :
    written m k = none :=
  written_none fun hm => by
    obtain ⟨kv, hkv, rfl⟩ := List.mem_map.1 hm
    exact hk (h kv hkv)

theorem isObject_norm (m : Members) : (Json.obj m).norm.IsObject := ⟨_, rfl⟩

theorem only_norm {m : Members} {K : List String} (h : ∀ kv ∈ m, kv.1 ∈ K) : (Json.obj m).norm.Only K := by
  refine ⟨isObject_norm m, fun k hk => ?_⟩
  rw [member_norm] at hk
  exact Classical.byContradiction fun hn => hk (written_own h hn)

theorem Json.Only.mono {v : Json} {K K' : List String} (h : v.Only K) (hk : ∀ k ∈ K, k ∈ K') : v.Only K' :=
  ⟨h.1, fun k hv => hk k (h.2 k hv)⟩

theorem fieldOf_none {L : List (String × Option Json)} {k : String} (h : k ∉ L.map (·.1)) :
    fieldOf k L = none := by
  induction L with
  | nil => rfl
  | cons e L ih =>
    obtain ⟨k', v⟩ := e
    simp only [List.map_cons, List.mem_cons, not_or] at h
    rw [fieldOf, if_neg (Ne.symm h.1), ih h.2]

/-- The fields of a struct, followed by the members of an extension. -/
theorem struct_field {L : List (String × Option Json)} {K : List String} {o : Members}
    (hn : (L.map (·.1)).Nodup) (ho : ∀ kv ∈ o, kv.1 ∈ K) {k : String} (hk : k ∉ K) :
    written (members L ++ o) k = (fieldOf k L).map Json.norm := by
  rw [written_append, written_own ho hk, written_members hn]; rfl

theorem struct_other {L : List (String × Option Json)} {o : Members} {k : String} (hk : k ∉ L.map (·.1)) :
    written (members L ++ o) k = written o k := by
  rw [written_append, written_none (m := members L)]
  · cases written o k <;> rfl
  · intro h
    obtain ⟨kv, hkv, rfl⟩ := List.mem_map.1 h
    exact hk (mem_members hkv)

theorem struct_keys {L : List (String × Option Json)} {K : List String} {o : Members}
    (ho : ∀ kv ∈ o, kv.1 ∈ K) : ∀ kv ∈ members L ++ o, kv.1 ∈ L.map (·.1) ++ K := by
  intro kv h
  rcases List.mem_append.1 h with h | h
  · exact List.mem_append_left _ (mem_members h)
  · exact List.mem_append_right _ (ho kv h)

/-! ### Values -/

theorem optShown {A : Type} {R : A → Json → Prop} {f : A → Json} {o : Option A}
    (h : ∀ a, o = some a → R a (f a).norm) : OptRel R o ((o.map f).map Json.norm) := by
  cases o with
  | none => exact .none
  | some a => exact .some (h a rfl)

theorem optOptShown {A : Type} {R : A → Json → Prop} {f : A → Option Json} {o : Option A} {o' : Option Json}
    (e : optOpt f o = some o') (h : ∀ a j, o = some a → f a = some j → R a j.norm) :
    OptRel R o (o'.map Json.norm) := by
  cases o with
  | none => cases Option.some.inj e; exact .none
  | some a =>
    simp only [optOpt] at e
    cases hf : f a with
    | none => rw [hf] at e; cases e
    | some j => rw [hf] at e; cases Option.some.inj e; exact .some (h a j rfl hf)

theorem strShown (o : Option String) : OptRel StrShown o ((o.map Json.str).map Json.norm) :=
  optShown fun _ _ => rfl

theorem listShown {A : Type} {R : A → Json → Prop} {f : A → Json} {l : List A}
    (h : ∀ a ∈ l, R a (f a).norm) : ListShown R l (Json.arr (l.map f)).norm := by
  rw [Json.norm, normList_eq, List.map_map]
  refine .mk ?_
  induction l with
  | nil => exact .nil
  | cons a l ih => exact .cons (h a (by simp)) (ih fun b hb => h b (by simp [hb]))

theorem mapOptShown {A : Type} {R : A → Json → Prop} {f : A → Option Json} {l : List A} {js : List Json}
    (e : mapOpt f l = some js) (h : ∀ a ∈ l, ∀ j, f a = some j → R a j.norm) :
    ListShown R l (Json.arr js).norm := by
  rw [Json.norm, normList_eq]
  refine .mk ?_
  induction l generalizing js with
  | nil => cases Option.some.inj e; exact .nil
  | cons a l ih =>
    rw [mapOpt] at e
    cases ha : f a with
    | none => simp [ha] at e
    | some b =>
      cases hl : mapOpt f l with
      | none => simp [ha, hl] at e
      | some bs =>
        simp only [ha, hl, Option.some.injEq] at e
        subst e
        exact .cons (h a (by simp) b ha) (ih hl fun c hc => h c (by simp [hc]))

theorem oneOrManyShown {A : Type} {R : A → Json → Prop} {f : A → Json} {l : List A}
    (h : ∀ a ∈ l, R a (f a).norm) : OneOrManyShown R l (serOneOrMany (l.map f)).norm := by
  match l, h with
  | [], h => exact .many (by simp) (listShown h)
  | [a], h => exact .one (h a (by simp))
  | a :: b :: l, h => exact .many (by simp) (listShown h)

theorem stringsShown (l : List String) : StringsShown l (serStrings l).norm := oneOrManyShown fun _ _ => rfl

theorem optStringsShown (o : Option (List String)) :
    OptRel StringsShown o ((o.map serStrings).map Json.norm) := optShown fun l _ => stringsShown l

theorem serMapShown {A : Type} {R : A → Json → Prop} {env : Env} {f : A → Option Json} {m : HMap A} {j : Json}
    (hm : m.Sorted) (e : serMap env f m = some j) (h : ∀ kv ∈ m, ∀ j, f kv.2 = some j → R kv.2 j.norm) :
    MapShown R m j.norm := by
  obtain ⟨l, hl, rfl⟩ := Option.map_eq_some_iff.1 e
  have hp := (mapOptVals_eq_some).1 hl
  have hk : l.map (·.1) = (env.iter m).map (·.1) := by
    clear hl e
    generalize env.iter m = l' at hp
    induction hp with
    | nil => rfl
    | cons h _ ih => rw [List.map_cons, List.map_cons, ih, h.1]
  have hn : (l.map (·.1)).Nodup := by
    rw [hk]; exact ((env.iter_perm m).map _).nodup_iff.2 hm.nodup
  refine .mk (isObject_norm l) fun k => ?_
  rw [member_norm]
  cases hg : HMap.get? m k with
  | none =>
    rw [written_none]
    · exact .none
    · rw [hk]
      intro hmem
      obtain ⟨kv, hkv, rfl⟩ := List.mem_map.1 hmem
      have := HMap.get?_eq_some_of_mem hm.nodup ((env.iter_perm m).mem_iff.1 hkv)
      rw [hg] at this
      cases this
  | some a =>
    have hmem := HMap.mem_of_get? hg
    have : ∃ b, (k, b) ∈ l ∧ f a = some b := by
      have hi := (env.iter_perm m).mem_iff.2 hmem
      clear hl e hk hn
      generalize env.iter m = l' at hp hi
      induction hp with
      | nil => cases hi
      | @cons x y _ _ hxy _ ih =>
        rcases List.mem_cons.1 hi with rfl | hi
        · exact ⟨y.2, by rw [show (k, y.2) = y from Prod.ext hxy.1 rfl]; simp, hxy.2⟩
        · obtain ⟨b, hb, hf⟩ := ih hi
          exact ⟨b, by simp [hb], hf⟩
    obtain ⟨b, hb, hf⟩ := this
    unfold written
    rw [occ_nodup hn hb]
    exact .some (h (k, a) hmem b hf)

theorem langShown {env : Env} {m : MultiLanguage} (hm : m.map.Sorted) : LangShown m (serLang env m).norm := by
  refine serMapShown (env := env) (f := fun s => some (Json.str s)) hm ?_ fun kv _ j hj => by
    cases Option.some.inj hj; rfl
  unfold serMap serLang
  have : ∀ l : List (String × String), mapOptVals (fun s => some (Json.str s)) l =
      some (l.map fun kv => (kv.1, Json.str kv.2)) := by
    intro l
    induction l with
    | nil => rfl
    | cons kv l ih =>
      unfold mapOptVals at ih ⊢
      rw [mapOpt_cons, ih]; rfl
  rw [this]; rfl

theorem optLangShown {env : Env} {o : Option MultiLanguage} (h : ∀ m, o = some m → m.map.Sorted) :
    OptRel LangShown o ((o.map (serLang env)).map Json.norm) := optShown fun m hm => langShown (h m hm)

theorem extShown {A : Type} {c : ExtCodec A} {a : A} {m : Members} {v : Json} (e : c.ser a = some m)
    (h : ∀ k ∈ c.keys, v.member k = written m k) : ExtShown c a v :=
  ⟨m, e, fun k hk => by rw [member_norm, h k hk]⟩

theorem natShown (n : Nat) : NatShown n (serNat n).norm := rfl

theorem intShown (z : I64) : IntShown z.1 (serI64 z).norm := by
  obtain ⟨z, h1, h2⟩ := z
  unfold serI64 I64.val
  by_cases h : 0 ≤ z
  · simp only [h, if_true]
    have : z = (z.toNat : Int) := by omega
    conv => lhs; rw [this]
    exact .pos _
  · simp only [h, if_false]
    have : z = -(((-(z + 1)).toNat : Int) + 1) := by omega
    conv => lhs; rw [this]
    exact .neg _

theorem floatShown (f : F64) : FloatShown f (serF64 f).norm := by
  unfold serF64
  cases h : f.isFinite with
  | true => exact .finite h
  | false => exact .other h

/-! ### Schemas -/

section
variable {DSx AS OS : Type} {C : ExtCodec DSx} {CA : ExtCodec AS} {CO : ExtCodec OS} {env : Env}

theorem written_maximum {T : Type} {R : T → Json → Prop} {f : T → Json} (hf : ∀ a, R a (f a).norm)
    {o : Option (Maximum T)} {v : Json}
    (h : ∀ k ∈ ["maximum", "exclusiveMaximum"], v.member k = written (serFlatOption (serMaximum f) o) k) :
    MaximumShown R o v := by
  have h1 := h "maximum" (by simp)
  have h2 := h "exclusiveMaximum" (by simp)
  match o with
  | none => exact .none h1 h2
  | some (.inclusive a) => exact .inclusive h1 (hf a) h2
  | some (.exclusive a) => exact .exclusive h1 h2 (hf a)

theorem written_minimum {T : Type} {R : T → Json → Prop} {f : T → Json} (hf : ∀ a, R a (f a).norm)
    {o : Option (Minimum T)} {v : Json}
    (h : ∀ k ∈ ["minimum", "exclusiveMinimum"], v.member k = written (serFlatOption (serMinimum f) o) k) :
    MinimumShown R o v := by
  have h1 := h "minimum" (by simp)
  have h2 := h "exclusiveMinimum" (by simp)
  match o with
  | none => exact .none h1 h2
  | some (.inclusive a) => exact .inclusive h1 (hf a) h2
  | some (.exclusive a) => exact .exclusive h1 h2 (hf a)

theorem maximum_keys {T : Type} {f : T → Json} {o : Option (Maximum T)} :
    ∀ kv ∈ serFlatOption (serMaximum f) o, kv.1 ∈ ["maximum", "exclusiveMaximum"] := by
  rintro kv h
  match o with
  | none => cases h
  | some (.inclusive a) => simp only [serFlatOption, serMaximum, List.mem_singleton] at h; subst h; simp
  | some (.exclusive a) => simp only [serFlatOption, serMaximum, List.mem_singleton] at h; subst h; simp

theorem minimum_keys {T : Type} {f : T → Json} {o : Option (Minimum T)} :
    ∀ kv ∈ serFlatOption (serMinimum f) o, kv.1 ∈ ["minimum", "exclusiveMinimum"] := by
  rintro kv h
  match o with
  | none => cases h
  | some (.inclusive a) => simp only [serFlatOption, serMinimum, List.mem_singleton] at h; subst h; simp
  | some (.exclusive a) => simp only [serFlatOption, serMinimum, List.mem_singleton] at h; subst h; simp

/-- The members of a range. -/
theorem written_range {T : Type} {f : T → Json} {a : Option (Maximum T)} {b : Option (Minimum T)}
    {c : Option Json} {v : Json}
    (h : ∀ k ∈ Names.schemaType, v.member k = written (("type", .str t) ::
      (serFlatOption (serMaximum f) a ++ serFlatOption (serMinimum f) b ++ members [("multipleOf", c)])) k) :
    v.member "type" = some (.str t) ∧
    (∀ k ∈ ["maximum", "exclusiveMaximum"], v.member k = written (serFlatOption (serMaximum f) a) k) ∧
    (∀ k ∈ ["minimum", "exclusiveMinimum"], v.member k = written (serFlatOption (serMinimum f) b) k) ∧
    v.member "multipleOf" = c.map Json.norm ∧
    v.Lacks Names.schemaType
      ["type", "maximum", "exclusiveMaximum", "minimum", "exclusiveMinimum", "multipleOf"] := by
  have g : ∀ k ∈ Names.schemaType, v.member k =
      (((fieldOf k [("multipleOf", c)]).map Json.norm).or ((written (serFlatOption (serMinimum f) b) k).or
        (written (serFlatOption (serMaximum f) a) k))).or (if "type" = k then some (.str t) else none) := by
    intro k hk
    rw [h k hk, written_cons, written_append, written_append, written_members (by simp)]; rfl
  have n1 : ∀ k, k ∉ ["maximum", "exclusiveMaximum"] → written (serFlatOption (serMaximum f) a) k = none :=
    fun k hk => written_own maximum_keys hk
  have n2 : ∀ k, k ∉ ["minimum", "exclusiveMinimum"] → written (serFlatOption (serMinimum f) b) k = none :=
    fun k hk => written_own minimum_keys hk
  refine ⟨?_, ?_, ?_, ?_, ?_⟩
  · rw [g _ (by decide), n1 _ (by decide), n2 _ (by decide)]; rfl
  · intro k hk
    rw [g k (by revert k; decide), n2 k (by revert k; decide)]
    simp only [List.mem_cons, List.not_mem_nil, or_false] at hk
    rcases hk with rfl | rfl <;> simp [fieldOf]
  · intro k hk
    rw [g k (by revert k; decide), n1 k (by revert k; decide)]
    simp only [List.mem_cons, List.not_mem_nil, or_false] at hk
    rcases hk with rfl | rfl <;> simp [fieldOf]
  · rw [g _ (by decide), n1 _ (by decide), n2 _ (by decide)]; simp [fieldOf]
  · intro k hk hn
    simp only [List.mem_cons, List.not_mem_nil, or_false, not_or] at hn
    obtain ⟨h1, h2, h3, h4, h5, h6⟩ := hn
    rw [g k hk, n1 k (by simp [h2, h3]), n2 k (by simp [h4, h5])]
    simp [fieldOf, Ne.symm h1, Ne.symm h6]

theorem range_keys {T : Type} {f : T → Json} {a : Option (Maximum T)} {b : Option (Minimum T)}
    {c : Option Json} {t : String} : ∀ kv ∈ (("type", Json.str t) ::
      (serFlatOption (serMaximum f) a ++ serFlatOption (serMinimum f) b ++ members [("multipleOf", c)])),
    kv.1 ∈ Names.schemaType := by
  intro kv h
  rcases List.mem_cons.1 h with rfl | h
  · exact (by decide : "type" ∈ Names.schemaType)
  · rcases List.mem_append.1 h with h | h
    · rcases List.mem_append.1 h with h | h
      · exact (by decide : ∀ k ∈ ["maximum", "exclusiveMaximum"], k ∈ Names.schemaType) _ (maximum_keys kv h)
      · exact (by decide : ∀ k ∈ ["minimum", "exclusiveMinimum"], k ∈ Names.schemaType) _ (minimum_keys kv h)
    · exact (by decide : ∀ k ∈ ["multipleOf"], k ∈ Names.schemaType) _ (mem_members h)

/-- What is assumed of the extensions of schemas. -/
structure SchemaExt (C : ExtCodec DSx) (CA : ExtCodec AS) (CO : ExtCodec OS) : Prop where
  apart : SchemaApart C.keys CA.keys CO.keys
  own : C.Own
  ownArray : CA.Own
  ownObject : CO.Own

theorem subtype_keys (hX : SchemaExt C CA CO) {S : Type} {f : S → Option Json} {st : Option (SubtypeF AS OS S)}
    {y : Option Members} (hy : optOpt (serSchemaSubtype CA CO env) (st.map (SubtypeF.map f)) = some y) :
    ∀ kv ∈ y.getD [], kv.1 ∈ Names.schemaType ++ typeKeys CA CO st := by
  cases st with
  | none => cases Option.some.inj hy; intro kv h; cases h
  | some st =>
    obtain ⟨m, hm, rfl⟩ := Option.map_eq_some_iff.1 hy
    show ∀ kv ∈ m, _
    cases st with
    | array a =>
      obtain ⟨m', hm', rfl⟩ := Option.map_eq_some_iff.1 hm
      obtain ⟨items, -, hm'⟩ := Option.bind_eq_some_iff.1 hm'
      obtain ⟨other, ho, hm'⟩ := Option.bind_eq_some_iff.1 hm'
      cases Option.some.inj hm'
      intro kv h
      have := struct_keys (L := [("type", some _), ("items", _), ("min_items", _), ("max_items", _)])
        (hX.ownArray _ _ ho) kv h
      exact List.mem_append.2 ((List.mem_append.1 this).imp
        (fun h => (by decide : ∀ k ∈ ["type", "items", "min_items", "max_items"], k ∈ Names.schemaType) _ h) id)
    | object o =>
      obtain ⟨m', hm', rfl⟩ := Option.map_eq_some_iff.1 hm
      obtain ⟨items, -, hm'⟩ := Option.bind_eq_some_iff.1 hm'
      obtain ⟨other, ho, hm'⟩ := Option.bind_eq_some_iff.1 hm'
      cases Option.some.inj hm'
      intro kv h
      have := struct_keys (L := [("type", some _), ("properties", _), ("required", _)])
        (hX.ownObject _ _ ho) kv h
      exact List.mem_append.2 ((List.mem_append.1 this).imp
        (fun h => (by decide : ∀ k ∈ ["type", "properties", "required"], k ∈ Names.schemaType) _ h) id)
    | boolean =>
      cases Option.some.inj hm
      intro kv h; rw [List.mem_singleton.1 h]; exact List.mem_append_left _ (by decide)
    | null =>
      cases Option.some.inj hm
      intro kv h; rw [List.mem_singleton.1 h]; exact List.mem_append_left _ (by decide)
    | number n =>
      cases Option.some.inj hm
      exact fun kv h => List.mem_append_left _ (range_keys kv h)
    | integer n =>
      cases Option.some.inj hm
      exact fun kv h => List.mem_append_left _ (range_keys kv h)
    | string s =>
      cases Option.some.inj hm
      intro kv h
      refine List.mem_append_left _ ?_
      have := mem_members (l := [("type", some _), ("minLength", _), ("maxLength", _), ("pattern", _),
        ("contentEncoding", _), ("contentMediaType", _)]) h
      exact (by decide : ∀ k ∈ ["type", "minLength", "maxLength", "pattern", "contentEncoding",
        "contentMediaType"], k ∈ Names.schemaType) _ this

theorem lacks_of {v : Json} {L : List (String × Option Json)} {K : List String} (hK : L.map (·.1) = K)
    (h : ∀ k ∈ Names.schemaType, v.member k = (fieldOf k L).map Json.norm) : v.Lacks Names.schemaType K := by
  intro k hk hn
  rw [h k hk, fieldOf_none (by rw [hK]; exact hn)]; rfl

theorem subtype_shown (hX : SchemaExt C CA CO) {S : Type} {R : S → Json → Prop} {f : S → Option Json}
    {st : Option (SubtypeF AS OS S)} {y : Option Members} {v : Json}
    (hs : ∀ o m, st = some (.object o) → o.properties = some m → HMap.Sorted m)
    (hR : ∀ s, st = some s → ∀ c ∈ s.children, ∀ j, f c = some j → R c j.norm)
    (hy : optOpt (serSchemaSubtype CA CO env) (st.map (SubtypeF.map f)) = some y)
    (hv : ∀ k ∈ Names.schemaType ++ typeKeys CA CO st, v.member k = written (y.getD []) k) :
    TypeShown CA CO R st v := by
  cases st with
  | none =>
    cases Option.some.inj hy
    exact .none fun k hk _ => hv k (List.mem_append_left _ hk)
  | some st =>
    have hR := hR st rfl
    obtain ⟨m, hm, rfl⟩ := Option.map_eq_some_iff.1 hy
    have hv' : ∀ k ∈ Names.schemaType, v.member k = written m k := fun k hk =>
      hv k (List.mem_append_left _ hk)
    cases st with
    | array a =>
      obtain ⟨m', hm', rfl⟩ := Option.map_eq_some_iff.1 hm
      obtain ⟨items, hi, hm'⟩ := Option.bind_eq_some_iff.1 hm'
      obtain ⟨other, ho, hm'⟩ := Option.bind_eq_some_iff.1 hm'
      cases Option.some.inj hm'
      have ap : ∀ k ∈ Names.schemaType, k ∉ CA.keys := fun k hk hc =>
        hX.apart.array k hc (by simp [Names.schema, hk])
      have g : ∀ k ∈ Names.schemaType, v.member k = (fieldOf k [("type", some (Json.str "array")),
          ("items", items), ("min_items", a.minItems.map fun n => serNat n.1),
          ("max_items", a.maxItems.map fun n => serNat n.1)]).map Json.norm := fun k hk =>
        (hv' k hk).trans (struct_field (L := [("type", some _), ("items", _), ("min_items", _),
          ("max_items", _)]) (by names) (hX.ownArray _ _ ho) (ap k hk))
      refine .array ?_ ?_ ?_ ?_ (lacks_of rfl g) ?_
      · rw [g _ (by decide)]; simp [fieldOf, Json.norm]
      · rw [g _ (by decide)]
        have e : optOpt (fun i => serItems (i.map f)) a.items = some items := by
          rw [← hi]; cases a.items <;> rfl
        simp only [fieldOf, String.reduceEq, ↓reduceIte]
        refine optOptShown e fun i j hi' hj => ?_
        cases i with
        | elem c => exact .elem (hR c (by simp [SubtypeF.children, hi', ElemOrVec.toList]) j hj)
        | vec l =>
          obtain ⟨js, hjs, rfl⟩ := Option.map_eq_some_iff.1 hj
          rw [mapOpt_map] at hjs
          exact .vec (mapOptShown hjs fun c hc j hj =>
            hR c (by simp [SubtypeF.children, hi', ElemOrVec.toList, hc]) j hj)
      · rw [g _ (by decide)]; simp only [fieldOf, String.reduceEq, ↓reduceIte]; exact optShown fun _ _ => natShown _
      · rw [g _ (by decide)]; simp only [fieldOf, String.reduceEq, ↓reduceIte]; exact optShown fun _ _ => natShown _
      · refine extShown ho fun k hk => ?_
        refine (hv k (List.mem_append_right _ hk)).trans (struct_other (L := [("type", some _), ("items", _),
          ("min_items", _), ("max_items", _)]) fun h => ap k ?_ hk)
        exact (by decide : ∀ k ∈ ["type", "items", "min_items", "max_items"], k ∈ Names.schemaType) _ h
    | object o =>
      obtain ⟨m', hm', rfl⟩ := Option.map_eq_some_iff.1 hm
      obtain ⟨props, hi, hm'⟩ := Option.bind_eq_some_iff.1 hm'
      obtain ⟨other, ho, hm'⟩ := Option.bind_eq_some_iff.1 hm'
      cases Option.some.inj hm'
      have ap : ∀ k ∈ Names.schemaType, k ∉ CO.keys := fun k hk hc =>
        hX.apart.object k hc (by simp [Names.schema, hk])
      have g : ∀ k ∈ Names.schemaType, v.member k = (fieldOf k [("type", some (Json.str "object")),
          ("properties", props), ("required", o.required.map fun l => .arr (l.map .str))]).map Json.norm :=
        fun k hk => (hv' k hk).trans (struct_field (L := [("type", some _), ("properties", _),
          ("required", _)]) (by names) (hX.ownObject _ _ ho) (ap k hk))
      refine .object ?_ ?_ ?_ (lacks_of rfl g) ?_
      · rw [g _ (by decide)]; simp [fieldOf, Json.norm]
      · rw [g _ (by decide)]
        have e : optOpt (fun m => serMap env id (HMap.mapVals f m)) o.properties = some props := by
          rw [← hi]; cases o.properties <;> rfl
        simp only [fieldOf, String.reduceEq, ↓reduceIte]
        refine optOptShown e fun i j hi' hj => ?_
        have := serMapShown (R := fun (o : Option Json) (w : Json) => ∃ j, o = some j ∧ w = j.norm)
          ((hs o i rfl hi').mapVals f) hj (fun kv _ j hj => ⟨j, hj, rfl⟩)
        obtain ⟨ho, hk⟩ := this
        refine .mk ho fun k => ?_
        have hk := hk k
        rw [HMap.get?_mapVals] at hk
        generalize j.norm.member k = w at hk ⊢
        cases hg : HMap.get? i k with
        | none => rw [hg] at hk; cases hk; exact .none
        | some c =>
          rw [hg] at hk
          cases hk with
          | some h =>
            obtain ⟨j', e1, rfl⟩ := h
            exact .some (hR c (by
              simp only [SubtypeF.children, hi']; exact List.mem_map_of_mem (HMap.mem_of_get? hg)) j' e1)
      · rw [g _ (by decide)]; simp only [fieldOf, String.reduceEq, ↓reduceIte]
        exact optShown fun l _ => listShown fun _ _ => rfl
      · refine extShown ho fun k hk => ?_
        refine (hv k (List.mem_append_right _ hk)).trans (struct_other (L := [("type", some _),
          ("properties", _), ("required", _)]) fun h => ap k ?_ hk)
        exact (by decide : ∀ k ∈ ["type", "properties", "required"], k ∈ Names.schemaType) _ h
    | boolean =>
      cases Option.some.inj hm
      exact .boolean (hv' _ (by decide)) fun k hk hn => by
        rw [hv' k hk, written_none]; exact hn
    | null =>
      cases Option.some.inj hm
      exact .null (hv' _ (by decide)) fun k hk hn => by
        rw [hv' k hk, written_none]; exact hn
    | number n =>
      cases Option.some.inj hm
      obtain ⟨h1, h2, h3, h4, h5⟩ := written_range hv'
      exact .number h1 (written_maximum floatShown h2) (written_minimum floatShown h3)
        (by rw [h4]; exact optShown fun _ _ => floatShown _) h5
    | integer n =>
      cases Option.some.inj hm
      obtain ⟨h1, h2, h3, h4, h5⟩ := written_range hv'
      exact .integer h1 (written_maximum intShown h2) (written_minimum intShown h3)
        (by rw [h4]; exact optShown fun _ _ => natShown _) h5
    | string s =>
      cases Option.some.inj hm
      have g : ∀ k ∈ Names.schemaType, v.member k = (fieldOf k [("type", some (Json.str "string")),
          ("minLength", s.minLength.map fun n => serNat n.1),
          ("maxLength", s.maxLength.map fun n => serNat n.1), ("pattern", s.pattern.map .str),
          ("contentEncoding", s.contentEncoding.map .str),
          ("contentMediaType", s.contentMediaType.map .str)]).map Json.norm :=
        fun k hk => (hv' k hk).trans (written_members (L := [("type", some _), ("minLength", _),
          ("maxLength", _), ("pattern", _), ("contentEncoding", _), ("contentMediaType", _)]) (by names) k)
      refine .string ?_ ?_ ?_ ?_ ?_ ?_ (lacks_of rfl g)
      · rw [g _ (by decide)]; simp [fieldOf, Json.norm]
      · rw [g _ (by decide)]; simp only [fieldOf, String.reduceEq, ↓reduceIte]; exact optShown fun _ _ => natShown _
      · rw [g _ (by decide)]; simp only [fieldOf, String.reduceEq, ↓reduceIte]; exact optShown fun _ _ => natShown _
      · rw [g _ (by decide)]; simp only [fieldOf, String.reduceEq, ↓reduceIte]; exact strShown _
      · rw [g _ (by decide)]; simp only [fieldOf, String.reduceEq, ↓reduceIte]; exact strShown _
      · rw [g _ (by decide)]; simp only [fieldOf, String.reduceEq, ↓reduceIte]; exact strShown _

/-- Looks up a member of what is written. -/
local macro "field " g:ident : tactic =>
  `(tactic| (rw [$g:ident _ (by decide)]; simp only [fieldOf, String.reduceEq, ↓reduceIte]))

theorem schema_keys (hX : SchemaExt C CA CO) {s : DataSchema DSx AS OS} {m : Members}
    (hm : serSchemaMembers C CA CO env s = some m) :
    ∀ kv ∈ m, kv.1 ∈ Names.schema ++ C.keys ++ typeKeys CA CO s.subtype := by
  obtain ⟨oneOf, -, hm⟩ := Option.bind_eq_some_iff.1 hm
  obtain ⟨y, hy, hm⟩ := Option.bind_eq_some_iff.1 hm
  obtain ⟨other, ho, hm⟩ := Option.bind_eq_some_iff.1 hm
  cases Option.some.inj hm
  intro kv h
  rcases List.mem_append.1 h with h | h
  · rcases List.mem_append.1 h with h | h
    · have : kv.1 ∈ Names.schemaHead := mem_members h
      simp only [Names.schema, List.mem_append]; exact .inl (.inl (.inl this))
    · have := List.mem_append.1 (subtype_keys hX hy kv h)
      simp only [Names.schema, List.mem_append]
      rcases this with h | h
      · exact .inl (.inl (.inr h))
      · exact .inr h
  · have := hX.own _ _ ho kv h
    simp only [Names.schema, List.mem_append]; exact .inl (.inr this)

theorem node_shown (hX : SchemaExt C CA CO) {R : DataSchema DSx AS OS → Json → Prop}
    {s : DataSchema DSx AS OS} {m : Members} {v : Json} (hs : NodeMaps s)
    (h1 : ∀ l, s.oneOf = some l → ∀ c ∈ l, ∀ j, serSchema C CA CO env c = some j → R c j.norm)
    (h2 : ∀ st, s.subtype = some st → ∀ c ∈ st.children, ∀ j, serSchema C CA CO env c = some j → R c j.norm)
    (hm : serSchemaMembers C CA CO env s = some m)
    (hv : ∀ k ∈ Names.schema ++ C.keys ++ typeKeys CA CO s.subtype, v.member k = written m k) :
    NodeShown C CA CO R s v := by
  obtain ⟨oneOf, hone, hm⟩ := Option.bind_eq_some_iff.1 hm
  obtain ⟨y, hy, hm⟩ := Option.bind_eq_some_iff.1 hm
  obtain ⟨other, ho, hm⟩ := Option.bind_eq_some_iff.1 hm
  cases Option.some.inj hm
  have hT : ∀ k ∈ typeKeys CA CO s.subtype, k ∉ Names.schema ++ C.keys := by
    intro k hk
    match hst : s.subtype with
    | none => rw [hst] at hk; cases hk
    | some (.array a) => rw [hst] at hk; exact hX.apart.array k hk
    | some (.object a) => rw [hst] at hk; exact hX.apart.object k hk
    | some .boolean | some (.number _) | some (.integer _) | some (.string _) | some .null =>
      rw [hst] at hk; cases hk
  have hC : ∀ k ∈ C.keys, k ∉ Names.schema := hX.apart.schema
  have disj : ∀ k ∈ Names.schemaHead, k ∉ Names.schemaType := by decide
  have gs : ∀ k, k ∉ Names.schemaType → k ∉ typeKeys CA CO s.subtype → written (y.getD []) k = none :=
    fun k h1 h2 => written_own (subtype_keys hX hy) (by simp [h1, h2])
  have go : ∀ k, k ∉ C.keys → written other k = none := fun k hk => written_own (hX.own _ _ ho) hk
  have g : ∀ k ∈ Names.schemaHead, v.member k = (fieldOf k [("@type", s.head.attype.map serStrings),
      ("title", s.head.title.map .str), ("titles", s.head.titles.map (serLang env)),
      ("description", s.head.description.map .str), ("descriptions", s.head.descriptions.map (serLang env)),
      ("const", s.head.constant), ("default", s.head.default), ("unit", s.head.unit.map .str),
      ("oneOf", oneOf), ("enum", s.head.enumeration.map .arr), ("readOnly", some (.bool s.head.readOnly)),
      ("writeOnly", some (.bool s.head.writeOnly)), ("format", s.head.format.map .str)]).map Json.norm := by
    intro k hk
    have n1 : k ∉ C.keys := fun h => hC k h (by simp [Names.schema, hk])
    have n2 : k ∉ typeKeys CA CO s.subtype := fun h => hT k h (by simp [Names.schema, hk])
    rw [hv k (by simp [Names.schema, hk]), written_append, go k n1, written_append, gs k (disj k hk) n2,
      written_members (by names)]
    rfl
  have nm : ∀ k, k ∉ Names.schemaHead → ∀ L : List (String × Option Json), L.map (·.1) = Names.schemaHead →
      written (members L) k = none := fun k hk L hL =>
    written_own (K := Names.schemaHead) (fun kv h => hL ▸ mem_members h) hk
  refine .mk ?_ ?_ ?_ ?_ ?_ ?_ ?_ ?_ ?_ ?_ ?_ ?_ ?_ ?_ ?_
  · field g; exact optStringsShown _
  · field g; exact strShown _
  · field g; exact optLangShown hs.1
  · field g; exact strShown _
  · field g; exact optLangShown hs.2.1
  · field g
  · field g
  · field g; exact strShown _
  · field g
    have e : optOpt (fun l => (mapOpt (serSchema C CA CO env) l).map Json.arr) s.oneOf = some oneOf := by
      rw [← hone]
      cases s.oneOf with
      | none => rfl
      | some l => simp only [Option.map_some, optOpt, mapOpt_map]; rfl
    refine optOptShown e fun l j hl hj => ?_
    obtain ⟨js, hjs, rfl⟩ := Option.map_eq_some_iff.1 hj
    exact mapOptShown hjs (h1 l hl)
  · field g
    refine optShown fun l _ => ?_
    have := listShown (R := fun a w => w = Json.norm a) (f := id) (l := l) fun _ _ => rfl
    rwa [List.map_id] at this
  · field g; rfl
  · field g; rfl
  · field g; exact strShown _
  · refine subtype_shown hX hs.2.2 h2 hy fun k hk => ?_
    have n3 : k ∈ Names.schemaType ++ typeKeys CA CO s.subtype → k ∉ C.keys := by
      intro hk hc
      rcases List.mem_append.1 hk with h | h
      · exact hC k hc (by simp [Names.schema, h])
      · exact hT k h (by simp [hc])
    have n4 : k ∈ Names.schemaType ++ typeKeys CA CO s.subtype → k ∉ Names.schemaHead := by
      intro hk hc
      rcases List.mem_append.1 hk with h | h
      · exact disj k hc h
      · exact hT k h (by simp [Names.schema, hc])
    rw [hv k ?_, written_append, go k (n3 hk), written_append, nm k (n4 hk) _ rfl]
    · cases written (y.getD []) k <;> rfl
    · simp only [Names.schema, List.mem_append] at hk ⊢
      rcases hk with h | h
      · exact .inl (.inl (.inr h))
      · exact .inr h
  · refine extShown ho fun k hk => ?_
    have n1 : k ∉ Names.schema := hC k hk
    simp only [Names.schema, List.mem_append, not_or] at n1
    rw [hv k (by simp [hk]), written_append, written_append, nm k n1.1 _ rfl,
      gs k n1.2 fun h => hT k h (by simp [hk])]
    cases written other k <;> rfl

theorem serSchema_members (s : DataSchema DSx AS OS) :
    serSchema C CA CO env s = (serSchemaMembers C CA CO env s).map .obj := by
  cases s with
  | mk hd o st => rw [serSchema, Schema.fold_mk]; rfl

theorem schema_shown (hX : SchemaExt C CA CO) {s : DataSchema DSx AS OS} (hs : ∀ x, Within x s → NodeMaps x)
    {j : Json} (hj : serSchema C CA CO env s = some j) : SchemaShown C CA CO s j.norm := by
  induction s using Schema.ind generalizing j with
  | h hd o st ih1 ih2 =>
    rw [serSchema_members] at hj
    obtain ⟨m, hm, rfl⟩ := Option.map_eq_some_iff.1 hj
    refine .mk (node_shown hX (hs _ (.self _)) ?_ ?_ hm fun k _ => member_norm m k) (only_norm (schema_keys hX hm))
    · exact fun l hl c hc j hj => ih1 l hl c hc (fun x hx => hs x (within_iff.2 (.inr (.inl ⟨l, hl, c, hc, hx⟩)))) hj
    · exact fun st' hst c hc j hj => ih2 st' hst c hc
        (fun x hx => hs x (within_iff.2 (.inr (.inr ⟨st', hst, c, hc, hx⟩)))) hj

end

/-! ### Forms, links and security definitions -/

local macro "field " g:ident : tactic =>
  `(tactic| (rw [$g:ident _ (by decide)]; simp only [fieldOf, String.reduceEq, ↓reduceIte]))

/-- The members of a struct without extension. -/
theorem struct_get {L : List (String × Option Json)} (hn : (L.map (·.1)).Nodup) (k : String) :
    (Json.obj (members L)).norm.member k = (fieldOf k L).map Json.norm := by
  rw [member_norm, written_members hn]

theorem struct_only {L : List (String × Option Json)} : (Json.obj (members L)).norm.Only (L.map (·.1)) :=
  only_norm fun _ h => mem_members h

theorem struct_lookup {N K : List String} {o : Members} (hd : Apart K N) (ho : ∀ kv ∈ o, kv.1 ∈ K)
    {L : List (String × Option Json)} (hn : (L.map (·.1)).Nodup) :
    ∀ k ∈ N, (Json.obj (members L ++ o)).norm.member k = (fieldOf k L).map Json.norm := fun k hk => by
  rw [member_norm, struct_field hn ho fun h => hd k h hk]

theorem link_shown (l : Link) : LinkShown l (serLink l).norm := by
  have g := struct_get (L := [("href", some (.str l.href)), ("type", l.ty.map .str), ("rel", l.rel.map .str),
    ("anchor", l.anchor.map .str), ("sizes", l.sizes.map .str), ("hreflang", l.hreflang.map serStrings)])
    (by names)
  have only := struct_only (L := [("href", some (.str l.href)), ("type", l.ty.map .str), ("rel", l.rel.map .str),
    ("anchor", l.anchor.map .str), ("sizes", l.sizes.map .str), ("hreflang", l.hreflang.map serStrings)])
  rw [serLink]
  refine ⟨?_, ?_, ?_, ?_, ?_, ?_, only⟩ <;> rw [g] <;> simp only [fieldOf, String.reduceEq, ↓reduceIte]
  · rfl
  · exact strShown _
  · exact strShown _
  · exact strShown _
  · exact strShown _
  · exact optStringsShown _

theorem additional_shown (r : AdditionalResponse) : AdditionalShown r (serAdditional r).norm := by
  have g := struct_get (L := [("success", if r.success then some (.bool true) else none),
    ("contentType", r.contentType.map .str), ("schema", r.schema.map .str)]) (by names)
  have only := struct_only (L := [("success", if r.success then some (.bool true) else none),
    ("contentType", r.contentType.map .str), ("schema", r.schema.map .str)])
  rw [serAdditional]
  refine ⟨?_, ?_, ?_, only⟩ <;> rw [g] <;> simp only [fieldOf, String.reduceEq, ↓reduceIte]
  · cases r.success <;> rfl
  · exact strShown _
  · exact strShown _

theorem version_shown (i : VersionInfo) : VersionShown i (serVersion i).norm := by
  have e : serVersion i = .obj (members [("instance", some (.str i.instance_)),
    ("model", some ((i.model.map Json.str).getD .null))]) := rfl
  have g := struct_get (L := [("instance", some (.str i.instance_)),
    ("model", some ((i.model.map Json.str).getD .null))]) (by names)
  have only := struct_only (L := [("instance", some (.str i.instance_)),
    ("model", some ((i.model.map Json.str).getD .null))])
  rw [e]
  refine ⟨?_, ?_, only⟩ <;> rw [g] <;> simp only [fieldOf, String.reduceEq, ↓reduceIte]
  · rfl
  · cases i.model <;> rfl

theorem response_shown {R : Type} {C : ExtCodec R} (ho : C.Own) (ha : Apart C.keys ["contentType"])
    {r : ExpectedResponse R} {j : Json} (hj : serResponse C r = some j) : ResponseShown C r j.norm := by
  obtain ⟨m, hm, rfl⟩ := Option.map_eq_some_iff.1 hj
  refine ⟨?_, extShown hm fun k hk => ?_, only_norm ?_⟩
  · refine (member_norm _ _).trans ((struct_field (L := [("contentType", some _)]) (by names) (ho _ _ hm)
      fun h => ha _ h (by simp)).trans ?_)
    rfl
  · exact (member_norm _ _).trans (struct_other (L := [("contentType", some _)]) fun h => ha k hk h)
  · exact struct_keys (L := [("contentType", some _)]) (ho _ _ hm)

theorem op_shown (o : FormOps) : OpsShown o ((opMember o).map Json.norm) := by
  match o with
  | .default => exact .default
  | .custom [] => exact .empty
  | .custom (a :: l) => exact .some (listShown (f := serOperation) fun _ _ => rfl)

variable {X : ExtTypes} {C : ExtCodecs X} {env : Env}

theorem form_shown (hs : C.Separate) (ho : C.Own) {f : Form X} {j : Json} (hj : serForm C f = some j) :
    FormShown C f j.norm := by
  obtain ⟨response, hr, hj⟩ := Option.bind_eq_some_iff.1 hj
  obtain ⟨other, hot, hj⟩ := Option.bind_eq_some_iff.1 hj
  cases Option.some.inj hj
  have g := struct_lookup hs.form (ho.form _ _ hot) (L := [("op", opMember f.op), ("href", some (.str f.href)),
     ("contentType", f.contentType.map .str), ("contentCoding", f.contentCoding.map .str),
     ("subprotocol", f.subprotocol.map .str), ("security", f.security.map serStrings),
     ("scopes", f.scopes.map serStrings), ("response", response),
     ("additionalResponses", f.additionalResponses.map fun l => serOneOrMany (l.map serAdditional))]) (by names)
  refine ⟨?_, ?_, ?_, ?_, ?_, ?_, ?_, ?_, ?_, extShown hot fun k hk => ?_, ?_⟩
  · field g; exact op_shown _
  · field g; rfl
  · field g; exact strShown _
  · field g; exact strShown _
  · field g; exact strShown _
  · field g; exact optStringsShown _
  · field g; exact optStringsShown _
  · field g; exact optOptShown hr fun r j _ hj => response_shown ho.response hs.response hj
  · field g; exact optShown fun l _ => oneOrManyShown fun r _ => additional_shown r
  · exact (member_norm _ _).trans (struct_other (fun h => hs.form k hk h))
  · exact only_norm (struct_keys (ho.form _ _ hot))

/-! ### Security definitions -/

theorem location_shown (l : SecLocation) : (serLocation l).norm = .str l.text := by cases l <;> rfl

theorem qop_shown (q : QoP) : (serQoP q).norm = .str q.text := by cases q <;> rfl

theorem known_shown {s : KnownScheme} {v : Json}
    (hv : ∀ k, k ∉ Names.security → v.member k = written (serKnown s) k) :
    ∃ names, KnownShown s v names ∧ ∀ kv ∈ serKnown s, kv.1 ∈ names := by
  have sg : ∀ L : List (String × Option Json), (L.map (·.1)).Nodup → serKnown s = members L →
      ∀ k, k ∉ Names.security → v.member k = (fieldOf k L).map Json.norm := by
    intro L hn e k hk
    rw [hv k hk, e, written_members hn]
  cases s with
  | noSec =>
    refine ⟨_, .noSec (hv "scheme" (by decide)), fun kv h => ?_⟩
    rw [List.mem_singleton.1 h]; simp
  | auto =>
    refine ⟨_, .auto (hv "scheme" (by decide)), fun kv h => ?_⟩
    rw [List.mem_singleton.1 h]; simp
  | basic s =>
    have g := sg _ (by names) rfl
    refine ⟨_, .basic ?_ ?_ ?_, fun kv h => mem_members h⟩
    · field g; rfl
    · field g; exact congrArg some (location_shown _)
    · field g; exact strShown _
  | digest s =>
    have g := sg _ (by names) rfl
    refine ⟨_, .digest ?_ ?_ ?_ ?_, fun kv h => mem_members h⟩
    · field g; rfl
    · field g; exact congrArg some (qop_shown _)
    · field g; exact congrArg some (location_shown _)
    · field g; exact strShown _
  | apiKey s =>
    have g := sg _ (by names) rfl
    refine ⟨_, .apiKey ?_ ?_ ?_, fun kv h => mem_members h⟩
    · field g; rfl
    · field g; exact congrArg some (location_shown _)
    · field g; exact strShown _
  | bearer s =>
    have g := sg _ (by names) rfl
    refine ⟨_, .bearer ?_ ?_ ?_ ?_ ?_ ?_, fun kv h => mem_members h⟩
    · field g; rfl
    · field g; exact strShown _
    · field g; rfl
    · field g; rfl
    · field g; exact congrArg some (location_shown _)
    · field g; exact strShown _
  | psk s =>
    have g := sg _ (by names) rfl
    refine ⟨_, .psk ?_ ?_, fun kv h => mem_members h⟩
    · field g; rfl
    · field g; exact strShown _
  | oauth2 s =>
    have g := sg _ (by names) rfl
    refine ⟨_, .oauth2 ?_ ?_ ?_ ?_ ?_ ?_, fun kv h => mem_members h⟩
    · field g; rfl
    · field g; exact strShown _
    · field g; exact strShown _
    · field g; exact strShown _
    · field g; exact optStringsShown _
    · field g; rfl
  | combo c => cases c with
  | oneOf l =>
    have g := sg [("scheme", some (.str "combo")), ("oneOf", some (serStrings l))] (by names) rfl
    refine ⟨_, .oneOf (w := (serStrings l).norm) ?_ ?_ (stringsShown l),
      fun kv h => mem_members (l := [("scheme", some _), ("oneOf", some _)]) h⟩
    · field g; rfl
    · field g; rfl
  | allOf l =>
    have g := sg [("scheme", some (.str "combo")), ("allOf", some (serStrings l))] (by names) rfl
    refine ⟨_, .allOf (w := (serStrings l).norm) ?_ ?_ (stringsShown l),
      fun kv h => mem_members (l := [("scheme", some _), ("allOf", some _)]) h⟩
    · field g; rfl
    · field g; rfl

theorem scheme_shown {s : SchemeSubtype} (ho : s.OwnNames) {m : Members} (hm : serSubtype s = some m) {v : Json}
    (hv : ∀ k, k ∉ Names.security → v.member k = written m k) :
    ∃ names, SchemeShown s v names ∧ (∀ kv ∈ m, kv.1 ∈ names) := by
  match s with
  | .known k =>
    cases Option.some.inj hm
    obtain ⟨names, h1, h2⟩ := known_shown hv
    exact ⟨names, .known h1, h2⟩
  | .unknown scheme .null =>
    cases Option.some.inj hm
    exact ⟨_, .customNull (hv _ (by decide)), fun kv h => by rw [List.mem_singleton.1 h]; simp⟩
  | .unknown scheme (.obj d) =>
    cases Option.some.inj hm
    have hn : "scheme" ∉ d.map (·.1) := by
      intro h
      obtain ⟨kv, hkv, e⟩ := List.mem_map.1 h
      have := ho scheme d rfl kv hkv
      rw [e] at this
      exact this (by simp)
    refine ⟨_, .custom ?_ fun k hk => ?_, ?_⟩
    · rw [hv _ (by decide), written_cons, written_none hn]; rfl
    · obtain ⟨kv, hkv, rfl⟩ := List.mem_map.1 hk
      have := ho scheme d rfl kv hkv
      simp only [List.mem_cons, not_or] at this
      rw [hv _ this.2, member_norm, written_cons, if_neg (Ne.symm this.1)]
      cases written d kv.1 <;> rfl
    · intro kv h
      rcases List.mem_cons.1 h with rfl | h
      · simp
      · exact List.mem_cons_of_mem _ (List.mem_map_of_mem h)
  | .unknown scheme (.bool _) | .unknown scheme (.num _) | .unknown scheme (.str _)
  | .unknown scheme (.arr _) => cases hm

theorem subtype_apart {s : SchemeSubtype} (ho : s.OwnNames) {m : Members} (hm : serSubtype s = some m) :
    ∀ k ∈ Names.security, written m k = none := by
  intro k hk
  refine written_none fun h => ?_
  obtain ⟨kv, hkv, rfl⟩ := List.mem_map.1 h
  match s with
  | .known k =>
    cases Option.some.inj hm
    obtain ⟨names, h1, h2⟩ := known_shown (s := k) (v := (Json.obj (serKnown k)).norm) fun _ _ => member_norm _ _
    have := h2 kv hkv
    generalize kv.1 = x at this hk
    clear hkv h hm ho h2
    revert x
    cases h1 <;> decide
  | .unknown scheme .null =>
    cases Option.some.inj hm
    rw [List.mem_singleton.1 hkv] at hk
    exact absurd hk (by decide : "scheme" ∉ Names.security)
  | .unknown scheme (.obj d) =>
    cases Option.some.inj hm
    rcases List.mem_cons.1 hkv with rfl | hkv
    · exact absurd hk (by decide : "scheme" ∉ Names.security)
    · exact ho scheme d rfl kv hkv (by simp [hk])
  | .unknown scheme (.bool _) | .unknown scheme (.num _) | .unknown scheme (.str _)
  | .unknown scheme (.arr _) => cases hm

theorem security_shown {s : SecurityScheme} (hs : ∀ m, s.descriptions = some m → m.map.Sorted)
    (ho : s.subtype.OwnNames) {j : Json} (hj : serSecurity env s = some j) : SecurityShown s j.norm := by
  obtain ⟨m, hm, rfl⟩ := Option.map_eq_some_iff.1 hj
  have ap := subtype_apart ho hm
  have g : ∀ k ∈ Names.security, (Json.obj (members [("@type", s.attype.map serStrings),
      ("description", s.description.map .str), ("descriptions", s.descriptions.map (serLang env)),
      ("proxy", s.proxy.map .str)] ++ m)).norm.member k = (fieldOf k [("@type", s.attype.map serStrings),
      ("description", s.description.map .str), ("descriptions", s.descriptions.map (serLang env)),
      ("proxy", s.proxy.map .str)]).map Json.norm := by
    intro k hk
    rw [member_norm, written_append, ap k hk, written_members (by names)]; rfl
  refine ⟨?_, ?_, ?_, ?_, ?_⟩
  · field g; exact optStringsShown _
  · field g; exact strShown _
  · field g; exact optLangShown hs
  · field g; exact strShown _
  · obtain ⟨names, h1, h2⟩ := scheme_shown ho hm fun k hk =>
      (member_norm _ k).trans (struct_other (L := [("@type", _), ("description", _), ("descriptions", _),
        ("proxy", _)]) hk)
    exact ⟨names, h1, only_norm (struct_keys h2)⟩

/-! ### Affordances -/

theorem ExtCodecs.Own.schemas (ho : C.Own) (hs : C.Separate) :
    SchemaExt C.dataSchema C.arraySchema C.objectSchema :=
  ⟨hs.schemas, ho.dataSchema, ho.arraySchema, ho.objectSchema⟩

theorem ds_shown (hs : C.Separate) (ho : C.Own) {s : DS X} (h : DSMaps s) {j : Json}
    (hj : serDS C env s = some j) : DSShown C s j.norm := schema_shown (ho.schemas hs) h hj

theorem optDs_shown (hs : C.Separate) (ho : C.Own) {o : Option (DS X)} (h : ∀ s, o = some s → DSMaps s)
    {o' : Option Json} (e : optOpt (serDS C env) o = some o') : OptRel (DSShown C) o (o'.map Json.norm) :=
  optOptShown e fun s _ hs' hj => ds_shown hs ho (h s hs') hj

theorem schemas_shown (hs : C.Separate) (ho : C.Own) {o : Option (HMap (DS X))} (hm : ∀ m, o = some m → m.Sorted)
    (h : ∀ m, o = some m → ∀ kv ∈ m, DSMaps kv.2) {o' : Option Json}
    (e : optOpt (serMap env (serDS C env)) o = some o') :
    OptRel (MapShown (DSShown C)) o (o'.map Json.norm) :=
  optOptShown e fun m _ hm' hj => serMapShown (hm m hm') hj fun kv hkv _ hj => ds_shown hs ho (h m hm' kv hkv) hj

theorem interaction_keys (ho : C.Own) {i : Interaction X} {m : Members} (hm : serInteraction C env i = some m) :
    ∀ kv ∈ m, kv.1 ∈ Names.interaction ++ C.interaction.keys := by
  obtain ⟨forms, -, hm⟩ := Option.bind_eq_some_iff.1 hm
  obtain ⟨uriVariables, -, hm⟩ := Option.bind_eq_some_iff.1 hm
  obtain ⟨other, hot, hm⟩ := Option.bind_eq_some_iff.1 hm
  cases Option.some.inj hm
  exact struct_keys (ho.interaction _ _ hot)

theorem interaction_shown (hs : C.Separate) (ho : C.Own) {i : Interaction X} (hi : InteractionMaps i)
    {m : Members} (hm : serInteraction C env i = some m) {v : Json}
    (hv : ∀ k ∈ Names.interaction ++ C.interaction.keys, v.member k = written m k) : InteractionShown C i v := by
  obtain ⟨forms, hf, hm⟩ := Option.bind_eq_some_iff.1 hm
  obtain ⟨uriVariables, hu, hm⟩ := Option.bind_eq_some_iff.1 hm
  obtain ⟨other, hot, hm⟩ := Option.bind_eq_some_iff.1 hm
  cases Option.some.inj hm
  have g : ∀ k ∈ Names.interaction, v.member k = _ := fun k hk =>
    (hv k (by simp [hk])).trans ((member_norm _ k).symm.trans (struct_lookup hs.interaction
      (ho.interaction _ _ hot) (L := [("@type", i.attype.map serStrings), ("title", i.title.map .str),
      ("titles", i.titles.map (serLang env)), ("description", i.description.map .str),
      ("descriptions", i.descriptions.map (serLang env)), ("forms", some (.arr forms)),
      ("uriVariables", uriVariables)]) (by names) k hk))
  refine ⟨?_, ?_, ?_, ?_, ?_, ⟨(Json.arr forms).norm, ?_, ?_⟩, ?_, extShown hot fun k hk => ?_⟩
  · field g; exact optStringsShown _
  · field g; exact strShown _
  · field g; exact optLangShown hi.titles
  · field g; exact strShown _
  · field g; exact optLangShown hi.descriptions
  · field g; rfl
  · exact mapOptShown hf fun f _ j hj => form_shown hs ho hj
  · field g; exact schemas_shown hs ho hi.uriVariables hi.schemas hu
  · exact (hv k (by simp [hk])).trans (struct_other fun h => hs.interaction k hk h)

theorem action_shown (hs : C.Separate) (ho : C.Own) {a : ActionAffordance X} (hi : InteractionMaps a.interaction)
    (h1 : ∀ s, a.input = some s → DSMaps s) (h2 : ∀ s, a.output = some s → DSMaps s) {j : Json}
    (hj : serAction C env a = some j) : ActionShown C a j.norm := by
  obtain ⟨m, hm, hj⟩ := Option.bind_eq_some_iff.1 hj
  obtain ⟨input, hin, hj⟩ := Option.bind_eq_some_iff.1 hj
  obtain ⟨output, hout, hj⟩ := Option.bind_eq_some_iff.1 hj
  obtain ⟨other, hot, hj⟩ := Option.bind_eq_some_iff.1 hj
  cases Option.some.inj hj
  have hk := interaction_keys ho hm
  have hoo := ho.action _ _ hot
  have gm : ∀ k, k ∉ Names.interaction ++ C.interaction.keys → written m k = none := fun k h => written_own hk h
  have go : ∀ k, k ∉ C.action.keys → written other k = none := fun k h => written_own hoo h
  have gl : ∀ L : List (String × Option Json), L.map (·.1) = Names.action → ∀ k, k ∉ Names.action →
      written (members L) k = none := fun L hL k hk =>
    written_own (K := Names.action) (fun kv h => hL ▸ mem_members h) hk
  have disj : ∀ k ∈ Names.action, k ∉ Names.interaction := by decide
  have g : ∀ k ∈ Names.action, (Json.obj (m ++ members [("input", input), ("output", output),
      ("safe", some (.bool a.safe)), ("idempotent", some (.bool a.idempotent)),
      ("synchronous", a.synchronous.map .bool)] ++ other)).norm.member k = (fieldOf k [("input", input),
      ("output", output), ("safe", some (.bool a.safe)), ("idempotent", some (.bool a.idempotent)),
      ("synchronous", a.synchronous.map .bool)]).map Json.norm := by
    intro k hk
    rw [member_norm, written_append, written_append, go k (fun h => hs.action k h (by simp [hk])),
      gm k (by simp only [List.mem_append, not_or]; exact ⟨disj k hk, fun h => hs.interactionAction k h hk⟩),
      written_members (by names)]
    simp
  refine ⟨interaction_shown hs ho hi hm fun k hk => ?_, ?_, ?_, ?_, ?_, ?_, extShown hot fun k hk => ?_,
    only_norm fun kv h => ?_⟩
  · rw [member_norm, written_append, written_append, go k fun h => hs.action k h (by
      rcases List.mem_append.1 hk with h | h <;> simp [h]), gl _ rfl k fun h => ?_]
    · simp
    · rcases List.mem_append.1 hk with h' | h'
      · exact disj k h h'
      · exact hs.interactionAction k h' h
  · field g; exact optDs_shown hs ho h1 hin
  · field g; exact optDs_shown hs ho h2 hout
  · field g; rfl
  · field g; rfl
  · field g; cases a.synchronous <;> rfl
  · have := hs.action k hk
    simp only [List.mem_append, not_or] at this
    rw [member_norm, written_append, written_append, gl _ rfl k this.2, gm k (by simp [this.1])]
    simp
  · simp only [List.mem_append] at h ⊢
    rcases h with (h | h) | h
    · have := hk kv h
      simp only [List.mem_append] at this
      rcases this with h | h
      · exact .inl (.inl (.inr h))
      · exact .inl (.inr h)
    · exact .inl (.inl (.inl (mem_members h)))
    · exact .inr (hoo kv h)

theorem event_shown (hs : C.Separate) (ho : C.Own) {a : EventAffordance X} (hi : InteractionMaps a.interaction)
    (h1 : ∀ s, a.subscription = some s → DSMaps s) (h2 : ∀ s, a.data = some s → DSMaps s)
    (h3 : ∀ s, a.dataResponse = some s → DSMaps s) (h4 : ∀ s, a.cancellation = some s → DSMaps s) {j : Json}
    (hj : serEvent C env a = some j) : EventShown C a j.norm := by
  obtain ⟨m, hm, hj⟩ := Option.bind_eq_some_iff.1 hj
  obtain ⟨s1, e1, hj⟩ := Option.bind_eq_some_iff.1 hj
  obtain ⟨s2, e2, hj⟩ := Option.bind_eq_some_iff.1 hj
  obtain ⟨s3, e3, hj⟩ := Option.bind_eq_some_iff.1 hj
  obtain ⟨s4, e4, hj⟩ := Option.bind_eq_some_iff.1 hj
  obtain ⟨other, hot, hj⟩ := Option.bind_eq_some_iff.1 hj
  cases Option.some.inj hj
  have hk := interaction_keys ho hm
  have hoo := ho.event _ _ hot
  have gm : ∀ k, k ∉ Names.interaction ++ C.interaction.keys → written m k = none := fun k h => written_own hk h
  have go : ∀ k, k ∉ C.event.keys → written other k = none := fun k h => written_own hoo h
  have gl : ∀ L : List (String × Option Json), L.map (·.1) = Names.event → ∀ k, k ∉ Names.event →
      written (members L) k = none := fun L hL k hk =>
    written_own (K := Names.event) (fun kv h => hL ▸ mem_members h) hk
  have disj : ∀ k ∈ Names.event, k ∉ Names.interaction := by decide
  have g : ∀ k ∈ Names.event, (Json.obj (m ++ members [("subscription", s1), ("data", s2),
      ("data_response", s3), ("cancellation", s4)] ++ other)).norm.member k = (fieldOf k
      [("subscription", s1), ("data", s2), ("data_response", s3), ("cancellation", s4)]).map Json.norm := by
    intro k hk
    rw [member_norm, written_append, written_append, go k (fun h => hs.event k h (by simp [hk])),
      gm k (by simp only [List.mem_append, not_or]; exact ⟨disj k hk, fun h => hs.interactionEvent k h hk⟩),
      written_members (by names)]
    simp
  refine ⟨interaction_shown hs ho hi hm fun k hk => ?_, ?_, ?_, ?_, ?_, extShown hot fun k hk => ?_,
    only_norm fun kv h => ?_⟩
  · rw [member_norm, written_append, written_append, go k fun h => hs.event k h (by
      rcases List.mem_append.1 hk with h | h <;> simp [h]), gl _ rfl k fun h => ?_]
    · simp
    · rcases List.mem_append.1 hk with h' | h'
      · exact disj k h h'
      · exact hs.interactionEvent k h' h
  · field g; exact optDs_shown hs ho h1 e1
  · field g; exact optDs_shown hs ho h2 e2
  · field g; exact optDs_shown hs ho h3 e3
  · field g; exact optDs_shown hs ho h4 e4
  · have := hs.event k hk
    simp only [List.mem_append, not_or] at this
    rw [member_norm, written_append, written_append, gl _ rfl k this.2, gm k (by simp [this.1])]
    simp
  · simp only [List.mem_append] at h ⊢
    rcases h with (h | h) | h
    · have := hk kv h
      simp only [List.mem_append] at this
      rcases this with h | h
      · exact .inl (.inl (.inr h))
      · exact .inl (.inr h)
    · exact .inl (.inl (.inl (mem_members h)))
    · exact .inr (hoo kv h)

theorem interaction_written (hs : C.Separate) (ho : C.Own) {i : Interaction X} {m : Members}
    (hm : serInteraction C env i = some m) : ∃ forms uriVariables, ∀ k ∈ Names.interaction, written m k =
      (fieldOf k [("@type", i.attype.map serStrings), ("title", i.title.map .str),
        ("titles", i.titles.map (serLang env)), ("description", i.description.map .str),
        ("descriptions", i.descriptions.map (serLang env)), ("forms", some (.arr forms)),
        ("uriVariables", uriVariables)]).map Json.norm := by
  obtain ⟨forms, -, hm⟩ := Option.bind_eq_some_iff.1 hm
  obtain ⟨uriVariables, -, hm⟩ := Option.bind_eq_some_iff.1 hm
  obtain ⟨other, hot, hm⟩ := Option.bind_eq_some_iff.1 hm
  cases Option.some.inj hm
  exact ⟨forms, uriVariables, fun k hk => struct_field (by names) (ho.interaction _ _ hot)
    fun h => hs.interaction k h hk⟩

theorem head_written {DSx AS OS : Type} {C : ExtCodec DSx} {CA : ExtCodec AS} {CO : ExtCodec OS}
    (hX : SchemaExt C CA CO) {s : DataSchema DSx AS OS} {m : Members}
    (hm : serSchemaMembers C CA CO env s = some m) : ∀ k ∈ sharedNames, written m k =
      (fieldOf k [("@type", s.head.attype.map serStrings), ("title", s.head.title.map .str),
        ("titles", s.head.titles.map (serLang env)), ("description", s.head.description.map .str),
        ("descriptions", s.head.descriptions.map (serLang env))]).map Json.norm := by
  obtain ⟨oneOf, hone, hm⟩ := Option.bind_eq_some_iff.1 hm
  obtain ⟨y, hy, hm⟩ := Option.bind_eq_some_iff.1 hm
  obtain ⟨other, ho, hm⟩ := Option.bind_eq_some_iff.1 hm
  cases Option.some.inj hm
  intro k hk
  have hk' : k ∈ Names.schema := (by decide : ∀ k ∈ sharedNames, k ∈ Names.schema) k hk
  have hk'' : k ∉ Names.schemaType := (by decide : ∀ k ∈ sharedNames, k ∉ Names.schemaType) k hk
  have hT : k ∉ typeKeys CA CO s.subtype := by
    intro hk
    match hst : s.subtype with
    | none => rw [hst] at hk; cases hk
    | some (.array a) => rw [hst] at hk; exact hX.apart.array k hk (by simp [hk'])
    | some (.object a) => rw [hst] at hk; exact hX.apart.object k hk (by simp [hk'])
    | some .boolean | some (.number _) | some (.integer _) | some (.string _) | some .null =>
      rw [hst] at hk; cases hk
  rw [written_append, written_append, written_own (hX.own _ _ ho) (fun h => hX.apart.schema k h hk'),
    written_own (subtype_keys hX hy) (by simp [hk'', hT]), written_members (by names)]
  simp only [sharedNames, List.mem_cons, List.not_mem_nil, or_false] at hk
  rcases hk with rfl | rfl | rfl | rfl | rfl <;>
    simp only [fieldOf, String.reduceEq, ↓reduceIte, Option.none_or]

theorem property_shown (hs : C.Separate) (ho : C.Own) {p : PropertyAffordance X} (ha : p.Agrees)
    (hi : InteractionMaps p.interaction) (hd : DSMaps p.dataSchema) {j : Json}
    (hj : serProperty C env p = some j) : PropertyShown C p j.norm := by
  obtain ⟨m, hm, hj⟩ := Option.bind_eq_some_iff.1 hj
  obtain ⟨d, hdm, hj⟩ := Option.bind_eq_some_iff.1 hj
  obtain ⟨other, hot, hj⟩ := Option.bind_eq_some_iff.1 hj
  cases Option.some.inj hj
  have hX := ho.schemas hs
  have hk := interaction_keys ho hm
  have hkd := schema_keys hX hdm
  have hoo := ho.property _ _ hot
  have hT : ∀ k ∈ typeKeys C.arraySchema C.objectSchema p.dataSchema.subtype,
      k ∈ C.arraySchema.keys ∨ k ∈ C.objectSchema.keys := by
    intro k hk
    match hst : p.dataSchema.subtype with
    | none => rw [hst] at hk; cases hk
    | some (.array a) => rw [hst] at hk; exact .inl hk
    | some (.object a) => rw [hst] at hk; exact .inr hk
    | some .boolean | some (.number _) | some (.integer _) | some (.string _) | some .null =>
      rw [hst] at hk; cases hk
  have shared : ∀ k ∈ sharedNames, written m k = written d k := by
    obtain ⟨forms, uriVariables, h⟩ := interaction_written hs ho hm
    intro k hk
    rw [h k ((by decide : ∀ k ∈ sharedNames, k ∈ Names.interaction) k hk), head_written hX hdm k hk]
    simp only [sharedNames, List.mem_cons, List.not_mem_nil, or_false] at hk
    rcases hk with rfl | rfl | rfl | rfl | rfl <;>
      simp only [fieldOf, String.reduceEq, ↓reduceIte, ha.attype, ha.title, ha.titles, ha.description,
        ha.descriptions]
  have or_self : ∀ o : Option Json, o.or o = o := fun o => by cases o <;> rfl
  -- the four parts do not meet elsewhere
  have np : ∀ k ∈ "observable" :: Names.interaction ++ C.interaction.keys ++ Names.schema ++ C.dataSchema.keys ++
      typeKeys C.arraySchema C.objectSchema p.dataSchema.subtype, written other k = none := by
    refine fun k hk => written_own hoo fun h => hs.property k h ?_
    simp only [List.mem_append] at hk ⊢
    rcases hk with hk | hk
    · exact .inl (.inl hk)
    · rcases hT k hk with h | h
      · exact .inl (.inr h)
      · exact .inr h
  have nd : ∀ k ∈ Names.interaction ++ C.interaction.keys, k ∉ sharedNames → written d k = none := by
    intro k hk hn
    refine written_own hkd fun h => ?_
    have disj : ∀ k ∈ Names.interaction, k ∉ sharedNames → k ∉ Names.schema := by decide
    simp only [List.mem_append] at h hk
    rcases hk with hk | hk
    · rcases h with (h | h) | h
      · exact disj k hk hn h
      · exact hs.dataSchemaProperty k h (by simp [hk])
      · rcases hT k h with h | h
        · exact hs.arraySchemaProperty k h (by simp [hk])
        · exact hs.objectSchemaProperty k h (by simp [hk])
    · refine hs.interactionProperty k hk ?_
      simp only [List.mem_append, List.mem_cons]
      rcases h with (h | h) | h
      · exact .inl (.inl (.inl (.inr h)))
      · exact .inl (.inl (.inr h))
      · rcases hT k h with h | h
        · exact .inl (.inr h)
        · exact .inr h
  have ni : ∀ k ∈ Names.schema ++ C.dataSchema.keys ++
      typeKeys C.arraySchema C.objectSchema p.dataSchema.subtype, k ∉ sharedNames → written m k = none := by
    intro k hk' hn
    refine written_own hk fun h => ?_
    have disj : ∀ k ∈ Names.interaction, k ∉ sharedNames → k ∉ Names.schema := by decide
    simp only [List.mem_append] at h hk'
    rcases h with hk | hk
    · rcases hk' with (h | h) | h
      · exact disj k hk hn h
      · exact hs.dataSchemaProperty k h (by simp [hk])
      · rcases hT k h with h | h
        · exact hs.arraySchemaProperty k h (by simp [hk])
        · exact hs.objectSchemaProperty k h (by simp [hk])
    · refine hs.interactionProperty k hk ?_
      simp only [List.mem_append, List.mem_cons]
      rcases hk' with (h | h) | h
      · exact .inl (.inl (.inl (.inr h)))
      · exact .inl (.inl (.inr h))
      · rcases hT k h with h | h
        · exact .inl (.inr h)
        · exact .inr h
  have nob : ∀ k ∈ Names.interaction ++ C.interaction.keys ++ Names.schema ++ C.dataSchema.keys ++
      typeKeys C.arraySchema C.objectSchema p.dataSchema.subtype, k ≠ "observable" := by
    rintro k hk rfl
    simp only [List.mem_append] at hk
    rcases hk with (((h | h) | h) | h) | h
    · exact absurd h (by decide)
    · exact hs.interactionProperty _ h (by simp)
    · exact absurd h (by decide)
    · exact hs.dataSchemaProperty _ h (by simp)
    · rcases hT _ h with h | h
      · exact hs.arraySchemaProperty _ h (by simp)
      · exact hs.objectSchemaProperty _ h (by simp)
  have gob : ∀ k, k ≠ "observable" → written (members [("observable", p.observable.map .bool)]) k = none :=
    fun k hk => by rw [written_members (by names), fieldOf_none (by simpa using hk)]; rfl
  have get : ∀ k, (Json.obj (m ++ d ++ members [("observable", p.observable.map .bool)] ++ other)).norm.member k =
      (written other k).or ((written (members [("observable", p.observable.map .bool)]) k).or
        ((written d k).or (written m k))) := fun k => by
    rw [member_norm, written_append, written_append, written_append]
  refine ⟨interaction_shown hs ho hi hm fun k hk => ?_, node_shown hX (hd _ (.self _)) ?_ ?_ hdm fun k hk => ?_,
    ?_, extShown hot fun k hkp => ?_, only_norm fun kv h => ?_⟩
  · have hk' := hk
    simp only [List.mem_append] at hk'
    rw [get, np k (by rcases hk' with h | h <;> simp [h]), gob k (nob k (by rcases hk' with h | h <;> simp [h]))]
    by_cases hsh : k ∈ sharedNames
    · rw [← shared k hsh, or_self]; rfl
    · rw [nd k hk hsh]; rfl
  · exact fun l hl c hc j hj => ds_shown hs ho
      (fun x hx => hd x (within_iff.2 (.inr (.inl ⟨l, hl, c, hc, hx⟩)))) hj
  · exact fun st hst c hc j hj => ds_shown hs ho
      (fun x hx => hd x (within_iff.2 (.inr (.inr ⟨st, hst, c, hc, hx⟩)))) hj
  · have hk' := hk
    simp only [List.mem_append] at hk'
    rw [get, np k (by rcases hk' with (h | h) | h <;> simp [h]),
      gob k (nob k (by rcases hk' with (h | h) | h <;> simp [h]))]
    by_cases hsh : k ∈ sharedNames
    · rw [shared k hsh, or_self]; rfl
    · rw [ni k hk hsh]; cases written d k <;> rfl
  · have h1 : written m "observable" = none := written_own hk fun h => by
      rcases List.mem_append.1 h with h | h
      · exact absurd h (by decide)
      · exact hs.interactionProperty _ h (by simp)
    have h2 : written d "observable" = none := written_own hkd fun h => by
      refine nob "observable" ?_ rfl
      simp only [List.mem_append] at h ⊢
      rcases h with (h | h) | h
      · exact .inl (.inl (.inr h))
      · exact .inl (.inr h)
      · exact .inr h
    rw [get, np _ (by simp), h1, h2, written_members (by names)]
    cases p.observable <;> rfl
  · have hn := hs.property k hkp
    simp only [List.mem_append, not_or, List.mem_cons] at hn
    obtain ⟨⟨⟨⟨⟨⟨n1, n2⟩, n3⟩, n4⟩, n5⟩, n6⟩, n7⟩ := hn
    rw [get, gob k n1, written_own hk (by simp [n2, n3]), written_own hkd ?_]
    · cases written other k <;> rfl
    · simp only [List.mem_append, not_or]
      exact ⟨⟨n4, n5⟩, fun h => (hT k h).elim n6 n7⟩
  · simp only [List.mem_append, List.mem_cons] at h ⊢
    rcases h with ((h | h) | h) | h
    · have := hk kv h
      simp only [List.mem_append] at this
      rcases this with h | h <;> simp [h]
    · have := hkd kv h
      simp only [List.mem_append] at this
      rcases this with (h | h) | h <;> simp [h]
    · have := mem_members h
      simp only [List.map_cons, List.map_nil, List.mem_singleton] at this
      simp [this]
    · have := hoo kv h
      simp [this]

theorem fieldOf_congr {L L' : List (String × Option Json)} {K : List String} {k : String} (hk : k ∉ K)
    (h : Pointwise (fun a b => a.1 = b.1 ∧ (a.1 ∈ K ∨ a.2 = b.2)) L L') : fieldOf k L = fieldOf k L' := by
  induction h with
  | nil => rfl
  | @cons a b _ _ h _ ih =>
    obtain ⟨k1, v1⟩ := a
    obtain ⟨k2, v2⟩ := b
    obtain ⟨rfl, h⟩ := h
    rw [fieldOf, fieldOf, ih]
    by_cases e : k1 = k
    · rcases h with h | h
      · exact absurd (e ▸ h) hk
      · rw [if_pos e, if_pos e]; exact h
    · rw [if_neg e, if_neg e]

theorem map_or {A B : Type} (f : A → B) (o o' : Option A) : (o.or o').map f = (o.map f).or (o'.map f) := by
  cases o <;> rfl

theorem or_or_self {A : Type} (a b : Option A) : (a.or b).or (a.or b) = a.or b := by
  cases a <;> cases b <;> rfl

theorem merged_norm (hs : C.Separate) (ho : C.Own) {p : PropertyAffordance X} {j : Json}
    (hj : serProperty C env p = some j) : ∃ j', serProperty C env p.merged = some j' ∧ j'.norm = j.norm := by
  obtain ⟨m, hm, hj⟩ := Option.bind_eq_some_iff.1 hj
  obtain ⟨d, hd, hj⟩ := Option.bind_eq_some_iff.1 hj
  obtain ⟨other, hot, hj⟩ := Option.bind_eq_some_iff.1 hj
  cases Option.some.inj hj
  -- the interaction part
  obtain ⟨m', hm', em⟩ : ∃ m', serInteraction C env p.merged.interaction = some m' ∧
      ∀ k, k ∉ sharedNames → written m' k = written m k := by
    obtain ⟨forms, h1, hm⟩ := Option.bind_eq_some_iff.1 hm
    obtain ⟨uriVariables, h2, hm⟩ := Option.bind_eq_some_iff.1 hm
    obtain ⟨o, h3, hm⟩ := Option.bind_eq_some_iff.1 hm
    cases Option.some.inj hm
    refine ⟨_, Option.bind_eq_some_iff.2 ⟨forms, h1, Option.bind_eq_some_iff.2 ⟨uriVariables, h2,
      Option.bind_eq_some_iff.2 ⟨o, h3, rfl⟩⟩⟩, fun k hk => ?_⟩
    rw [written_append, written_append, written_members (by names), written_members (by names)]
    congr 2
    refine fieldOf_congr hk (.cons ⟨rfl, .inl (by simp [sharedNames])⟩
      (.cons ⟨rfl, .inl (by simp [sharedNames])⟩ (.cons ⟨rfl, .inl (by simp [sharedNames])⟩
      (.cons ⟨rfl, .inl (by simp [sharedNames])⟩ (.cons ⟨rfl, .inl (by simp [sharedNames])⟩
      (.cons ⟨rfl, .inr rfl⟩ (.cons ⟨rfl, .inr rfl⟩ .nil)))))))
  -- the data schema
  have hX := ho.schemas hs
  obtain ⟨d', hd', ed⟩ : ∃ d', serSchemaMembers C.dataSchema C.arraySchema C.objectSchema env
      p.merged.dataSchema = some d' ∧ ∀ k, k ∉ sharedNames → written d' k = written d k := by
    obtain ⟨oneOf, h1, hd⟩ := Option.bind_eq_some_iff.1 hd
    obtain ⟨y, h2, hd⟩ := Option.bind_eq_some_iff.1 hd
    obtain ⟨o, h3, hd⟩ := Option.bind_eq_some_iff.1 hd
    cases Option.some.inj hd
    refine ⟨_, Option.bind_eq_some_iff.2 ⟨oneOf, h1, Option.bind_eq_some_iff.2 ⟨y, h2,
      Option.bind_eq_some_iff.2 ⟨o, h3, rfl⟩⟩⟩, fun k hk => ?_⟩
    rw [written_append, written_append, written_append, written_append, written_members (by names),
      written_members (by names)]
    congr 3
    refine fieldOf_congr hk (.cons ⟨rfl, .inl (by simp [sharedNames])⟩
      (.cons ⟨rfl, .inl (by simp [sharedNames])⟩ (.cons ⟨rfl, .inl (by simp [sharedNames])⟩
      (.cons ⟨rfl, .inl (by simp [sharedNames])⟩ (.cons ⟨rfl, .inl (by simp [sharedNames])⟩
      (.cons ⟨rfl, .inr rfl⟩ (.cons ⟨rfl, .inr rfl⟩ (.cons ⟨rfl, .inr rfl⟩ (.cons ⟨rfl, .inr rfl⟩
      (.cons ⟨rfl, .inr rfl⟩ (.cons ⟨rfl, .inr rfl⟩ (.cons ⟨rfl, .inr rfl⟩ (.cons ⟨rfl, .inr rfl⟩
      .nil)))))))))))))
  refine ⟨_, Option.bind_eq_some_iff.2 ⟨m', hm', Option.bind_eq_some_iff.2 ⟨d', hd',
    Option.bind_eq_some_iff.2 ⟨other, hot, rfl⟩⟩⟩, norm_obj_eq fun k => ?_⟩
  show written _ k = written _ k
  simp only [written_append]
  congr 2
  by_cases hk : k ∈ sharedNames
  · obtain ⟨f1, u1, g1⟩ := interaction_written hs ho hm
    obtain ⟨f2, u2, g2⟩ := interaction_written hs ho hm'
    have hki := shared_interaction k hk
    rw [g1 k hki, g2 k hki, head_written hX hd k hk, head_written hX hd' k hk]
    simp only [sharedNames, List.mem_cons, List.not_mem_nil, or_false] at hk
    rcases hk with rfl | rfl | rfl | rfl | rfl <;> simp only [fieldOf, String.reduceEq, ↓reduceIte] <;>
      simp only [PropertyAffordance.merged, Interaction.withInfo, Schema.withInfo, PropertyAffordance.info,
        Schema.head, map_or] <;>
      exact or_or_self _ _
  · rw [em k hk, ed k hk]

theorem mergedProperty_shown (hs : C.Separate) (ho : C.Own) {p : PropertyAffordance X}
    (hi : InteractionMaps p.interaction) (hd : DSMaps p.dataSchema) {j : Json}
    (hj : serProperty C env p = some j) : PropertyShown C p.merged j.norm := by
  obtain ⟨j', hj', e⟩ := merged_norm hs ho hj
  have or_cases : ∀ {A : Type} {a b : Option A} {x : A}, a.or b = some x → a = some x ∨ b = some x := by
    intro A a b x h
    cases a with
    | none => exact .inr h
    | some _ => exact .inl h
  have hd0 := hd _ (.self _)
  have ht : ∀ m, p.info.titles = some m → m.map.Sorted := fun m hm =>
    (or_cases hm).elim (hd0.1 m) (hi.titles m)
  have hde : ∀ m, p.info.descriptions = some m → m.map.Sorted := fun m hm =>
    (or_cases hm).elim (hd0.2.1 m) (hi.descriptions m)
  rw [← e]
  refine property_shown (p := p.merged) hs ho ⟨rfl, rfl, rfl, rfl, rfl⟩ ⟨ht, hde, hi.uriVariables, hi.schemas⟩ (fun x hx => ?_) hj'
  rcases within_iff.1 hx with rfl | ⟨l, hl, c, hc, hx⟩ | ⟨st, hst, c, hc, hx⟩
  · exact ⟨ht, hde, hd0.2.2⟩
  · exact hd x (within_iff.2 (.inr (.inl ⟨l, hl, c, hc, hx⟩)))
  · exact hd x (within_iff.2 (.inr (.inr ⟨st, hst, c, hc, hx⟩)))

/-! ### Things -/

theorem thing_shown {env : SerdeEnv} (hs : C.Separate) (ho : C.Own) {t : Thing X} (h : t.Maps)
    (hn : ∀ kv ∈ t.securityDefinitions, kv.2.subtype.OwnNames) {j : Json} (hj : serThing C env t = some j) :
    ThingShown C env t j.norm := by
  obtain ⟨created, hcr, hj⟩ := Option.bind_eq_some_iff.1 hj
  obtain ⟨modified, hmo, hj⟩ := Option.bind_eq_some_iff.1 hj
  obtain ⟨properties, hpr, hj⟩ := Option.bind_eq_some_iff.1 hj
  obtain ⟨actions, hac, hj⟩ := Option.bind_eq_some_iff.1 hj
  obtain ⟨events, hev, hj⟩ := Option.bind_eq_some_iff.1 hj
  obtain ⟨forms, hfo, hj⟩ := Option.bind_eq_some_iff.1 hj
  obtain ⟨defs, hde, hj⟩ := Option.bind_eq_some_iff.1 hj
  obtain ⟨uriVariables, hur, hj⟩ := Option.bind_eq_some_iff.1 hj
  obtain ⟨schemaDefinitions, hsd, hj⟩ := Option.bind_eq_some_iff.1 hj
  obtain ⟨other, hot, hj⟩ := Option.bind_eq_some_iff.1 hj
  cases Option.some.inj hj
  have g := struct_lookup hs.thing (ho.thing _ _ hot)
    (L := [("@context", some t.context), ("id", t.id.map .str), ("@type", t.attype.map serStrings),
     ("title", some (.str t.title)), ("titles", t.titles.map (serLang env.toEnv)),
     ("description", t.description.map .str),
     ("descriptions", t.descriptions.map (serLang env.toEnv)),
     ("version", t.version.map serVersion), ("created", created), ("modified", modified),
     ("support", t.support.map .str), ("base", t.base.map .str), ("properties", properties),
     ("actions", actions), ("events", events), ("links", t.links.map fun l => .arr (l.map serLink)),
     ("forms", forms), ("security", some (serStrings t.security)),
     ("securityDefinitions", some defs), ("uriVariables", uriVariables),
     ("profile", t.profile.map serStrings), ("schemaDefinitions", schemaDefinitions)]) (by names)
  refine
    { context := ?_, id := ?_, attype := ?_, title := ?_, titles := ?_, description := ?_, descriptions := ?_,
      version := ?_, created := ?_, modified := ?_, support := ?_, base := ?_, properties := ?_, actions := ?_,
      events := ?_, links := ?_, forms := ?_, security := ⟨(serStrings t.security).norm, ?_, stringsShown _⟩,
      securityDefinitions := ⟨defs.norm, ?_, ?_⟩, uriVariables := ?_, profile := ?_, schemaDefinitions := ?_,
      other := extShown hot fun k hk => (member_norm _ k).trans (struct_other fun h => hs.thing k hk h),
      only := only_norm (struct_keys (ho.thing _ _ hot)) }
  · field g; rfl
  · field g; exact strShown _
  · field g; exact optStringsShown _
  · field g; rfl
  · field g; exact optLangShown fun m hm => h.translations m (.titles hm)
  · field g; exact strShown _
  · field g; exact optLangShown fun m hm => h.translations m (.descriptions hm)
  · field g; exact optShown fun i _ => version_shown i
  · field g
    refine optOptShown hcr fun d j _ hj => ?_
    obtain ⟨s, e, rfl⟩ := Option.map_eq_some_iff.1 hj
    exact ⟨s, e, rfl⟩
  · field g
    refine optOptShown hmo fun d j _ hj => ?_
    obtain ⟨s, e, rfl⟩ := Option.map_eq_some_iff.1 hj
    exact ⟨s, e, rfl⟩
  · field g; exact strShown _
  · field g; exact strShown _
  · field g
    exact optOptShown hpr fun m _ hm hj => serMapShown (h.properties m hm) hj fun kv hkv _ hj =>
      mergedProperty_shown hs ho
        (h.interaction (.property hm hkv) fun u hu kv' hkv' => ⟨_, .propertyUriVariable hm hkv hu hkv'⟩)
        (h.node (.property hm hkv)) hj
  · field g
    exact optOptShown hac fun m _ hm hj => serMapShown (h.actions m hm) hj fun kv hkv _ hj =>
      action_shown hs ho
        (h.interaction (.action hm hkv) fun u hu kv' hkv' => ⟨_, .actionUriVariable hm hkv hu hkv'⟩)
        (fun s hs => h.node (.input hm hkv hs)) (fun s hs => h.node (.output hm hkv hs)) hj
  · field g
    exact optOptShown hev fun m _ hm hj => serMapShown (h.events m hm) hj fun kv hkv _ hj =>
      event_shown hs ho
        (h.interaction (.event hm hkv) fun u hu kv' hkv' => ⟨_, .eventUriVariable hm hkv hu hkv'⟩)
        (fun s hs => h.node (.subscription hm hkv hs)) (fun s hs => h.node (.data hm hkv hs))
        (fun s hs => h.node (.dataResponse hm hkv hs)) (fun s hs => h.node (.cancellation hm hkv hs)) hj
  · field g; exact optShown fun l _ => listShown fun k _ => link_shown k
  · field g
    refine optOptShown hfo fun l j _ hj => ?_
    obtain ⟨js, hjs, rfl⟩ := Option.map_eq_some_iff.1 hj
    exact mapOptShown hjs fun f _ j hj => form_shown hs ho hj
  · field g; rfl
  · field g; rfl
  · exact serMapShown h.securityDefinitions hde fun kv hkv j hj =>
      security_shown (fun m hm => h.translations m (.security hkv hm)) (hn kv hkv) hj
  · field g; exact schemas_shown hs ho h.uriVariables (fun m hm kv hkv => h.node (.uriVariable hm hkv)) hur
  · field g; exact optStringsShown _
  · field g
    exact schemas_shown hs ho h.schemaDefinitions (fun m hm kv hkv => h.node (.schemaDefinition hm hkv)) hsd

end Wot
