import Verif.Lemmas.Nesting
import Verif.Lemmas.Equality
import Verif.Spec.JsonText
/-
The numbers in the text of a Thing are those of the Thing.
-/
namespace Wot

variable {fl : FloatText}

/-- What is written, if anything, has such numbers only. -/
abbrev NumOpt (fl : FloatText) (o : Option Json) : Prop := ∀ j, o = some j → j.NumbersKept fl

/-- All members have such numbers only. -/
abbrev Nums (fl : FloatText) (es : Members) : Prop := ∀ kv ∈ es, kv.2.NumbersKept fl

theorem nums_arr {l : List Json} (h : ∀ j ∈ l, j.NumbersKept fl) : (Json.arr l).NumbersKept fl := by
  intro n hn
  cases hn with
  | element hj hn => exact h _ hj n hn

theorem nums_obj {l : Members} (h : Nums fl l) : (Json.obj l).NumbersKept fl := by
  intro n hn
  cases hn with
  | member hj hn => exact h _ hj n hn

theorem nums_str (s : String) : (Json.str s).NumbersKept fl := by intro n hn; cases hn

theorem nums_boolean (b : Bool) : (Json.bool b).NumbersKept fl := by intro n hn; cases hn

theorem nums_null : Json.null.NumbersKept fl := by intro n hn; cases hn

theorem nums_num {x : JNum} (h : x.Kept fl) : (Json.num x).NumbersKept fl := by
  intro n hn; cases hn; exact h

theorem Nums.append {a b : Members} (ha : Nums fl a) (hb : Nums fl b) : Nums fl (a ++ b) := by
  intro kv h
  rcases List.mem_append.1 h with h | h
  · exact ha kv h
  · exact hb kv h

theorem Nums.fields {l : List (String × Option Json)} (h : ∀ kv ∈ l, NumOpt fl kv.2) : Nums fl (members l) := by
  intro kv hkv
  obtain ⟨⟨k, o⟩, hm, ho⟩ := List.mem_filterMap.1 hkv
  obtain ⟨v, hv, rfl⟩ := Option.map_eq_some_iff.1 ho
  exact h _ hm v hv

theorem num_none : NumOpt fl none := nofun

theorem num_some {j : Json} (h : j.NumbersKept fl) : NumOpt fl (some j) := fun _ e => by cases e; exact h

theorem num_map {α : Type} {f : α → Json} {o : Option α} (h : ∀ a, o = some a → (f a).NumbersKept fl) :
    NumOpt fl (o.map f) := by
  intro j hj
  obtain ⟨a, ha, rfl⟩ := Option.map_eq_some_iff.1 hj
  exact h a ha

theorem num_str {o : Option String} : NumOpt fl (o.map Json.str) := num_map fun _ _ => nums_str _

theorem num_bool {o : Option Bool} : NumOpt fl (o.map Json.bool) := num_map fun _ _ => nums_boolean _

theorem nums_oneOrMany {l : List Json} (h : ∀ j ∈ l, j.NumbersKept fl) : (serOneOrMany l).NumbersKept fl := by
  unfold serOneOrMany
  split
  · exact h _ (by simp)
  · exact nums_arr h

theorem nums_strings (l : List String) : (serStrings l).NumbersKept fl :=
  nums_oneOrMany fun j hj => by obtain ⟨s, _, rfl⟩ := List.mem_map.1 hj; exact nums_str s

theorem num_strings {o : Option (List String)} : NumOpt fl (o.map serStrings) := num_map fun l _ => nums_strings l

theorem num_lang {env : Env} {o : Option MultiLanguage} : NumOpt fl (o.map (serLang env)) := by
  refine num_map fun m _ => nums_obj fun kv hkv => ?_
  obtain ⟨e, _, rfl⟩ := List.mem_map.1 hkv
  exact nums_str _

theorem num_optOpt {α : Type} {f : α → Option Json} {o : Option α} {r : Option Json}
    (hr : optOpt f o = some r) (h : ∀ a j, o = some a → f a = some j → j.NumbersKept fl) : NumOpt fl r := by
  intro j e
  subst e
  cases o with
  | none => cases hr
  | some a =>
    obtain ⟨j', h1, h2⟩ := Option.map_eq_some_iff.1 hr
    cases h2
    exact h a _ rfl h1

theorem nums_mapOpt {α : Type} {f : α → Option Json} {l : List α} {js : List Json}
    (hw : mapOpt f l = some js) (h : ∀ a ∈ l, ∀ j, f a = some j → j.NumbersKept fl) :
    (Json.arr js).NumbersKept fl := by
  refine nums_arr ?_
  have := mapOpt_eq_some.1 hw
  clear hw
  induction this with
  | nil => nofun
  | cons hab _ ih =>
    intro j hj
    rcases List.mem_cons.1 hj with rfl | hj
    · exact h _ (by simp) _ hab
    · exact ih (fun a ha => h a (by simp [ha])) j hj

theorem nums_serMap {α : Type} {env : Env} {f : α → Option Json} {m : HMap α} {j : Json}
    (hw : serMap env f m = some j) (h : ∀ kv ∈ m, ∀ j, f kv.2 = some j → j.NumbersKept fl) : j.NumbersKept fl := by
  obtain ⟨ms, h1, rfl⟩ := Option.map_eq_some_iff.1 hw
  have h2 := mapOptVals_eq_some.1 h1
  have hall : ∀ kv ∈ env.iter m, ∀ j, f kv.2 = some j → j.NumbersKept fl := fun kv hkv =>
    h kv ((env.iter_perm m).mem_iff.1 hkv)
  refine nums_obj ?_
  generalize env.iter m = l at h2 hall
  clear h1 hw h
  induction h2 with
  | nil => nofun
  | cons hab _ ih =>
    intro kv hkv
    rcases List.mem_cons.1 hkv with rfl | hkv
    · exact hall _ (by simp) _ hab.2
    · exact ih (fun kv hkv => hall kv (by simp [hkv])) kv hkv

/-! ### Security -/

theorem nums_known (k : KnownScheme) : Nums fl (serKnown k) := by
  have loc : ∀ l, (serLocation l).NumbersKept fl := by intro l; cases l <;> exact nums_str _
  have qop : ∀ l, (serQoP l).NumbersKept fl := by intro l; cases l <;> exact nums_str _
  cases k with
  | noSec => simp [serKnown, Nums, nums_str]
  | auto => simp [serKnown, Nums, nums_str]
  | combo c =>
    cases c with
    | oneOf l => simp [serKnown, Nums, nums_str, nums_strings]
    | allOf l => simp [serKnown, Nums, nums_str, nums_strings]
  | basic s =>
    refine Nums.fields ?_
    fields
    exact ⟨num_some (nums_str _), num_some (loc _), num_str⟩
  | digest s =>
    refine Nums.fields ?_
    fields
    exact ⟨num_some (nums_str _), num_some (qop _), num_some (loc _), num_str⟩
  | bearer s =>
    refine Nums.fields ?_
    fields
    exact ⟨num_some (nums_str _), num_str, num_some (nums_str _), num_some (nums_str _), num_some (loc _), num_str⟩
  | psk s =>
    refine Nums.fields ?_
    fields
    exact ⟨num_some (nums_str _), num_str⟩
  | oauth2 s =>
    refine Nums.fields ?_
    fields
    exact ⟨num_some (nums_str _), num_str, num_str, num_str, num_strings, num_some (nums_str _)⟩
  | apiKey s =>
    refine Nums.fields ?_
    fields
    exact ⟨num_some (nums_str _), num_some (loc _), num_str⟩

theorem nums_security {env : Env} {s : SecurityScheme} {j : Json}
    (h : ∀ scheme es, s.subtype = .unknown scheme (.obj es) → ∀ kv ∈ es, kv.2.NumbersKept fl)
    (hw : serSecurity env s = some j) : j.NumbersKept fl := by
  obtain ⟨es, hes, rfl⟩ := Option.map_eq_some_iff.1 hw
  refine nums_obj (Nums.append (Nums.fields ?_) ?_)
  · fields
    exact ⟨num_strings, num_str, num_lang, num_str⟩
  · cases hs : s.subtype with
    | known k => rw [hs] at hes; cases hes; exact nums_known k
    | unknown scheme data =>
      rw [hs] at hes
      obtain ⟨d, hd, rfl⟩ := Option.map_eq_some_iff.1 hes
      intro kv hkv
      rcases List.mem_cons.1 hkv with rfl | hkv
      · exact nums_str _
      cases data <;> simp only [serFlatValue, reduceCtorEq, Option.some.injEq] at hd
      · subst hd; cases hkv
      · subst hd; exact h _ _ hs kv hkv

/-! ### Schemas -/

theorem nums_i64 (a : I64) : (serI64 a).NumbersKept fl := by
  have h1 : -(2^63 : Int) ≤ a.val := a.2.1
  have h2 : a.val < (2^63 : Int) := a.2.2
  unfold serI64
  split
  · exact nums_num (show a.val.toNat < 2^64 by omega)
  · exact nums_num (show (-(a.val + 1)).toNat < 2^63 by omega)

theorem nums_f64 {a : F64} (h : a.isFinite = true → fl.Keeps a) : (serF64 a).NumbersKept fl := by
  unfold serF64
  split
  · next hf => exact nums_num (h hf)
  · exact nums_null

theorem nums_nat {n : Nat} (h : n < 2^64) : (serNat n).NumbersKept fl := nums_num h

theorem nums_u32 (n : U32) : (serNat n.1).NumbersKept fl := nums_nat (Nat.lt_trans n.2 (by decide))

section
variable {DSx AS OS : Type} {C : ExtCodec DSx} {CA : ExtCodec AS} {CO : ExtCodec OS} {env : Env}

/-- The numbers that a schema carries itself have texts from which they are read. -/
def NodeNums (fl : FloatText) (C : ExtCodec DSx) (CA : ExtCodec AS) (CO : ExtCodec OS)
    (x : DataSchema DSx AS OS) : Prop :=
  (∀ n f, x.subtype = some (.number n) → n.Uses f → f.isFinite = true → fl.Keeps f) ∧
  (∀ v, x.head.constant = some v → v.NumbersKept fl) ∧ (∀ v, x.head.default = some v → v.NumbersKept fl) ∧
  (∀ l, x.head.enumeration = some l → ∀ v ∈ l, v.NumbersKept fl) ∧ C.NumbersKept fl x.head.other ∧
  (∀ a, x.subtype = some (.array a) → CA.NumbersKept fl a.other) ∧
  (∀ o, x.subtype = some (.object o) → CO.NumbersKept fl o.other)

theorem nums_maximum {T : Type} {f : T → Json} (o : Option (Maximum T))
    (h : ∀ a, o = some (.inclusive a) ∨ o = some (.exclusive a) → (f a).NumbersKept fl) :
    Nums fl (serFlatOption (serMaximum f) o) := by
  rcases o with _ | (a | a)
  · nofun
  · simpa [serFlatOption, serMaximum, Nums] using h a (.inl rfl)
  · simpa [serFlatOption, serMaximum, Nums] using h a (.inr rfl)

theorem nums_minimum {T : Type} {f : T → Json} (o : Option (Minimum T))
    (h : ∀ a, o = some (.inclusive a) ∨ o = some (.exclusive a) → (f a).NumbersKept fl) :
    Nums fl (serFlatOption (serMinimum f) o) := by
  rcases o with _ | (a | a)
  · nofun
  · simpa [serFlatOption, serMinimum, Nums] using h a (.inl rfl)
  · simpa [serFlatOption, serMinimum, Nums] using h a (.inr rfl)

theorem nums_subtype {st : SubtypeF AS OS (Option Json)} {es : Members}
    (hw : serSchemaSubtype CA CO env st = some es)
    (hf : ∀ n f, st = .number n → n.Uses f → f.isFinite = true → fl.Keeps f)
    (ha : ∀ a, st = .array a → CA.NumbersKept fl a.other) (ho : ∀ o, st = .object o → CO.NumbersKept fl o.other)
    (hc : ∀ c ∈ st.children, NumOpt fl c) : Nums fl es := by
  have tagged : ∀ {es : Members} {k : String}, Nums fl es → Nums fl (("type", .str k) :: es) := by
    intro es k h kv hkv
    rcases List.mem_cons.1 hkv with rfl | hkv
    · exact nums_str _
    · exact h kv hkv
  cases st with
  | array a =>
    obtain ⟨m', hm', rfl⟩ := Option.map_eq_some_iff.1 hw
    simp only [serArray, bind, pure, Option.bind_eq_some_iff] at hm'
    obtain ⟨items, hi, other, h3, e⟩ := hm'
    cases e
    refine tagged (Nums.append (Nums.fields ?_) (ha a rfl _ h3))
    fields
    refine ⟨num_optOpt hi ?_, num_map fun n _ => nums_u32 n, num_map fun n _ => nums_u32 n⟩
    intro e j he hj
    cases e with
    | elem c =>
      refine hc c ?_ j hj
      simp [SubtypeF.children, he, ElemOrVec.toList]
    | vec l =>
      obtain ⟨js, hjs, rfl⟩ := Option.map_eq_some_iff.1 hj
      exact nums_mapOpt hjs fun c hcl j hcj =>
        hc c (by simp [SubtypeF.children, he, ElemOrVec.toList, hcl]) j hcj
  | object o =>
    obtain ⟨m', hm', rfl⟩ := Option.map_eq_some_iff.1 hw
    simp only [serObject, bind, pure, Option.bind_eq_some_iff] at hm'
    obtain ⟨props, hp, other, h3, e⟩ := hm'
    cases e
    refine tagged (Nums.append (Nums.fields ?_) (ho o rfl _ h3))
    fields
    refine ⟨num_optOpt hp ?_, num_map fun l _ => nums_arr fun j hj => by
      obtain ⟨s, _, rfl⟩ := List.mem_map.1 hj; exact nums_str _⟩
    intro m j hm hj
    refine nums_serMap hj fun kv hkv j hj => hc kv.2 ?_ j hj
    simp only [SubtypeF.children, hm, Option.map_some, Option.getD_some, HMap.values]
    exact List.mem_map_of_mem hkv
  | number x =>
    cases hw
    have hf := fun f => hf x f rfl
    refine tagged (Nums.append (Nums.append (nums_maximum _ fun a h => nums_f64 (hf a ?_))
      (nums_minimum _ fun a h => nums_f64 (hf a ?_)))
      (Nums.fields (by fields; exact num_map fun a h => nums_f64 (hf a (.inr (.inr (.inr (.inr h))))))))
    · rcases h with h | h
      · exact .inl h
      · exact .inr (.inl h)
    · rcases h with h | h
      · exact .inr (.inr (.inl h))
      · exact .inr (.inr (.inr (.inl h)))
  | integer x =>
    cases hw
    exact tagged (Nums.append (Nums.append (nums_maximum _ fun a _ => nums_i64 a) (nums_minimum _ fun a _ => nums_i64 a))
      (Nums.fields (by fields; exact num_map fun n _ => nums_nat n.2.2)))
  | string x =>
    cases hw
    refine tagged (Nums.fields ?_)
    fields
    exact ⟨num_map fun n _ => nums_u32 n, num_map fun n _ => nums_u32 n, num_str, num_str, num_str⟩
  | boolean => cases hw; exact tagged nofun
  | null => cases hw; exact tagged nofun

theorem nums_schemaMembers {s : DataSchema DSx AS OS} {es : Members}
    (hn : NodeNums fl C CA CO s) (hw : serSchemaMembers C CA CO env s = some es)
    (ih : ∀ c, c.Holds s → NumOpt fl (serSchema C CA CO env c)) : Nums fl es := by
  simp only [serSchemaMembers, serSchemaStep, bind, pure, Option.bind_eq_some_iff] at hw
  obtain ⟨oneOf, h1, sub, h2, other, h3, e⟩ := hw
  injection e with e
  subst e
  obtain ⟨n0, n1, n2, n3, n4, n5, n6⟩ := hn
  refine Nums.append (Nums.append (Nums.fields ?_) ?_) fun kv hkv => n4 _ h3 kv hkv
  · fields
    refine ⟨num_strings, num_str, num_lang, num_str, num_lang, fun v hv => n1 v hv,
      fun v hv => n2 v hv, num_str, num_optOpt h1 ?_,
      num_map fun l hl => nums_arr fun v hv => n3 l hl v hv,
      num_some (nums_boolean _), num_some (nums_boolean _), num_str⟩
    intro l j hl hj
    obtain ⟨l', hl', rfl⟩ := Option.map_eq_some_iff.1 hl
    obtain ⟨js, hjs, rfl⟩ := Option.map_eq_some_iff.1 hj
    refine nums_mapOpt hjs fun c hc j hcj => ?_
    obtain ⟨c', hc', rfl⟩ := List.mem_map.1 hc
    exact ih c' (.oneOf hl' hc') j hcj
  · cases hs : s.subtype with
    | none => rw [hs] at h2; cases h2; nofun
    | some st =>
      rw [hs] at h2
      obtain ⟨m', hm', e⟩ := Option.map_eq_some_iff.1 h2
      cases e
      refine nums_subtype hm' ?_ ?_ ?_ ?_
      · intro n f hn hu
        cases st <;> simp only [SubtypeF.map, SubtypeF.number.injEq, reduceCtorEq] at hn
        subst hn
        exact n0 _ f hs hu
      · intro a ha es he kv hkv
        cases st <;> simp only [SubtypeF.map, SubtypeF.array.injEq, reduceCtorEq] at ha
        subst ha
        exact n5 _ hs es he kv hkv
      · intro a ha es he kv hkv
        cases st <;> simp only [SubtypeF.map, SubtypeF.object.injEq, reduceCtorEq] at ha
        subst ha
        exact n6 _ hs es he kv hkv
      · intro c hc
        rw [SubtypeF.children_map] at hc
        obtain ⟨c', hc', rfl⟩ := List.mem_map.1 hc
        exact ih c' (holds_child.2 (.inr ⟨st, hs, hc'⟩))

end

section
variable {DSx AS OS : Type} {C : ExtCodec DSx} {CA : ExtCodec AS} {CO : ExtCodec OS} {env : SerdeEnv}

theorem nums_schema (s : DataSchema DSx AS OS) : (∀ x, Within x s → NodeNums fl C CA CO x) →
    (∀ es, serSchemaMembers C CA CO env.toEnv s = some es → Nums fl es) ∧
    NumOpt fl (serSchema C CA CO env.toEnv s) := by
  induction s using Schema.ind with
  | h hd o st ho hst =>
  generalize hs : Schema.mk hd o st = s
  have ih : ∀ c, c.Holds s → (∀ x, Within x c → NodeNums fl C CA CO x) →
      (∀ es, serSchemaMembers C CA CO env.toEnv c = some es → Nums fl es) ∧
      NumOpt fl (serSchema C CA CO env.toEnv c) := by
    intro c hc
    subst hs
    rcases holds_child.1 hc with ⟨l, h, hm⟩ | ⟨x, h, hm⟩
    · exact ho l h c hm
    · exact hst x h c hm
  clear hs ho hst
  intro hf
  have key : ∀ es, serSchemaMembers C CA CO env.toEnv s = some es → Nums fl es := fun es hes =>
    nums_schemaMembers (hf s (.self s)) hes fun c hc => (ih c hc fun x hx => hf x (holds_within hc hx)).2
  refine ⟨key, fun j hj => ?_⟩
  rw [serSchema_eq] at hj
  obtain ⟨es, hes, rfl⟩ := Option.map_eq_some_iff.1 hj
  exact nums_obj (key es hes)

end

/-! ### Things -/

section
variable {X : ExtTypes} {C : ExtCodecs X} {env : SerdeEnv} {t : Thing X}

theorem nums_form {f : Form X} {j : Json} (ho : C.form.NumbersKept fl f.other)
    (hr : ∀ r, f.response = some r → C.response.NumbersKept fl r.other) (hj : serForm C f = some j) :
    j.NumbersKept fl := by
  simp only [serForm, bind, pure, Option.bind_eq_some_iff] at hj
  obtain ⟨response, h1, other, h2, e⟩ := hj
  injection e with e
  subst e
  refine nums_obj (Nums.append (Nums.fields ?_) fun kv hkv => ho _ h2 kv hkv)
  fields
  refine ⟨?_, num_some (nums_str _), num_str, num_str, num_str, num_strings, num_strings,
    num_optOpt h1 ?_, num_map ?_⟩
  · intro j hj
    cases hf : f.op with
    | default => rw [hf] at hj; cases hj
    | custom l =>
      rw [hf] at hj
      cases hj
      cases l with
      | nil => exact nums_null
      | cons a l =>
        refine nums_arr fun j hj => ?_
        obtain ⟨o, _, rfl⟩ := List.mem_map.1 hj
        cases o <;> exact nums_str _
  · intro r j hr' hj
    obtain ⟨es, hes, rfl⟩ := Option.map_eq_some_iff.1 hj
    refine nums_obj fun kv hkv => ?_
    rcases List.mem_cons.1 hkv with rfl | hkv
    · exact nums_str _
    · exact hr r hr' es hes kv hkv
  · intro l _
    refine nums_oneOrMany fun j hj => ?_
    obtain ⟨r, _, rfl⟩ := List.mem_map.1 hj
    refine nums_obj (Nums.fields ?_)
    fields
    refine ⟨?_, num_str, num_str⟩
    split
    · exact num_some (nums_boolean _)
    · exact num_none

theorem num_schemas {o : Option (HMap (DS X))} {r : Option Json}
    (hs : ∀ u, o = some u → ∀ kv ∈ u,
      ∀ x, Within x kv.2 → NodeNums fl C.dataSchema C.arraySchema C.objectSchema x)
    (hr : optOpt (serMap env.toEnv (serDS C env.toEnv)) o = some r) : NumOpt fl r :=
  num_optOpt hr fun u _ hu hj => nums_serMap hj fun kv hkv j hkj =>
    (nums_schema kv.2 (hs u hu kv hkv)).2 j hkj

theorem nums_interaction {i : Interaction X} {es : Members}
    (hf : ∀ f ∈ i.forms, C.form.NumbersKept fl f.other ∧ ∀ r, f.response = some r → C.response.NumbersKept fl r.other)
    (hs : ∀ u, i.uriVariables = some u → ∀ kv ∈ u,
      ∀ x, Within x kv.2 → NodeNums fl C.dataSchema C.arraySchema C.objectSchema x)
    (ho : C.interaction.NumbersKept fl i.other) (hw : serInteraction C env.toEnv i = some es) : Nums fl es := by
  simp only [serInteraction, bind, pure, Option.bind_eq_some_iff] at hw
  obtain ⟨forms, h1, uris, h2, other, h3, e⟩ := hw
  injection e with e
  subst e
  refine Nums.append (Nums.fields ?_) fun kv hkv => ho _ h3 kv hkv
  fields
  exact ⟨num_strings, num_str, num_lang, num_str, num_lang,
    num_some (nums_mapOpt h1 fun f hf' j hj => nums_form (hf f hf').1 (hf f hf').2 hj), num_schemas hs h2⟩

/-- The numbers in the text of a Thing are those of the Thing. -/
theorem nums_thing (hn : t.NumbersKept fl C) {j : Json} (hj : serThing C env t = some j) : j.NumbersKept fl := by
  simp only [serThing, bind, pure, Option.bind_eq_some_iff] at hj
  obtain ⟨created, h1, modified, h2, properties, h3, actions, h4, events, h5, forms, h6, secs, h7, uris, h8,
    defs, h9, other, h10, e⟩ := hj
  injection e with e
  subst e
  have ds : ∀ {p : Position} {s : DS X}, t.HasSchema p s →
      ∀ x, Within x s → NodeNums fl C.dataSchema C.arraySchema C.objectSchema x :=
    fun hs x hx => ⟨fun n f => hn.floats _ _ x n f hs hx, hn.values _ _ x hs hx⟩
  have low1 : ∀ {s : DS X} {p : Position}, t.HasSchema p s → NumOpt fl (serDS C env.toEnv s) :=
    fun hs => (nums_schema _ (ds hs)).2
  refine nums_obj (Nums.append (Nums.fields ?_) fun kv hkv => hn.other _ h10 kv hkv)
  fields
  refine ⟨num_some hn.context, num_str, num_strings, num_some (nums_str _),
    num_lang, num_str, num_lang, num_map ?_, num_optOpt h1 ?_, num_optOpt h2 ?_, num_str, num_str,
    num_optOpt h3 ?_, num_optOpt h4 ?_, num_optOpt h5 ?_, num_map ?_, num_optOpt h6 ?_,
    num_some (nums_strings _), num_some ?_, num_schemas ?_ h8, num_strings, num_schemas ?_ h9⟩
  · intro v _
    refine nums_obj ?_
    simp only [Nums, List.forall_mem_cons, List.not_mem_nil, false_imp_iff, implies_true, and_true]
    refine ⟨nums_str _, ?_⟩
    cases v.model
    · exact nums_null
    · exact nums_str _
  · intro d j _ hj
    obtain ⟨s, _, rfl⟩ := Option.map_eq_some_iff.1 hj
    exact nums_str _
  · intro d j _ hj
    obtain ⟨s, _, rfl⟩ := Option.map_eq_some_iff.1 hj
    exact nums_str _
  · intro ps j hps hj
    refine nums_serMap hj fun kv hkv j hj => ?_
    simp only [serProperty, bind, pure, Option.bind_eq_some_iff] at hj
    obtain ⟨es, k1, s, k2, other, k3, e⟩ := hj
    injection e with e
    subst e
    refine nums_obj (Nums.append (Nums.append (Nums.append ?_ ?_) (Nums.fields ?_)) ?_)
    · exact nums_interaction (fun f hf => hn.forms _ _ (.property hps hkv hf))
        (fun u hu kv' hkv' => ds (.propertyUriVariable hps hkv hu hkv')) (hn.interactions _ (.property hps hkv)) k1
    · exact (nums_schema _ (ds (.property hps hkv))).1 _ k2
    · fields
      exact num_bool
    · exact fun kv' hkv' => hn.properties _ hps kv hkv _ k3 kv' hkv'
  · intro ps j hps hj
    refine nums_serMap hj fun kv hkv j hj => ?_
    simp only [serAction, bind, pure, Option.bind_eq_some_iff] at hj
    obtain ⟨es, k1, input, k2, output, k3, other, k4, e⟩ := hj
    injection e with e
    subst e
    refine nums_obj (Nums.append (Nums.append ?_ (Nums.fields ?_)) ?_)
    · exact nums_interaction (fun f hf => hn.forms _ _ (.action hps hkv hf))
        (fun u hu kv' hkv' => ds (.actionUriVariable hps hkv hu hkv')) (hn.interactions _ (.action hps hkv)) k1
    · fields
      exact ⟨num_optOpt k2 fun s j hs hj => low1 (.input hps hkv hs) j hj,
        num_optOpt k3 fun s j hs hj => low1 (.output hps hkv hs) j hj,
        num_some (nums_boolean _), num_some (nums_boolean _), num_bool⟩
    · exact fun kv' hkv' => hn.actions _ hps kv hkv _ k4 kv' hkv'
  · intro ps j hps hj
    refine nums_serMap hj fun kv hkv j hj => ?_
    simp only [serEvent, bind, pure, Option.bind_eq_some_iff] at hj
    obtain ⟨es, k1, s1, k2, s2, k3, s3, k4, s4, k5, other, k6, e⟩ := hj
    injection e with e
    subst e
    refine nums_obj (Nums.append (Nums.append ?_ (Nums.fields ?_)) ?_)
    · exact nums_interaction (fun f hf => hn.forms _ _ (.event hps hkv hf))
        (fun u hu kv' hkv' => ds (.eventUriVariable hps hkv hu hkv')) (hn.interactions _ (.event hps hkv)) k1
    · fields
      exact ⟨num_optOpt k2 fun s j hs hj => low1 (.subscription hps hkv hs) j hj,
        num_optOpt k3 fun s j hs hj => low1 (.data hps hkv hs) j hj,
        num_optOpt k4 fun s j hs hj => low1 (.dataResponse hps hkv hs) j hj,
        num_optOpt k5 fun s j hs hj => low1 (.cancellation hps hkv hs) j hj⟩
    · exact fun kv' hkv' => hn.events _ hps kv hkv _ k6 kv' hkv'
  · intro l _
    refine nums_arr fun j hj => ?_
    obtain ⟨l, _, rfl⟩ := List.mem_map.1 hj
    refine nums_obj (Nums.fields ?_)
    fields
    exact ⟨num_some (nums_str _), num_str, num_str, num_str, num_str, num_strings⟩
  · intro fs j hfs hj
    obtain ⟨js, hjs, rfl⟩ := Option.map_eq_some_iff.1 hj
    exact nums_mapOpt hjs fun f hf j hj => nums_form (hn.forms _ _ (.thing hfs hf)).1 (hn.forms _ _ (.thing hfs hf)).2 hj
  · exact nums_serMap h7 fun kv hkv j hj =>
      nums_security (fun scheme es hs => hn.security kv.1 kv.2 scheme es hkv hs) hj
  · exact fun u hu kv hkv => ds (.uriVariable hu hkv)
  · exact fun u hu kv hkv => ds (.schemaDefinition hu hkv)

end

/-! ### Things that have been read -/

theorem JNum.Lasts.kept {n : JNum} (h : n.Lasts fl) : n.Kept fl := by
  cases n with
  | pos n => exact h.1
  | neg n => exact h.1
  | float f => exact h

theorem Json.NumbersLast.kept {j : Json} (h : j.NumbersLast fl) : j.NumbersKept fl := fun n hn => (h n hn).kept

theorem Json.NumbersLast.norm {j : Json} (h : j.NumbersLast fl) : j.norm.NumbersLast fl := fun n hn => h n (numberIn_norm hn)

theorem Hereditary.last (fl : FloatText) : Hereditary (Json.NumbersLast fl) where
  element h hj n hn := h n (.element hj hn)
  member h hj n hn := h n (.member hj hn)
  rest K h n hn := by
    cases hn with
    | member hj hn => exact h n (.member (List.mem_filter.1 hj).1 hn)

/-- A float that has been read is kept. -/
theorem float_last {d : Json} (hd : d.NumbersLast fl) {f : F64} (h : deF64 d = some f) : fl.Keeps f := by
  cases d with
  | num n =>
    have hn := hd n .here
    cases n with
    | float g => cases h; exact hn
    | pos n =>
      cases h
      exact hn.2 _ (ofInt_nearest (z := n) (by omega) (by have := hn.1; omega))
    | neg n =>
      cases h
      exact hn.2 _ (ofInt_nearest (by have := hn.1; omega) (by omega))
  | _ => cases h

theorem SchemaFrom.floats {DSx AS OS : Type} {C : ExtCodec DSx} {CA : ExtCodec AS} {CO : ExtCodec OS} {env : SerdeEnv}
    {x : DataSchema DSx AS OS} (h : SchemaFrom C CA CO env (Json.NumbersLast fl) x) {n : NumberSchema} {f : F64}
    (hx : x.subtype = some (.number n)) (hu : n.Uses f) : fl.Keeps f := by
  obtain ⟨es, he, hr⟩ := h
  have hP := Hereditary.last fl
  obtain ⟨es', he', hr'⟩ := number_from hP (hP.rest _ he) (hr.subtype.trans hx)
  have bound : ∀ {α : Type} {table : List (String × (F64 → α))} {b : α} {es : Members}, (Json.obj es).NumbersLast fl →
      deFlatEnum table deF64 es = some b → ∃ a e, fl.Keeps a ∧ e ∈ table ∧ b = e.2 a := by
    intro α table b es he h
    obtain ⟨v, a, e, hv, ha, hm, rfl⟩ := flatEnum_from hP he h
    exact ⟨a, e, float_last hv ha, hm, rfl⟩
  have max := fun b hb => bound (b := b) (hP.rest _ he') (hr'.maximum.trans hb)
  have min := fun b hb => bound (b := b) (hP.rest _ he') (hr'.minimum.trans hb)
  rcases hu with h | h | h | h | h
  · obtain ⟨a, e, ha, hm, hb⟩ := max _ h
    simp only [List.mem_cons, List.not_mem_nil, or_false] at hm
    rcases hm with rfl | rfl <;> cases hb <;> exact ha
  · obtain ⟨a, e, ha, hm, hb⟩ := max _ h
    simp only [List.mem_cons, List.not_mem_nil, or_false] at hm
    rcases hm with rfl | rfl <;> cases hb <;> exact ha
  · obtain ⟨a, e, ha, hm, hb⟩ := min _ h
    simp only [List.mem_cons, List.not_mem_nil, or_false] at hm
    rcases hm with rfl | rfl <;> cases hb <;> exact ha
  · obtain ⟨a, e, ha, hm, hb⟩ := min _ h
    simp only [List.mem_cons, List.not_mem_nil, or_false] at hm
    rcases hm with rfl | rfl <;> cases hb <;> exact ha
  · have := hr'.multipleOf
    rw [h] at this
    obtain ⟨v, hv, -, hfl⟩ := optional_from hP he' this
    exact float_last hv hfl

theorem number_inRange (hl : ∀ cs f, fl.read cs = some f → f.isFinite = true) {n : JNum} {cs : List Char} (h : NumberText fl n cs) : n.InRange := by
  cases h with
  | pos _ _ h => exact h
  | neg _ _ h => exact h
  | big _ _ _ h => exact hl _ _ h
  | low _ _ _ h => exact hl _ _ h
  | float _ _ _ _ _ h => exact hl _ _ h

mutual
theorem value_inRange (hl : ∀ cs f, fl.read cs = some f → f.isFinite = true) {j : Json} {cs : List Char} (h : ValueText fl j cs) : j.NumbersInRange := by
  match h with
  | .null => intro n hn; cases hn
  | .true => intro n hn; cases hn
  | .false => intro n hn; cases hn
  | .str _ => intro n hn; cases hn
  | .num h => intro n hn; cases hn; exact number_inRange hl h
  | .empty _ => intro n hn; cases hn with | element h _ => cases h
  | .emptyObj _ => intro n hn; cases hn with | member h _ => cases h
  | .arr h =>
    have ih := elements_inRange hl h
    intro n hn
    cases hn with | element h1 h2 => exact ih _ h1 n h2
  | .obj h =>
    have ih := members_inRange hl h
    intro n hn
    cases hn with | member h1 h2 => exact ih _ h1 n h2
theorem elements_inRange (hl : ∀ cs f, fl.read cs = some f → f.isFinite = true) {l : List Json} {cs : List Char} (h : ElementsText fl l cs) :
    ∀ j ∈ l, j.NumbersInRange := by
  match h with
  | .one _ h _ =>
    have ih := value_inRange hl h
    intro i hi
    cases List.mem_singleton.1 hi
    exact ih
  | .cons _ h _ hr =>
    have ih := value_inRange hl h
    have ih' := elements_inRange hl hr
    intro i hi
    rcases List.mem_cons.1 hi with rfl | hi
    · exact ih
    · exact ih' i hi
theorem members_inRange (hl : ∀ cs f, fl.read cs = some f → f.isFinite = true) {m : List (String × Json)} {cs : List Char} (h : MembersText fl m cs) :
    ∀ kv ∈ m, kv.2.NumbersInRange := by
  match h with
  | .one _ _ _ _ h _ =>
    have ih := value_inRange hl h
    intro i hi
    cases List.mem_singleton.1 hi
    exact ih
  | .cons _ _ _ _ h _ hr =>
    have ih := value_inRange hl h
    have ih' := members_inRange hl hr
    intro i hi
    rcases List.mem_cons.1 hi with rfl | hi
    · exact ih
    · exact ih' i hi
end

/-- If all floats are kept, so is everything that is read from a text. -/
theorem value_last (hl : fl.Lawful) {j : Json} {cs : List Char} (h : ValueText fl j cs) : j.NumbersLast fl := by
  intro n hn
  have := value_inRange hl.finite h n hn
  cases n with
  | pos n => exact ⟨this, fun f hf => hl.keeps f hf.finite⟩
  | neg n => exact ⟨this, fun f hf => hl.keeps f hf.finite⟩
  | float f => exact hl.keeps f this

section
variable {X : ExtTypes} {C : ExtCodecs X} {env : SerdeEnv} {t : Thing X}

/-- The numbers of a Thing that has been read have texts from which they are read. -/
theorem ThingFrom.numbersKept (hc : C.NumbersKept fl) (h : ThingFrom C env (Json.NumbersLast fl) t) :
    t.NumbersKept fl C where
  floats p s x n f hs hx hn hu _ := (within_from (.last fl) hx (h.schemas p s hs)).floats hn hu
  values p s x hs hx := by
    obtain ⟨es, he, hr⟩ := within_from (.last fl) hx (h.schemas p s hs)
    have value : ∀ {k v}, optional k deValue es = some (some v) → v.NumbersKept fl := by
      intro k v h
      obtain ⟨w, hw, -, h⟩ := optional_from (.last fl) he h
      cases h
      exact hw.norm.kept
    refine ⟨fun v e => value (e ▸ hr.constant), fun v e => value (e ▸ hr.default), fun l e v hv => ?_,
      hc.dataSchema _, fun a _ => hc.arraySchema _, fun o _ => hc.objectSchema _⟩
    obtain ⟨w, hw, h⟩ := optVec_from (.last fl) he (e ▸ hr.enumeration) hv
    cases h
    exact hw.norm.kept
  forms _ _ _ := ⟨hc.form _, fun _ _ => hc.response _⟩
  interactions _ _ := hc.interaction _
  properties _ _ _ _ := hc.property _
  actions _ _ _ _ := hc.action _
  events _ _ _ _ := hc.event _
  security n s scheme es hs hm := by
    obtain ⟨es', he, hr⟩ := h.security _ hs
    have := hr.subtype
    rw [hm] at this
    unfold deSubtype at this
    split at this
    · cases this
    · simp only [deUnknown, bind, pure] at this
      obtain ⟨_, _, h⟩ := Option.bind_eq_some_iff.1 this
      simp only [Option.some.injEq, SchemeSubtype.unknown.injEq] at h
      have hP := Hereditary.last fl
      have hn : (Json.obj es).NumbersLast fl := by
        rw [← h.2]
        exact Json.NumbersLast.norm (hP.rest _ (hP.rest _ he))
      exact fun kv hkv => (hP.member (k := kv.1) hn hkv).kept
  context := by
    obtain ⟨es, he, hr⟩ := h.self
    have := hr.context
    unfold defaulted at this
    split at this
    · rw [← Option.some.inj this]
      exact nums_str _
    · rename_i v hv
      rw [← Option.some.inj this]
      exact (Json.NumbersLast.norm ((Hereditary.last fl).member he (mem_occ.1 (hv ▸ List.mem_singleton.2 rfl)))).kept
    · cases this
  other := hc.thing _

end

end Wot
