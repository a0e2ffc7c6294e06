import Verif.Lemmas.CodecText
import Verif.Spec.Nesting
/-
How deep written documents nest.
-/
namespace Wot

/-! ### Documents -/

theorem nestingList_le {l : List Json} {n : Nat} : Json.nestingList l ≤ n ↔ ∀ j ∈ l, j.nesting ≤ n := by
  induction l with
  | nil => simp [Json.nestingList]
  | cons j l ih =>
    simp only [Json.nestingList, List.forall_mem_cons, ← ih]
    omega

theorem nestingMembers_le {l : Members} {n : Nat} :
    Json.nestingMembers l ≤ n ↔ ∀ kv ∈ l, kv.2.nesting ≤ n := by
  induction l with
  | nil => simp [Json.nestingMembers]
  | cons kv l ih =>
    obtain ⟨k, j⟩ := kv
    simp only [Json.nestingMembers, List.forall_mem_cons, ← ih]
    omega

theorem nesting_arr_le {l : List Json} {n : Nat} :
    (Json.arr l).nesting ≤ n + 1 ↔ ∀ j ∈ l, j.nesting ≤ n := by
  rw [← nestingList_le, Json.nesting, Nat.add_le_add_iff_right]

theorem nesting_obj_le {l : Members} {n : Nat} :
    (Json.obj l).nesting ≤ n + 1 ↔ ∀ kv ∈ l, kv.2.nesting ≤ n := by
  rw [← nestingMembers_le, Json.nesting, Nat.add_le_add_iff_right]

theorem nesting_mem_arr {l : List Json} {j : Json} (h : j ∈ l) : j.nesting + 1 ≤ (Json.arr l).nesting :=
  Nat.add_le_add_right (nestingList_le.1 (Nat.le_refl _) j h) 1

theorem nesting_mem_obj {l : Members} {kv : String × Json} (h : kv ∈ l) :
    kv.2.nesting + 1 ≤ (Json.obj l).nesting :=
  Nat.add_le_add_right (nestingMembers_le.1 (Nat.le_refl _) kv h) 1

theorem nesting_obj_sub {l l' : Members} (h : ∀ kv ∈ l, kv ∈ l') :
    (Json.obj l).nesting ≤ (Json.obj l').nesting :=
  Nat.add_le_add_right (nestingMembers_le.2 fun kv hkv =>
    nestingMembers_le.1 (Nat.le_refl _) kv (h kv hkv)) 1

/-! ### Optional members -/

/-- What is written, if anything, nests at most `n` deep. -/
abbrev LowOpt (n : Nat) (o : Option Json) : Prop := ∀ j, o = some j → j.nesting ≤ n

/-- All members nest at most `n` deep. -/
abbrev Low (n : Nat) (es : Members) : Prop := ∀ kv ∈ es, kv.2.nesting ≤ n

theorem Low.append {n : Nat} {a b : Members} (ha : Low n a) (hb : Low n b) : Low n (a ++ b) := by
  intro kv h
  rcases List.mem_append.1 h with h | h
  · exact ha kv h
  · exact hb kv h

theorem Low.fields {n : Nat} {l : List (String × Option Json)} (h : ∀ kv ∈ l, LowOpt n kv.2) :
    Low n (members l) := by
  intro kv hkv
  obtain ⟨⟨k, o⟩, hm, ho⟩ := List.mem_filterMap.1 hkv
  obtain ⟨v, hv, rfl⟩ := Option.map_eq_some_iff.1 ho
  exact h _ hm v hv

theorem Low.mono {n n' : Nat} {a : Members} (ha : Low n a) (h : n ≤ n') : Low n' a :=
  fun kv hkv => Nat.le_trans (ha kv hkv) h

theorem LowOpt.mono {n n' : Nat} {a : Option Json} (ha : LowOpt n a) (h : n ≤ n') : LowOpt n' a :=
  fun j hj => Nat.le_trans (ha j hj) h

theorem low_none {n : Nat} : LowOpt n none := nofun

theorem low_some {n : Nat} {j : Json} (h : j.nesting ≤ n) : LowOpt n (some j) := fun _ e => by cases e; exact h

theorem low_map {α : Type} {n : Nat} {f : α → Json} {o : Option α} (h : ∀ a, o = some a → (f a).nesting ≤ n) :
    LowOpt n (o.map f) := by
  intro j hj
  obtain ⟨a, ha, rfl⟩ := Option.map_eq_some_iff.1 hj
  exact h a ha

theorem low_str {n : Nat} {o : Option String} : LowOpt n (o.map Json.str) := low_map fun _ _ => Nat.zero_le _

theorem low_bool {n : Nat} {o : Option Bool} : LowOpt n (o.map Json.bool) := low_map fun _ _ => Nat.zero_le _

theorem nesting_oneOrMany {n : Nat} {l : List Json} (h : ∀ j ∈ l, j.nesting ≤ n) :
    (serOneOrMany l).nesting ≤ n + 1 := by
  unfold serOneOrMany
  split
  · exact Nat.le_succ_of_le (h _ (by simp))
  · exact nesting_arr_le.2 h

theorem nesting_strings (l : List String) : (serStrings l).nesting ≤ 1 :=
  nesting_oneOrMany fun j hj => by obtain ⟨s, _, rfl⟩ := List.mem_map.1 hj; exact Nat.le_refl _

theorem low_strings {n : Nat} {o : Option (List String)} : LowOpt (n + 1) (o.map serStrings) :=
  low_map fun l _ => Nat.le_trans (nesting_strings l) (by omega)

theorem nesting_lang (env : Env) (m : MultiLanguage) : (serLang env m).nesting ≤ 1 := by
  refine nesting_obj_le.2 fun kv hkv => ?_
  obtain ⟨e, _, rfl⟩ := List.mem_map.1 hkv
  exact Nat.le_refl _

theorem low_lang {n : Nat} {env : Env} {o : Option MultiLanguage} : LowOpt (n + 1) (o.map (serLang env)) :=
  low_map fun m _ => Nat.le_trans (nesting_lang env m) (by omega)

theorem low_optOpt {α : Type} {n : Nat} {f : α → Option Json} {o : Option α} {r : Option Json}
    (hr : optOpt f o = some r) (h : ∀ a j, o = some a → f a = some j → j.nesting ≤ n) : LowOpt n r := by
  intro j e
  subst e
  cases o with
  | none => cases hr
  | some a =>
    obtain ⟨j', h1, h2⟩ := Option.map_eq_some_iff.1 hr
    cases h2
    exact h a _ rfl h1

theorem nesting_mapOpt {α : Type} {n : Nat} {f : α → Option Json} {l : List α} {js : List Json}
    (hw : mapOpt f l = some js) (h : ∀ a ∈ l, ∀ j, f a = some j → j.nesting ≤ n) :
    (Json.arr js).nesting ≤ n + 1 := by
  refine nesting_arr_le.2 ?_
  have := mapOpt_eq_some.1 hw
  clear hw
  induction this with
  | nil => nofun
  | cons hab _ ih =>
    intro j hj
    rcases List.mem_cons.1 hj with rfl | hj
    · exact h _ (by simp) _ hab
    · exact ih (fun a ha => h a (by simp [ha])) j hj

theorem nesting_serMap {α : Type} {n : Nat} {env : Env} {f : α → Option Json} {m : HMap α} {j : Json}
    (hw : serMap env f m = some j) (h : ∀ kv ∈ m, ∀ j, f kv.2 = some j → j.nesting ≤ n) :
    j.nesting ≤ n + 1 := by
  obtain ⟨ms, h1, rfl⟩ := Option.map_eq_some_iff.1 hw
  have h2 := mapOptVals_eq_some.1 h1
  have hall : ∀ kv ∈ env.iter m, ∀ j, f kv.2 = some j → j.nesting ≤ n := fun kv hkv =>
    h kv ((env.iter_perm m).mem_iff.1 hkv)
  refine nesting_obj_le.2 ?_
  generalize env.iter m = l at h2 hall
  clear h1 hw h
  induction h2 with
  | nil => nofun
  | cons hab _ ih =>
    intro kv hkv
    rcases List.mem_cons.1 hkv with rfl | hkv
    · exact hall _ (by simp) _ hab.2
    · exact ih (fun kv hkv => hall kv (by simp [hkv])) kv hkv

/-- The elements of a written list. -/
theorem mem_mapOpt {α : Type} {f : α → Option Json} {l : List α} {js : List Json}
    (hw : mapOpt f l = some js) {a : α} (ha : a ∈ l) : ∃ j ∈ js, f a = some j := by
  have := mapOpt_eq_some.1 hw
  clear hw
  induction this with
  | nil => cases ha
  | cons hab _ ih =>
    rcases List.mem_cons.1 ha with rfl | ha
    · exact ⟨_, by simp, hab⟩
    · obtain ⟨j, h1, h2⟩ := ih ha
      exact ⟨j, by simp [h1], h2⟩

/-- The members of a written map. -/
theorem mem_serMap {α : Type} {env : Env} {f : α → Option Json} {m : HMap α} {j : Json}
    (hw : serMap env f m = some j) {k : String} {a : α} (ha : (k, a) ∈ m) :
    ∃ ms v, j = .obj ms ∧ (k, v) ∈ ms ∧ f a = some v := by
  obtain ⟨ms, h1, rfl⟩ := Option.map_eq_some_iff.1 hw
  have h2 := mapOptVals_eq_some.1 h1
  have ha := (env.iter_perm m).mem_iff.2 ha
  refine ⟨ms, ?_⟩
  generalize env.iter m = l at h2 ha
  clear h1 hw
  suffices ∃ v, (k, v) ∈ ms ∧ f a = some v by
    obtain ⟨v, h1, h2⟩ := this; exact ⟨v, rfl, h1, h2⟩
  induction h2 with
  | nil => cases ha
  | @cons x y _ _ hab _ ih =>
    obtain ⟨k', v⟩ := y
    rcases List.mem_cons.1 ha with rfl | ha
    · obtain ⟨rfl, h⟩ := hab
      exact ⟨v, by simp, h⟩
    · obtain ⟨v, h1, h2⟩ := ih ha
      exact ⟨v, by simp [h1], h2⟩

/-! ### Security -/

theorem low_known (k : KnownScheme) : Low 1 (serKnown k) := by
  have loc : ∀ l, (serLocation l).nesting ≤ 1 := by intro l; cases l <;> decide
  have qop : ∀ l, (serQoP l).nesting ≤ 1 := by intro l; cases l <;> decide
  have str : ∀ s, (Json.str s).nesting ≤ 1 := fun _ => Nat.zero_le _
  cases k with
  | noSec => simp [serKnown, Low, Json.nesting]
  | auto => simp [serKnown, Low, Json.nesting]
  | combo c =>
    cases c with
    | oneOf l => simp [serKnown, Low, Json.nesting, nesting_strings]
    | allOf l => simp [serKnown, Low, Json.nesting, nesting_strings]
  | basic s =>
    refine Low.fields ?_
    fields
    exact ⟨low_some (str _), low_some (loc _), low_str⟩
  | digest s =>
    refine Low.fields ?_
    fields
    exact ⟨low_some (str _), low_some (qop _), low_some (loc _), low_str⟩
  | bearer s =>
    refine Low.fields ?_
    fields
    exact ⟨low_some (str _), low_str, low_some (str _), low_some (str _), low_some (loc _), low_str⟩
  | psk s =>
    refine Low.fields ?_
    fields
    exact ⟨low_some (str _), low_str⟩
  | oauth2 s =>
    refine Low.fields ?_
    fields
    exact ⟨low_some (str _), low_str, low_str, low_str, low_strings, low_some (str _)⟩
  | apiKey s =>
    refine Low.fields ?_
    fields
    exact ⟨low_some (str _), low_some (loc _), low_str⟩

theorem nesting_security {env : Env} {s : SecurityScheme} {m : Nat} {j : Json} (hm : 1 ≤ m)
    (h : ∀ scheme es, s.subtype = .unknown scheme (.obj es) → ∀ kv ∈ es, kv.2.nesting ≤ m)
    (hw : serSecurity env s = some j) : j.nesting ≤ m + 1 := by
  obtain ⟨es, hes, rfl⟩ := Option.map_eq_some_iff.1 hw
  refine nesting_obj_le.2 (Low.append (Low.fields ?_) ?_)
  · obtain ⟨m, rfl⟩ : ∃ k, m = k + 1 := ⟨m - 1, by omega⟩
    fields
    exact ⟨low_strings, low_str, low_lang, low_str⟩
  · cases hs : s.subtype with
    | known k => rw [hs] at hes; cases hes; exact (low_known k).mono hm
    | unknown scheme data =>
      rw [hs] at hes
      obtain ⟨d, hd, rfl⟩ := Option.map_eq_some_iff.1 hes
      intro kv hkv
      rcases List.mem_cons.1 hkv with rfl | hkv
      · exact Nat.zero_le _
      cases data <;> simp only [serFlatValue, reduceCtorEq, Option.some.injEq] at hd
      · subst hd; cases hkv
      · subst hd; exact h _ _ hs kv hkv

/-! ### Schemas -/

section
variable {DSx AS OS : Type} {C : ExtCodec DSx} {CA : ExtCodec AS} {CO : ExtCodec OS} {env : Env}

theorem holds_child {L DS AS OS : Type} {c s : Schema L DS AS OS} :
    c.Holds s ↔ (∃ l, s.oneOf = some l ∧ c ∈ l) ∨ ∃ st, s.subtype = some st ∧ c ∈ st.children := by
  constructor
  · rintro (⟨h, hc⟩ | ⟨h, hi⟩ | ⟨h, hi, hc⟩ | ⟨h, hp, hc⟩)
    · exact .inl ⟨_, h, hc⟩
    · exact .inr ⟨_, h, by simp [SubtypeF.children, hi, ElemOrVec.toList]⟩
    · exact .inr ⟨_, h, by simp [SubtypeF.children, hi, ElemOrVec.toList, hc]⟩
    · refine .inr ⟨_, h, ?_⟩
      simp only [SubtypeF.children, hp, Option.map_some, Option.getD_some, HMap.values, List.mem_map]
      exact ⟨_, hc, rfl⟩
  · rintro (⟨l, h, hc⟩ | ⟨st, e, h⟩)
    · exact .oneOf h hc
    cases st with
    | array a =>
      simp only [SubtypeF.children] at h
      cases ei : a.items with
      | none => rw [ei] at h; cases h
      | some i =>
        rw [ei] at h
        cases i with
        | elem c' =>
          simp only [Option.map_some, Option.getD_some, ElemOrVec.toList, List.mem_singleton] at h
          subst h
          exact .item e ei
        | vec l => exact .items e ei h
    | object o =>
      simp only [SubtypeF.children] at h
      cases ei : o.properties with
      | none => rw [ei] at h; cases h
      | some m =>
        rw [ei] at h
        simp only [Option.map_some, Option.getD_some, HMap.values, List.mem_map] at h
        obtain ⟨⟨k, c'⟩, hm, rfl⟩ := h
        exact .property e ei hm
    | _ => cases h

theorem holds_within {L DS AS OS : Type} {c s x : Schema L DS AS OS} (h : c.Holds s) (hx : Within x c) :
    Within x s := by
  rcases h with ⟨h, hc⟩ | ⟨h, hi⟩ | ⟨h, hi, hc⟩ | ⟨h, hp, hc⟩
  · exact .oneOf h hc hx
  · exact .item h hi hx
  · exact .items h hi hc hx
  · exact .property h hp hc hx

/-- What a schema carries itself nests at most `m` deep. -/
def NodeFlat (C : ExtCodec DSx) (CA : ExtCodec AS) (CO : ExtCodec OS) (m : Nat)
    (x : DataSchema DSx AS OS) : Prop :=
  (∀ v, x.head.constant = some v → v.nesting ≤ m) ∧ (∀ v, x.head.default = some v → v.nesting ≤ m) ∧
  (∀ l, x.head.enumeration = some l → ∀ v ∈ l, v.nesting ≤ m) ∧ C.Flat m x.head.other ∧
  (∀ a, x.subtype = some (.array a) → CA.Flat m a.other) ∧
  (∀ o, x.subtype = some (.object o) → CO.Flat m o.other)

theorem low_maximum {T : Type} {f : T → Json} (hf : ∀ a, (f a).nesting = 0) {n : Nat}
    (o : Option (Maximum T)) : Low n (serFlatOption (serMaximum f) o) := by
  rcases o with _ | (a | a) <;> simp [serFlatOption, serMaximum, Low, hf]

theorem low_minimum {T : Type} {f : T → Json} (hf : ∀ a, (f a).nesting = 0) {n : Nat}
    (o : Option (Minimum T)) : Low n (serFlatOption (serMinimum f) o) := by
  rcases o with _ | (a | a) <;> simp [serFlatOption, serMinimum, Low, hf]

theorem nesting_f64 (a : F64) : (serF64 a).nesting = 0 := by unfold serF64; split <;> rfl

theorem nesting_i64 (a : I64) : (serI64 a).nesting = 0 := by unfold serI64; first | rfl | (split <;> rfl)

theorem low_subtype {st : SubtypeF AS OS (Option Json)} {es : Members} {n : Nat}
    (hw : serSchemaSubtype CA CO env st = some es)
    (ha : ∀ a, st = .array a → CA.Flat (n + 1) a.other) (ho : ∀ o, st = .object o → CO.Flat (n + 1) o.other)
    (hc : ∀ c ∈ st.children, LowOpt n c) : Low (n + 1) es := by
  have tagged : ∀ {es : Members} {k : String}, Low (n + 1) es → Low (n + 1) (("type", .str k) :: es) := by
    intro es k h kv hkv
    rcases List.mem_cons.1 hkv with rfl | hkv
    · exact Nat.zero_le _
    · exact h kv hkv
  cases st with
  | array a =>
    obtain ⟨m', hm', rfl⟩ := Option.map_eq_some_iff.1 hw
    simp only [serArray, bind, pure, Option.bind_eq_some_iff] at hm'
    obtain ⟨items, hi, other, h3, e⟩ := hm'
    cases e
    refine tagged (Low.append (Low.fields ?_) (ha a rfl _ h3))
    fields
    refine ⟨low_optOpt hi ?_, low_map fun _ _ => Nat.zero_le _, low_map fun _ _ => Nat.zero_le _⟩
    intro e j he hj
    cases e with
    | elem c =>
      refine Nat.le_succ_of_le (hc c ?_ j hj)
      simp [SubtypeF.children, he, ElemOrVec.toList]
    | vec l =>
      obtain ⟨js, hjs, rfl⟩ := Option.map_eq_some_iff.1 hj
      exact nesting_mapOpt hjs fun c hcl j hcj =>
        hc c (by simp [SubtypeF.children, he, ElemOrVec.toList, hcl]) j hcj
  | object o =>
    obtain ⟨m', hm', rfl⟩ := Option.map_eq_some_iff.1 hw
    simp only [serObject, bind, pure, Option.bind_eq_some_iff] at hm'
    obtain ⟨props, hp, other, h3, e⟩ := hm'
    cases e
    refine tagged (Low.append (Low.fields ?_) (ho o rfl _ h3))
    fields
    refine ⟨low_optOpt hp ?_, low_map fun l _ => nesting_arr_le.2 fun j hj => by
      obtain ⟨s, _, rfl⟩ := List.mem_map.1 hj; exact Nat.zero_le _⟩
    intro m j hm hj
    refine nesting_serMap hj fun kv hkv j hj => hc kv.2 ?_ j hj
    simp only [SubtypeF.children, hm, Option.map_some, Option.getD_some, HMap.values]
    exact List.mem_map_of_mem hkv
  | number x =>
    cases hw
    exact tagged (Low.append (Low.append (low_maximum nesting_f64 _) (low_minimum nesting_f64 _))
      (Low.fields (by fields; exact low_map fun _ _ => by rw [nesting_f64]; exact Nat.zero_le _)))
  | integer x =>
    cases hw
    exact tagged (Low.append (Low.append (low_maximum nesting_i64 _) (low_minimum nesting_i64 _))
      (Low.fields (by fields; exact low_map fun _ _ => Nat.zero_le _)))
  | string x =>
    cases hw
    refine tagged (Low.fields ?_)
    fields
    exact ⟨low_map fun _ _ => Nat.zero_le _, low_map fun _ _ => Nat.zero_le _, low_str, low_str, low_str⟩
  | boolean => cases hw; exact tagged nofun
  | null => cases hw; exact tagged nofun

theorem low_schemaMembers {s : DataSchema DSx AS OS} {es : Members} {n m : Nat} (hmn : m ≤ n)
    (hn : NodeFlat C CA CO m s) (hw : serSchemaMembers C CA CO env s = some es)
    (ih : ∀ c, c.Holds s → LowOpt n (serSchema C CA CO env c)) : Low (n + 1) es := by
  simp only [serSchemaMembers, serSchemaStep, bind, pure, Option.bind_eq_some_iff] at hw
  obtain ⟨oneOf, h1, sub, h2, other, h3, e⟩ := hw
  injection e with e
  subst e
  obtain ⟨n1, n2, n3, n4, n5, n6⟩ := hn
  have low : ∀ {j : Json}, j.nesting ≤ m → j.nesting ≤ n + 1 := fun h => by omega
  refine Low.append (Low.append (Low.fields ?_) ?_) fun kv hkv => low (n4 _ h3 kv hkv)
  · fields
    refine ⟨low_strings, low_str, low_lang, low_str, low_lang, fun v hv => low (n1 v hv),
      fun v hv => low (n2 v hv), low_str, low_optOpt h1 ?_,
      low_map fun l hl => nesting_arr_le.2 fun v hv => Nat.le_trans (n3 l hl v hv) hmn,
      low_some (Nat.zero_le _), low_some (Nat.zero_le _), low_str⟩
    intro l j hl hj
    obtain ⟨l', hl', rfl⟩ := Option.map_eq_some_iff.1 hl
    obtain ⟨js, hjs, rfl⟩ := Option.map_eq_some_iff.1 hj
    refine nesting_mapOpt hjs fun c hc j hcj => ?_
    obtain ⟨c', hc', rfl⟩ := List.mem_map.1 hc
    exact ih c' (.oneOf hl' hc') j hcj
  · cases hs : s.subtype with
    | none => rw [hs] at h2; cases h2; nofun
    | some st =>
      rw [hs] at h2
      obtain ⟨m', hm', e⟩ := Option.map_eq_some_iff.1 h2
      cases e
      refine low_subtype hm' ?_ ?_ ?_
      · intro a ha es he kv hkv
        cases st <;> simp only [SubtypeF.map, SubtypeF.array.injEq, reduceCtorEq] at ha
        subst ha
        exact low (n5 _ hs es he kv hkv)
      · intro a ha es he kv hkv
        cases st <;> simp only [SubtypeF.map, SubtypeF.object.injEq, reduceCtorEq] at ha
        subst ha
        exact low (n6 _ hs es he kv hkv)
      · intro c hc
        rw [SubtypeF.children_map] at hc
        obtain ⟨c', hc', rfl⟩ := List.mem_map.1 hc
        exact ih c' (holds_child.2 (.inr ⟨st, hs, hc'⟩))

theorem Schema.Nests.pos {L DS AS OS : Type} {n : Nat} {s : Schema L DS AS OS} (h : s.Nests n) : 1 ≤ n := by
  cases h <;> omega

end

section
variable {DSx AS OS : Type} {C : ExtCodec DSx} {CA : ExtCodec AS} {CO : ExtCodec OS} {env : SerdeEnv}

/-- Schemas nested at most `h` deep are objects of depth at most `2 * h + m`. -/
theorem nesting_schema {m : Nat} : ∀ (h : Nat) (s : DataSchema DSx AS OS),
    (∀ n, s.Nests n → n ≤ h) → (∀ x, Within x s → NodeFlat C CA CO m x) →
    (∀ es, serSchemaMembers C CA CO env.toEnv s = some es → Low (2 * h + m - 1) es) ∧
    LowOpt (2 * h + m) (serSchema C CA CO env.toEnv s)
  | 0, s, hh, _ => absurd (hh 1 (.one s)) (by omega)
  | h + 1, s, hh, hf => by
    have key : ∀ es, serSchemaMembers C CA CO env.toEnv s = some es → Low (2 * h + m + 1) es := by
      intro es hes
      refine low_schemaMembers (m := m) (by omega) (hf s (.self s)) hes fun c hc => ?_
      exact (nesting_schema h c (fun n hn => Nat.le_of_succ_le_succ (hh _ (.more hc hn)))
        fun x hx => hf x (holds_within hc hx)).2
    refine ⟨fun es hes => (key es hes).mono (by omega), fun j hj => ?_⟩
    rw [serSchema_eq] at hj
    obtain ⟨es, hes, rfl⟩ := Option.map_eq_some_iff.1 hj
    exact Nat.le_trans (nesting_obj_le.2 (key es hes)) (by omega)

/-- A schema in a schema is written inside of it. -/
theorem nesting_holds {c s : DataSchema DSx AS OS} (h : c.Holds s) {j : Json}
    (hj : serSchema C CA CO env.toEnv s = some j) :
    ∃ i, serSchema C CA CO env.toEnv c = some i ∧ i.nesting + 1 ≤ j.nesting := by
  rw [serSchema_eq] at hj
  obtain ⟨es, hes, rfl⟩ := Option.map_eq_some_iff.1 hj
  simp only [serSchemaMembers, serSchemaStep, bind, pure, Option.bind_eq_some_iff] at hes
  obtain ⟨oneOf, h1, sub, h2, other, h3, e⟩ := hes
  injection e with e
  subst e
  have deep : ∀ {kv : String × Json} {l : Members} {i : Json}, kv ∈ l → i.nesting ≤ kv.2.nesting →
      i.nesting + 1 ≤ (Json.obj l).nesting := fun h1 h2 => Nat.le_trans (Nat.add_le_add_right h2 1) (nesting_mem_obj h1)
  rcases h with ⟨h, hc⟩ | ⟨h, hi⟩ | ⟨h, hi, hc⟩ | ⟨h, hp, hc⟩
  · rw [h] at h1
    obtain ⟨a, ha, rfl⟩ := Option.map_eq_some_iff.1 h1
    obtain ⟨js, hjs, rfl⟩ := Option.map_eq_some_iff.1 ha
    obtain ⟨i, hi, he⟩ := mem_mapOpt hjs (List.mem_map_of_mem hc)
    refine ⟨i, he, deep (kv := ("oneOf", .arr js)) (by simp [members]) ?_⟩
    exact Nat.le_trans (Nat.le_succ _) (nesting_mem_arr hi)
  all_goals
    rw [h] at h2
    obtain ⟨ms, hms, rfl⟩ := Option.map_eq_some_iff.1 h2
    obtain ⟨m', hm', rfl⟩ := Option.map_eq_some_iff.1 hms
  · simp only [serArray, bind, pure, Option.bind_eq_some_iff, hi, Option.map_some, ElemOrVec.map] at hm'
    obtain ⟨items, hit, other', h4, e⟩ := hm'
    cases e
    obtain ⟨i, hi, rfl⟩ := Option.map_eq_some_iff.1 hit
    exact ⟨i, hi, deep (kv := ("items", i)) (by simp [members]) (Nat.le_refl _)⟩
  · simp only [serArray, bind, pure, Option.bind_eq_some_iff, hi, Option.map_some, ElemOrVec.map] at hm'
    obtain ⟨items, hit, other', h4, e⟩ := hm'
    cases e
    obtain ⟨a, ha, rfl⟩ := Option.map_eq_some_iff.1 hit
    obtain ⟨js, hjs, rfl⟩ := Option.map_eq_some_iff.1 ha
    obtain ⟨i, hi, he⟩ := mem_mapOpt hjs (List.mem_map_of_mem hc)
    refine ⟨i, he, deep (kv := ("items", .arr js)) (by simp [members]) ?_⟩
    exact Nat.le_trans (Nat.le_succ _) (nesting_mem_arr hi)
  · simp only [serObject, bind, pure, Option.bind_eq_some_iff, hp, Option.map_some] at hm'
    obtain ⟨props, hpr, other', h4, e⟩ := hm'
    cases e
    obtain ⟨a, ha, rfl⟩ := Option.map_eq_some_iff.1 hpr
    obtain ⟨ms, v, rfl, hv, he⟩ := mem_serMap ha (List.mem_map_of_mem (f := fun kv => (kv.1, serSchema C CA CO env.toEnv kv.2)) hc)
    refine ⟨v, he, deep (kv := ("properties", .obj ms)) (by simp [members]) ?_⟩
    exact Nat.le_trans (Nat.le_succ _) (nesting_mem_obj hv)

/-- Written schemas nest at least as deep as the schemas. -/
theorem nests_schema {n : Nat} {s : DataSchema DSx AS OS} (h : s.Nests n) : ∀ j,
    serSchema C CA CO env.toEnv s = some j → n ≤ j.nesting := by
  induction h with
  | one s =>
    intro j hj
    rw [serSchema_eq] at hj
    obtain ⟨es, hes, rfl⟩ := Option.map_eq_some_iff.1 hj
    exact Nat.succ_le_succ (Nat.zero_le _)
  | more hc _ ih =>
    intro j hj
    obtain ⟨i, hi, hle⟩ := nesting_holds hc hj
    have := ih i hi
    omega

end

/-! ### Things -/

section
variable {X : ExtTypes} {C : ExtCodecs X} {env : SerdeEnv} {t : Thing X} {h m : Nat}

theorem nesting_form {f : Form X} {j : Json} (hm : 1 ≤ m) (ho : C.form.Flat m f.other)
    (hr : ∀ r, f.response = some r → C.response.Flat m r.other) (hj : serForm C f = some j) :
    j.nesting ≤ m + 2 := by
  simp only [serForm, bind, pure, Option.bind_eq_some_iff] at hj
  obtain ⟨response, h1, other, h2, e⟩ := hj
  injection e with e
  subst e
  refine nesting_obj_le.2 (Low.append (Low.fields ?_) fun kv hkv => Nat.le_succ_of_le (ho _ h2 kv hkv))
  fields
  refine ⟨?_, low_some (Nat.zero_le _), low_str, low_str, low_str, low_strings, low_strings,
    low_optOpt h1 ?_, low_map ?_⟩
  · intro j hj
    cases hf : f.op with
    | default => rw [hf] at hj; cases hj
    | custom l =>
      rw [hf] at hj
      cases hj
      cases l with
      | nil => exact Nat.zero_le _
      | cons a l =>
        refine nesting_arr_le.2 fun j hj => ?_
        obtain ⟨o, _, rfl⟩ := List.mem_map.1 hj
        cases o <;> exact Nat.zero_le _
  · intro r j hr' hj
    obtain ⟨es, hes, rfl⟩ := Option.map_eq_some_iff.1 hj
    refine nesting_obj_le.2 fun kv hkv => ?_
    rcases List.mem_cons.1 hkv with rfl | hkv
    · exact Nat.zero_le _
    · exact hr r hr' es hes kv hkv
  · intro l _
    refine nesting_oneOrMany fun j hj => ?_
    obtain ⟨r, _, rfl⟩ := List.mem_map.1 hj
    obtain ⟨m, rfl⟩ : ∃ k, m = k + 1 := ⟨m - 1, by omega⟩
    refine nesting_obj_le.2 (Low.fields ?_)
    fields
    refine ⟨?_, low_str, low_str⟩
    split
    · exact low_some (Nat.zero_le _)
    · exact low_none

theorem low_schemas {o : Option (HMap (DS X))} {r : Option Json}
    (hs : ∀ u, o = some u → ∀ kv ∈ u, (∀ n, kv.2.Nests n → n ≤ h) ∧
      ∀ x, Within x kv.2 → NodeFlat C.dataSchema C.arraySchema C.objectSchema m x)
    (hr : optOpt (serMap env.toEnv (serDS C env.toEnv)) o = some r) : LowOpt (2 * h + m + 1) r :=
  low_optOpt hr fun u _ hu hj => nesting_serMap hj fun kv hkv j hkj =>
    (nesting_schema h kv.2 (hs u hu kv hkv).1 (hs u hu kv hkv).2).2 j hkj

theorem low_interaction {i : Interaction X} {es : Members} (hh : 1 ≤ h) (hm : 1 ≤ m)
    (hf : ∀ f ∈ i.forms, C.form.Flat m f.other ∧ ∀ r, f.response = some r → C.response.Flat m r.other)
    (hs : ∀ u, i.uriVariables = some u → ∀ kv ∈ u, (∀ n, kv.2.Nests n → n ≤ h) ∧
      ∀ x, Within x kv.2 → NodeFlat C.dataSchema C.arraySchema C.objectSchema m x)
    (ho : C.interaction.Flat m i.other) (hw : serInteraction C env.toEnv i = some es) :
    Low (2 * h + m + 1) es := by
  simp only [serInteraction, bind, pure, Option.bind_eq_some_iff] at hw
  obtain ⟨forms, h1, uris, h2, other, h3, e⟩ := hw
  injection e with e
  subst e
  refine Low.append (Low.fields ?_) fun kv hkv => Nat.le_trans (ho _ h3 kv hkv) (by omega)
  fields
  refine ⟨low_strings, low_str, low_lang, low_str, low_lang, low_some ?_, low_schemas hs h2⟩
  have := nesting_mapOpt (n := m + 2) h1 fun f hf' j hj => nesting_form hm (hf f hf').1 (hf f hf').2 hj
  omega

theorem nesting_thing (hh : 1 ≤ h) (hm : 1 ≤ m) (hn : t.NestsWithin C h m) {j : Json}
    (hj : serThing C env t = some j) : j.nesting ≤ 2 * h + m + 4 := by
  simp only [serThing, bind, pure, Option.bind_eq_some_iff] at hj
  obtain ⟨created, h1, modified, h2, properties, h3, actions, h4, events, h5, forms, h6, secs, h7, uris, h8,
    defs, h9, other, h10, e⟩ := hj
  injection e with e
  subst e
  have ds : ∀ {p : Position} {s : DS X}, t.HasSchema p s → (∀ n, s.Nests n → n ≤ h) ∧
      ∀ x, Within x s → NodeFlat C.dataSchema C.arraySchema C.objectSchema m x :=
    fun hs => ⟨hn.schemas _ _ hs, fun x hx => hn.values _ _ x hs hx⟩
  have low1 : ∀ {s : DS X} {p : Position}, t.HasSchema p s → LowOpt (2 * h + m + 1) (serDS C env.toEnv s) :=
    fun hs => (nesting_schema h _ (ds hs).1 (ds hs).2).2.mono (by omega)
  refine nesting_obj_le.2 (Low.append (Low.fields ?_) fun kv hkv => Nat.le_trans (hn.other _ h10 kv hkv) (by omega))
  fields
  refine ⟨low_some (Nat.le_trans hn.context (by omega)), low_str, low_strings, low_some (Nat.zero_le _),
    low_lang, low_str, low_lang, low_map ?_, low_optOpt h1 ?_, low_optOpt h2 ?_, low_str, low_str,
    low_optOpt h3 ?_, low_optOpt h4 ?_, low_optOpt h5 ?_, low_map ?_, low_optOpt h6 ?_,
    low_some (Nat.le_trans (nesting_strings _) (by omega)), low_some ?_, (low_schemas (h := h) (m := m) ?_ h8).mono (by omega),
    low_strings, (low_schemas (h := h) (m := m) ?_ h9).mono (by omega)⟩
  · intro v _
    refine nesting_obj_le.2 ?_
    simp only [List.forall_mem_cons, List.not_mem_nil, false_imp_iff, implies_true, and_true]
    refine ⟨Nat.zero_le _, ?_⟩
    cases v.model <;> exact Nat.zero_le _
  · intro d j _ hj
    obtain ⟨s, _, rfl⟩ := Option.map_eq_some_iff.1 hj
    exact Nat.zero_le _
  · intro d j _ hj
    obtain ⟨s, _, rfl⟩ := Option.map_eq_some_iff.1 hj
    exact Nat.zero_le _
  · intro ps j hps hj
    refine nesting_serMap hj fun kv hkv j hj => ?_
    simp only [serProperty, bind, pure, Option.bind_eq_some_iff] at hj
    obtain ⟨es, k1, s, k2, other, k3, e⟩ := hj
    injection e with e
    subst e
    refine nesting_obj_le.2 (Low.append (Low.append (Low.append ?_ ?_) (Low.fields ?_)) ?_)
    · exact low_interaction hh hm (fun f hf => hn.forms _ _ (.property hps hkv hf))
        (fun u hu kv' hkv' => ds (.propertyUriVariable hps hkv hu hkv')) (hn.interactions _ (.property hps hkv)) k1
    · have hs := ds (.property hps hkv)
      exact ((nesting_schema h _ hs.1 hs.2).1 _ k2).mono (by omega)
    · fields
      exact low_bool
    · exact fun kv' hkv' => Nat.le_trans (hn.properties _ hps kv hkv _ k3 kv' hkv') (by omega)
  · intro ps j hps hj
    refine nesting_serMap hj fun kv hkv j hj => ?_
    simp only [serAction, bind, pure, Option.bind_eq_some_iff] at hj
    obtain ⟨es, k1, input, k2, output, k3, other, k4, e⟩ := hj
    injection e with e
    subst e
    refine nesting_obj_le.2 (Low.append (Low.append ?_ (Low.fields ?_)) ?_)
    · exact low_interaction hh hm (fun f hf => hn.forms _ _ (.action hps hkv hf))
        (fun u hu kv' hkv' => ds (.actionUriVariable hps hkv hu hkv')) (hn.interactions _ (.action hps hkv)) k1
    · fields
      exact ⟨low_optOpt k2 fun s j hs hj => low1 (.input hps hkv hs) j hj,
        low_optOpt k3 fun s j hs hj => low1 (.output hps hkv hs) j hj,
        low_some (Nat.zero_le _), low_some (Nat.zero_le _), low_bool⟩
    · exact fun kv' hkv' => Nat.le_trans (hn.actions _ hps kv hkv _ k4 kv' hkv') (by omega)
  · intro ps j hps hj
    refine nesting_serMap hj fun kv hkv j hj => ?_
    simp only [serEvent, bind, pure, Option.bind_eq_some_iff] at hj
    obtain ⟨es, k1, s1, k2, s2, k3, s3, k4, s4, k5, other, k6, e⟩ := hj
    injection e with e
    subst e
    refine nesting_obj_le.2 (Low.append (Low.append ?_ (Low.fields ?_)) ?_)
    · exact low_interaction hh hm (fun f hf => hn.forms _ _ (.event hps hkv hf))
        (fun u hu kv' hkv' => ds (.eventUriVariable hps hkv hu hkv')) (hn.interactions _ (.event hps hkv)) k1
    · fields
      exact ⟨low_optOpt k2 fun s j hs hj => low1 (.subscription hps hkv hs) j hj,
        low_optOpt k3 fun s j hs hj => low1 (.data hps hkv hs) j hj,
        low_optOpt k4 fun s j hs hj => low1 (.dataResponse hps hkv hs) j hj,
        low_optOpt k5 fun s j hs hj => low1 (.cancellation hps hkv hs) j hj⟩
    · exact fun kv' hkv' => Nat.le_trans (hn.events _ hps kv hkv _ k6 kv' hkv') (by omega)
  · intro l _
    refine nesting_arr_le.2 fun j hj => ?_
    obtain ⟨l, _, rfl⟩ := List.mem_map.1 hj
    refine nesting_obj_le.2 (Low.fields ?_)
    fields
    exact ⟨low_some (Nat.zero_le _), low_str, low_str, low_str, low_str, low_strings⟩
  · intro fs j hfs hj
    obtain ⟨js, hjs, rfl⟩ := Option.map_eq_some_iff.1 hj
    refine nesting_mapOpt hjs fun f hf j hj => ?_
    have := nesting_form hm (hn.forms _ _ (.thing hfs hf)).1 (hn.forms _ _ (.thing hfs hf)).2 hj
    omega
  · refine nesting_serMap h7 fun kv hkv j hj => ?_
    have := nesting_security hm (fun scheme es hs => hn.security kv.1 kv.2 scheme es hkv hs) hj
    omega
  · exact fun u hu kv hkv => ds (.uriVariable hu hkv)
  · exact fun u hu kv hkv => ds (.schemaDefinition hu hkv)

/-- What does not count does not make a text deeper. -/
theorem nesting_onlyMembers (ks : List String) (j : Json) : (j.onlyMembers ks).nesting ≤ j.nesting := by
  cases j with
  | obj es => exact nesting_obj_sub fun kv hkv => (List.mem_filter.1 hkv).1
  | _ => exact Nat.le_refl _

theorem nesting_counted (j : Json) : j.counted.nesting ≤ j.nesting := by
  cases j with
  | obj es =>
    refine nesting_obj_le.2 fun kv' hkv' => ?_
    obtain ⟨kv, hkv, rfl⟩ := List.mem_map.1 hkv'
    have h0 := nestingMembers_le.1 (Nat.le_refl _) kv hkv
    unfold countedMember
    split
    · exact Nat.le_trans (nesting_onlyMembers _ _) h0
    split
    · refine Nat.le_trans ?_ h0
      cases kv.2 with
      | arr l =>
        refine nesting_arr_le.2 fun j hj => ?_
        obtain ⟨i, hi, rfl⟩ := List.mem_map.1 hj
        exact Nat.le_trans (nesting_onlyMembers _ _) (nestingList_le.1 (Nat.le_refl _) i hi)
      | _ => exact Nat.le_refl _
    · exact h0
  | _ => exact Nat.le_refl _

theorem counted_mem {es : Members} {k : String} {v : Json} (hkv : (k, v) ∈ es) (h1 : k ≠ "version")
    (h2 : k ≠ "links") : v.nesting + 1 ≤ (Json.obj es).counted.nesting := by
  refine nesting_mem_obj (kv := (k, v)) (List.mem_map.2 ⟨_, hkv, ?_⟩)
  simp [countedMember, h1, h2]

theorem member_mem {l : List (String × Option Json)} {k : String} {v : Json} (h : (k, some v) ∈ l) :
    (k, v) ∈ members l := List.mem_filterMap.2 ⟨_, h, rfl⟩

/-- The text of a Thing nests deeper than its schemas do. -/
theorem nests_thing {p : Position} {s : DS X} (hs : t.HasSchema p s) {n : Nat} (hn : s.Nests n) {j : Json}
    (hj : serThing C env t = some j) : n + 2 ≤ j.counted.nesting := by
  simp only [serThing, bind, pure, Option.bind_eq_some_iff] at hj
  obtain ⟨created, h1, modified, h2, properties, h3, actions, h4, events, h5, forms, h6, secs, h7, uris, h8,
    defs, h9, other, h10, e⟩ := hj
  injection e with e
  -- a map of the Thing
  have top : ∀ {k : String} {v : Json} {l : List (String × Option Json)}, (k, some v) ∈ l → k ≠ "version" →
      k ≠ "links" → n + 1 ≤ v.nesting → n + 2 ≤ (Json.obj (members l ++ other)).counted.nesting :=
    fun hm k1 k2 hv => Nat.le_trans (Nat.succ_le_succ hv)
      (counted_mem (List.mem_append_left _ (member_mem hm)) k1 k2)
  have inMap : ∀ {α : Type} {f : α → Option Json} {u : HMap α} {v : Json} {kv : String × α},
      serMap env.toEnv f u = some v → kv ∈ u → (∀ i, f kv.2 = some i → n ≤ i.nesting) → n + 1 ≤ v.nesting := by
    intro α f u v kv hw hkv hi
    obtain ⟨ms, i, rfl, hm, hf⟩ := mem_serMap hw hkv
    exact Nat.le_trans (Nat.succ_le_succ (hi i hf)) (nesting_mem_obj hm)
  have inObj : ∀ {k : String} {o : Option (DS X)} {r : Option Json} {l : List (String × Option Json)}
      {a b : Members}, optOpt (serDS C env.toEnv) o = some r → o = some s → (k, r) ∈ l →
      n ≤ (Json.obj (a ++ members l ++ b)).nesting := by
    intro k o r l a b hr ho hm
    subst ho
    obtain ⟨i, hi, rfl⟩ := Option.map_eq_some_iff.1 hr
    have : i.nesting + 1 ≤ _ := nesting_mem_obj (kv := (k, i)) (l := a ++ members l ++ b)
      (List.mem_append_left _ (List.mem_append_right _ (member_mem hm)))
    have := nests_schema hn i hi
    omega
  have inUris : ∀ {i : Interaction X} {u : HMap (DS X)} {k : String} {es : Members},
      serInteraction C env.toEnv i = some es → i.uriVariables = some u → (k, s) ∈ u →
      ∃ v, ("uriVariables", v) ∈ es ∧ n ≤ v.nesting := by
    intro i u k es hw hu hks
    simp only [serInteraction, bind, pure, Option.bind_eq_some_iff] at hw
    obtain ⟨forms, k1, uris, k2, other, k3, e⟩ := hw
    injection e with e
    subst e
    rw [hu] at k2
    obtain ⟨v, hv, rfl⟩ := Option.map_eq_some_iff.1 k2
    refine ⟨v, List.mem_append_left _ (member_mem (by simp)), ?_⟩
    have := inMap hv hks fun i hi => nests_schema hn i hi
    omega
  have uriObj : ∀ {v : Json} {es es' : Members}, ("uriVariables", v) ∈ es → n ≤ v.nesting →
      (∀ kv ∈ es, kv ∈ es') → n ≤ (Json.obj es').nesting := fun hv hle hsub =>
    Nat.le_trans (Nat.le_succ_of_le hle) (nesting_mem_obj (hsub _ hv))
  have event : ∀ {m : HMap (EventAffordance X)} {k : String} {a : EventAffordance X}, t.events = some m →
      (k, a) ∈ m → (∀ i, serEvent C env.toEnv a = some i → n ≤ i.nesting) → n + 2 ≤ j.counted.nesting := by
    intro m k a hm hkv hi
    rw [hm] at h5
    obtain ⟨v, hv, rfl⟩ := Option.map_eq_some_iff.1 h5
    rw [← e]
    exact top (k := "events") (v := v) (by simp) (by decide) (by decide) (inMap hv hkv hi)
  have action : ∀ {m : HMap (ActionAffordance X)} {k : String} {a : ActionAffordance X}, t.actions = some m →
      (k, a) ∈ m → (∀ i, serAction C env.toEnv a = some i → n ≤ i.nesting) → n + 2 ≤ j.counted.nesting := by
    intro m k a hm hkv hi
    rw [hm] at h4
    obtain ⟨v, hv, rfl⟩ := Option.map_eq_some_iff.1 h4
    rw [← e]
    exact top (k := "actions") (v := v) (by simp) (by decide) (by decide) (inMap hv hkv hi)
  have property : ∀ {m : HMap (PropertyAffordance X)} {k : String} {a : PropertyAffordance X},
      t.properties = some m → (k, a) ∈ m → (∀ i, serProperty C env.toEnv a = some i → n ≤ i.nesting) →
      n + 2 ≤ j.counted.nesting := by
    intro m k a hm hkv hi
    rw [hm] at h3
    obtain ⟨v, hv, rfl⟩ := Option.map_eq_some_iff.1 h3
    rw [← e]
    exact top (k := "properties") (v := v) (by simp) (by decide) (by decide) (inMap hv hkv hi)
  cases hs with
  | property hm hp =>
    refine property hm hp fun i hi => ?_
    simp only [serProperty, bind, pure, Option.bind_eq_some_iff] at hi
    obtain ⟨es, k1, ss, k2, other, k3, e⟩ := hi
    injection e with e
    subst e
    have := nests_schema (C := C.dataSchema) (CA := C.arraySchema) (CO := C.objectSchema) (env := env) hn (.obj ss)
      (by rw [serSchema_eq, k2]; rfl)
    refine Nat.le_trans this (nesting_obj_sub fun kv hkv => ?_)
    simp [hkv]
  | input hm ha hi =>
    refine action hm ha fun i hi' => ?_
    simp only [serAction, bind, pure, Option.bind_eq_some_iff] at hi'
    obtain ⟨es, k1, input, k2, output, k3, other, k4, e⟩ := hi'
    injection e with e
    subst e
    exact inObj (k := "input") k2 hi (by simp)
  | output hm ha hi =>
    refine action hm ha fun i hi' => ?_
    simp only [serAction, bind, pure, Option.bind_eq_some_iff] at hi'
    obtain ⟨es, k1, input, k2, output, k3, other, k4, e⟩ := hi'
    injection e with e
    subst e
    exact inObj (k := "output") k3 hi (by simp)
  | subscription hm he hi =>
    refine event hm he fun i hi' => ?_
    simp only [serEvent, bind, pure, Option.bind_eq_some_iff] at hi'
    obtain ⟨es, k1, s1, k2, s2, k3, s3, k4, s4, k5, other, k6, e⟩ := hi'
    injection e with e
    subst e
    exact inObj (k := "subscription") k2 hi (by simp)
  | data hm he hi =>
    refine event hm he fun i hi' => ?_
    simp only [serEvent, bind, pure, Option.bind_eq_some_iff] at hi'
    obtain ⟨es, k1, s1, k2, s2, k3, s3, k4, s4, k5, other, k6, e⟩ := hi'
    injection e with e
    subst e
    exact inObj (k := "data") k3 hi (by simp)
  | dataResponse hm he hi =>
    refine event hm he fun i hi' => ?_
    simp only [serEvent, bind, pure, Option.bind_eq_some_iff] at hi'
    obtain ⟨es, k1, s1, k2, s2, k3, s3, k4, s4, k5, other, k6, e⟩ := hi'
    injection e with e
    subst e
    exact inObj (k := "data_response") k4 hi (by simp)
  | cancellation hm he hi =>
    refine event hm he fun i hi' => ?_
    simp only [serEvent, bind, pure, Option.bind_eq_some_iff] at hi'
    obtain ⟨es, k1, s1, k2, s2, k3, s3, k4, s4, k5, other, k6, e⟩ := hi'
    injection e with e
    subst e
    exact inObj (k := "cancellation") k5 hi (by simp)
  | uriVariable hm hk =>
    rw [hm] at h8
    obtain ⟨v, hv, rfl⟩ := Option.map_eq_some_iff.1 h8
    rw [← e]
    exact top (k := "uriVariables") (v := v) (by simp) (by decide) (by decide)
      (inMap hv hk fun i hi => nests_schema hn i hi)
  | schemaDefinition hm hk =>
    rw [hm] at h9
    obtain ⟨v, hv, rfl⟩ := Option.map_eq_some_iff.1 h9
    rw [← e]
    exact top (k := "schemaDefinitions") (v := v) (by simp) (by decide) (by decide)
      (inMap hv hk fun i hi => nests_schema hn i hi)
  | propertyUriVariable hm hp hu hk =>
    refine property hm hp fun i hi => ?_
    simp only [serProperty, bind, pure, Option.bind_eq_some_iff] at hi
    obtain ⟨es, k1, ss, k2, other, k3, e⟩ := hi
    injection e with e
    subst e
    obtain ⟨v, hv, hle⟩ := inUris k1 hu hk
    exact uriObj hv hle fun kv hkv => by simp [hkv]
  | actionUriVariable hm hp hu hk =>
    refine action hm hp fun i hi => ?_
    simp only [serAction, bind, pure, Option.bind_eq_some_iff] at hi
    obtain ⟨es, k1, input, k2, output, k3, other, k4, e⟩ := hi
    injection e with e
    subst e
    obtain ⟨v, hv, hle⟩ := inUris k1 hu hk
    exact uriObj hv hle fun kv hkv => by simp [hkv]
  | eventUriVariable hm hp hu hk =>
    refine event hm hp fun i hi => ?_
    simp only [serEvent, bind, pure, Option.bind_eq_some_iff] at hi
    obtain ⟨es, k1, s1, k2, s2, k3, s3, k4, s4, k5, other, k6, e⟩ := hi
    injection e with e
    subst e
    obtain ⟨v, hv, hle⟩ := inUris k1 hu hk
    exact uriObj hv hle fun kv hkv => by simp [hkv]

end
end Wot
