import Verif.Lemmas.Inversion
import Verif.Lemmas.Round
import Verif.Lemmas.CodecCustom
import Verif.Lemmas.Stored
import Verif.Lemmas.Writable
import Verif.Spec.Reread
import Verif.Spec.Protocol
/-
What is in a Thing that has been read from a document.
-/
namespace Wot

/-! ### Parts of documents -/

/-- A property of documents that passes on to their parts. -/
structure Hereditary (P : Json → Prop) : Prop where
  element : ∀ {l j}, P (.arr l) → j ∈ l → P j
  member : ∀ {m k j}, P (.obj m) → (k, j) ∈ m → P j
  rest : ∀ {m} K, P (.obj m) → P (.obj (Wot.rest K m))

theorem Hereditary.noDup : Hereditary Json.NoDup where
  element h hj := (noDupList_iff _).1 h _ hj
  member h hj := (noDupMembers_iff _).1 h.2 _ hj
  rest K h := ⟨rest_nodup h.1 K, (noDupMembers_iff _).2 fun kv hkv =>
    (noDupMembers_iff _).1 h.2 kv (List.mem_filter.1 hkv).1⟩

theorem Hereditary.numbers : Hereditary Json.NumbersInRange where
  element h hj n hn := h n (.element hj hn)
  member h hj n hn := h n (.member hj hn)
  rest K h n hn := by
    cases hn with
    | member hj hn => exact h n (.member (List.mem_filter.1 hj).1 hn)

theorem Hereditary.and {P Q : Json → Prop} (hP : Hereditary P) (hQ : Hereditary Q) :
    Hereditary fun d => P d ∧ Q d where
  element h hj := ⟨hP.element h.1 hj, hQ.element h.2 hj⟩
  member h hj := ⟨hP.member h.1 hj, hQ.member h.2 hj⟩
  rest K h := ⟨hP.rest K h.1, hQ.rest K h.2⟩

section Parts
variable {α : Type} {P : Json → Prop} {k : String} {es : Members} {de : Json → Option α} {a : α}

theorem required_from (hP : Hereditary P) (he : P (.obj es)) (h : required k de es = some a) :
    ∃ v, P v ∧ de v = some a := by
  unfold required at h
  split at h
  · rename_i v hv
    exact ⟨v, hP.member he (mem_occ.1 (hv ▸ List.mem_singleton.2 rfl)), h⟩
  · cases h

theorem optional_from (hP : Hereditary P) (he : P (.obj es)) (h : optional k de es = some (some a)) :
    ∃ v, P v ∧ v ≠ .null ∧ de v = some a := by
  unfold optional defaulted at h
  split at h
  · cases h
  · rename_i v hv
    refine ⟨v, hP.member he (mem_occ.1 (hv ▸ List.mem_singleton.2 rfl)), ?_⟩
    unfold deOption at h
    split at h
    · cases h
    · rename_i hn
      obtain ⟨b, hb, e⟩ := Option.map_eq_some_iff.1 h
      cases e
      exact ⟨hn, hb⟩
  · cases h

theorem mapOpt_mem {α β : Type} {f : α → Option β} {l : List α} {m : List β} (h : mapOpt f l = some m)
    {b : β} (hb : b ∈ m) : ∃ a ∈ l, f a = some b := by
  have := mapOpt_eq_some.1 h
  induction this with
  | nil => cases hb
  | cons h1 h2 ih =>
    rcases List.mem_cons.1 hb with rfl | hb
    · exact ⟨_, List.mem_cons_self, h1⟩
    · obtain ⟨a, ha, e⟩ := ih (mapOpt_eq_some.2 h2) hb
      exact ⟨a, List.mem_cons_of_mem _ ha, e⟩

theorem vec_from (hP : Hereditary P) {d : Json} (hd : P d) {l : List α} (h : deVec de d = some l)
    (ha : a ∈ l) : ∃ v, P v ∧ de v = some a := by
  cases d with
  | arr js =>
    obtain ⟨v, hv, e⟩ := mapOpt_mem h ha
    exact ⟨v, hP.element hd hv, e⟩
  | _ => cases h

theorem oneOrMany_from (hP : Hereditary P) {d : Json} (hd : P d) {l : List α}
    (h : deOneOrMany de d = some l) (ha : a ∈ l) : ∃ v, P v ∧ de v = some a := by
  unfold deOneOrMany at h
  split at h
  · rename_i b hb
    cases h
    cases List.mem_singleton.1 ha
    exact ⟨d, hd, hb⟩
  · exact vec_from hP hd h ha

theorem mem_of_collect {V : Type} {l : List (String × V)} {k : String} {v : V}
    (h : (k, v) ∈ HMap.collect l) : (k, v) ∈ l := by
  have h2 := lastOf_mem ((mem_collect_iff l k v).1 h)
  simp only [History.named, List.mem_filterMap] at h2
  obtain ⟨⟨k', v'⟩, hx, h3⟩ := h2
  split at h3
  · rename_i e
    cases e; cases h3; exact hx
  · cases h3

theorem map_sorted {d : Json} {m : HMap α} (h : deMap de d = some m) : m.Sorted := by
  cases d with
  | obj es =>
    obtain ⟨l, _, rfl⟩ := Option.map_eq_some_iff.1 h
    exact HMap.collect_sorted l
  | _ => cases h

theorem map_from (hP : Hereditary P) {d : Json} (hd : P d) {m : HMap α} (h : deMap de d = some m)
    (ha : (k, a) ∈ m) : ∃ v, P v ∧ de v = some a := by
  cases d with
  | obj es =>
    obtain ⟨l, hl, rfl⟩ := Option.map_eq_some_iff.1 h
    obtain ⟨⟨k', v⟩, hx, e⟩ := mapOpt_mem hl (mem_of_collect ha)
    obtain ⟨b, hb, e⟩ := Option.map_eq_some_iff.1 e
    cases e
    exact ⟨v, hP.member hd hx, hb⟩
  | _ => cases h

theorem items_from (hP : Hereditary P) {d : Json} (hd : P d) {i : ElemOrVec α} (h : deItems de d = some i)
    (ha : a ∈ i.toList) : ∃ v, P v ∧ de v = some a := by
  unfold deItems at h
  split at h
  · rename_i b hb
    cases h
    cases List.mem_singleton.1 ha
    exact ⟨d, hd, hb⟩
  · obtain ⟨l, hl, e⟩ := Option.map_eq_some_iff.1 h
    cases e
    exact vec_from hP hd hl ha

/-- A map under an optional member. -/
theorem optMap_from (hP : Hereditary P) (he : P (.obj es)) {m : HMap α}
    (h : optional k (deMap de) es = some (some m)) :
    m.Sorted ∧ ∀ {k' a}, (k', a) ∈ m → ∃ v, P v ∧ de v = some a :=
  let ⟨_, hv, _, hm⟩ := optional_from hP he h
  ⟨map_sorted hm, fun ha => map_from hP hv hm ha⟩

theorem optVec_from (hP : Hereditary P) (he : P (.obj es)) {l : List α}
    (h : optional k (deVec de) es = some (some l)) (ha : a ∈ l) : ∃ v, P v ∧ de v = some a :=
  let ⟨_, hv, _, hm⟩ := optional_from hP he h
  vec_from hP hv hm ha

/-- Translations that have been read are read again. -/
theorem lang_from {env : SerdeEnv} (hs : env.Stable) {o : Option MultiLanguage}
    (h : optional k (deLang env) es = some o) : LangKept env o := by
  rintro m rfl
  obtain ⟨v, -, -, h⟩ := optional_from (P := fun _ => True)
    ⟨fun _ _ => trivial, fun _ _ => trivial, fun _ _ => trivial⟩ trivial h
  cases v with
  | obj l =>
    obtain ⟨l', hl, rfl⟩ := Option.map_eq_some_iff.1 h
    refine ⟨HMap.collect_sorted _, fun t ht => ?_⟩
    obtain ⟨⟨t', s⟩, hts, rfl⟩ := List.mem_map.1 ht
    obtain ⟨x, _, e⟩ := mapOpt_mem hl (mem_of_collect hts)
    obtain ⟨y, hy, e⟩ := Option.bind_eq_some_iff.1 e
    obtain ⟨z, _, e⟩ := Option.map_eq_some_iff.1 e
    cases e
    exact hs.tags _ _ hy
  | _ => cases h

end Parts

/-! ### Parts of Things -/

section Schema
variable {DSx AS OS : Type} {C : ExtCodec DSx} {CA : ExtCodec AS} {CO : ExtCodec OS} {env : SerdeEnv}
  {P : Json → Prop}

/-- The schema has been read from a document of this kind. -/
def SchemaFrom (C : ExtCodec DSx) (CA : ExtCodec AS) (CO : ExtCodec OS) (env : SerdeEnv) (P : Json → Prop)
    (x : DataSchema DSx AS OS) : Prop :=
  ∃ es, P (.obj es) ∧ SchemaRead C CA CO env (deSchema C CA CO env) es x

theorem schema_from {d : Json} (hd : P d) {x : DataSchema DSx AS OS} (h : deSchema C CA CO env d = some x) :
    SchemaFrom C CA CO env P x := by
  cases d with
  | obj es => exact ⟨es, hd, deSchemaMembers_iff.1 (deSchema_obj es ▸ h)⟩
  | _ => rw [deSchema_other (by nofun)] at h; cases h

theorem array_from {sub : Json → Option (DataSchema DSx AS OS)} {es : Members}
    {a : ArrayF AS (DataSchema DSx AS OS)} (hP : Hereditary P) (he : P (.obj es))
    (h : deSchemaSubtype CA CO sub es = some (.array a)) :
    ∃ es', P (.obj es') ∧ ArrayRead CA sub es' a := by
  simp only [deSchemaSubtype, bind, pure] at h
  obtain ⟨tag, -, h⟩ := Option.bind_eq_some_iff.1 h
  cases tag with
  | array =>
    obtain ⟨x, hx, e⟩ := Option.map_eq_some_iff.1 h
    cases e
    exact ⟨_, hP.rest _ he, deArray_iff.1 hx⟩
  | boolean => cases h
  | null => cases h
  | _ => obtain ⟨x, hx, e⟩ := Option.map_eq_some_iff.1 h; cases e

theorem object_from {sub : Json → Option (DataSchema DSx AS OS)} {es : Members}
    {a : ObjectF OS (DataSchema DSx AS OS)} (hP : Hereditary P) (he : P (.obj es))
    (h : deSchemaSubtype CA CO sub es = some (.object a)) :
    ∃ es', P (.obj es') ∧ ObjectRead CO sub es' a := by
  simp only [deSchemaSubtype, bind, pure] at h
  obtain ⟨tag, -, h⟩ := Option.bind_eq_some_iff.1 h
  cases tag with
  | object =>
    obtain ⟨x, hx, e⟩ := Option.map_eq_some_iff.1 h
    cases e
    exact ⟨_, hP.rest _ he, deObject_iff.1 hx⟩
  | boolean => cases h
  | null => cases h
  | _ => obtain ⟨x, hx, e⟩ := Option.map_eq_some_iff.1 h; cases e

theorem number_from {sub : Json → Option (DataSchema DSx AS OS)} {es : Members}
    {a : NumberSchema} (hP : Hereditary P) (he : P (.obj es))
    (h : deSchemaSubtype CA CO sub es = some (.number a)) :
    ∃ es', P (.obj es') ∧ NumberRead es' a := by
  simp only [deSchemaSubtype, bind, pure] at h
  obtain ⟨tag, -, h⟩ := Option.bind_eq_some_iff.1 h
  cases tag with
  | number =>
    obtain ⟨x, hx, e⟩ := Option.map_eq_some_iff.1 h
    cases e
    exact ⟨_, hP.rest _ he, deNumber_iff.1 hx⟩
  | boolean => cases h
  | null => cases h
  | _ => obtain ⟨x, hx, e⟩ := Option.map_eq_some_iff.1 h; cases e

/-- So have all schemas in it. -/
theorem within_from (hP : Hereditary P) {x s : DataSchema DSx AS OS} (hx : Within x s)
    (hs : SchemaFrom C CA CO env P s) : SchemaFrom C CA CO env P x := by
  induction hx with
  | self => exact hs
  | oneOf h1 h2 _ ih =>
    obtain ⟨es, he, hr⟩ := hs
    have := hr.oneOf
    rw [h1] at this
    obtain ⟨v, hv, hc⟩ := optVec_from hP he this h2
    exact ih (schema_from hv hc)
  | item h1 h2 _ ih =>
    obtain ⟨es, he, hr⟩ := hs
    obtain ⟨es', he', ha⟩ := array_from hP (hP.rest _ he) (hr.subtype.trans h1)
    have := ha.items
    rw [h2] at this
    obtain ⟨v, hv, -, hi⟩ := optional_from hP he' this
    obtain ⟨w, hw, hc⟩ := items_from hP hv hi (List.mem_singleton.2 rfl)
    exact ih (schema_from hw hc)
  | items h1 h2 h3 _ ih =>
    obtain ⟨es, he, hr⟩ := hs
    obtain ⟨es', he', ha⟩ := array_from hP (hP.rest _ he) (hr.subtype.trans h1)
    have := ha.items
    rw [h2] at this
    obtain ⟨v, hv, -, hi⟩ := optional_from hP he' this
    obtain ⟨w, hw, hc⟩ := items_from hP hv hi h3
    exact ih (schema_from hw hc)
  | property h1 h2 h3 _ ih =>
    obtain ⟨es, he, hr⟩ := hs
    obtain ⟨es', he', ho⟩ := object_from hP (hP.rest _ he) (hr.subtype.trans h1)
    have := ho.properties
    rw [h2] at this
    obtain ⟨w, hw, hc⟩ := (optMap_from hP he' this).2 h3
    exact ih (schema_from hw hc)

theorem value_from {k : String} {es : Members} {v : Json} (h : optional k deValue es = some (some v)) :
    v.IsValue ∧ v ≠ .null := by
  obtain ⟨w, -, hn, h⟩ := optional_from (P := fun _ => True)
    ⟨fun _ _ => trivial, fun _ _ => trivial, fun _ _ => trivial⟩ trivial h
  cases h
  refine ⟨norm_norm w, ?_⟩
  cases w <;> first | exact absurd rfl hn | (simp [Json.norm])

theorem float_from {d : Json} (hd : d.NumbersInRange) {f : F64}
    (h : deF64 d = some f) : f.isFinite = true := by
  cases d with
  | num n =>
    have hn := hd n .here
    cases n with
    | float g => cases h; exact hn
    | pos n =>
      cases h
      exact ofInt_finite (z := n) (by omega) (by simp only [JNum.InRange] at hn; omega)
    | neg n =>
      cases h
      exact ofInt_finite (by simp only [JNum.InRange] at hn; omega) (by omega)
  | _ => cases h

theorem flatEnum_from {A B : Type} {table : List (String × (A → B))} {de : Json → Option A} {es : Members}
    {b : B} (hP : Hereditary P) (he : P (.obj es)) (h : deFlatEnum table de es = some b) :
    ∃ v a e, P v ∧ de v = some a ∧ e ∈ table ∧ b = e.2 a := by
  obtain ⟨kv, hkv, h⟩ := Option.bind_eq_some_iff.1 h
  obtain ⟨f, hf, h⟩ := Option.bind_eq_some_iff.1 h
  obtain ⟨a, ha, rfl⟩ := Option.map_eq_some_iff.1 h
  obtain ⟨e, hfe, rfl⟩ := Option.map_eq_some_iff.1 hf
  exact ⟨kv.2, a, e, hP.member he (List.mem_of_find?_eq_some hkv), ha, List.mem_of_find?_eq_some hfe, rfl⟩

/-- Nothing of a schema that has been read is lost. -/
theorem SchemaFrom.lossless {x : DataSchema DSx AS OS}
    (h : SchemaFrom C CA CO env Json.NumbersInRange x) : SchemaLossless x := by
  obtain ⟨es, he, hr⟩ := h
  have hn : ∀ n, x.subtype = some (.number n) → ∃ es', (Json.obj es').NumbersInRange ∧ NumberRead es' n :=
    fun n hx => number_from .numbers (Hereditary.numbers.rest _ he) (hr.subtype.trans hx)
  refine ⟨fun e => ?_, fun e => ?_, fun n b hx hb => ?_, fun n b hx hb => ?_, fun n f hx hf => ?_⟩
  · exact (value_from (e ▸ hr.constant)).2 rfl
  · exact (value_from (e ▸ hr.default)).2 rfl
  · obtain ⟨es', he', hr'⟩ := hn n hx
    obtain ⟨v, a, e, hv, ha, hmem, rfl⟩ := flatEnum_from .numbers (Hereditary.numbers.rest _ he')
      (hr'.maximum.trans hb)
    have := float_from hv ha
    simp only [List.mem_cons, List.not_mem_nil, or_false] at hmem
    rcases hmem with rfl | rfl <;> exact this
  · obtain ⟨es', he', hr'⟩ := hn n hx
    obtain ⟨v, a, e, hv, ha, hmem, rfl⟩ := flatEnum_from .numbers (Hereditary.numbers.rest _ he')
      (hr'.minimum.trans hb)
    have := float_from hv ha
    simp only [List.mem_cons, List.not_mem_nil, or_false] at hmem
    rcases hmem with rfl | rfl <;> exact this
  · obtain ⟨es', he', hr'⟩ := hn n hx
    have := hr'.multipleOf
    rw [hf] at this
    obtain ⟨v, hv, -, hfl⟩ := optional_from .numbers he' this
    exact float_from hv hfl

/-- The JSON values in a schema that has been read are values. -/
theorem SchemaFrom.values {x : DataSchema DSx AS OS} (h : SchemaFrom C CA CO env P x) :
    (∀ v, x.head.constant = some v → v.IsValue) ∧ (∀ v, x.head.default = some v → v.IsValue) ∧
    (∀ l, x.head.enumeration = some l → ∀ v ∈ l, v.IsValue) := by
  obtain ⟨es, he, hr⟩ := h
  refine ⟨fun v e => (value_from (e ▸ hr.constant)).1, fun v e => (value_from (e ▸ hr.default)).1,
    fun l e v hv => ?_⟩
  obtain ⟨w, -, h⟩ := optVec_from (P := fun _ => True)
    ⟨fun _ _ => trivial, fun _ _ => trivial, fun _ _ => trivial⟩ trivial (e ▸ hr.enumeration) hv
  cases h
  exact norm_norm w

end Schema

/-! ### Things -/

variable {X : ExtTypes}

/-- Everything in the Thing has been read from a document of this kind. -/
structure ThingFrom (C : ExtCodecs X) (env : SerdeEnv) (P : Json → Prop) (t : Thing X) : Prop where
  schemas : ∀ p s, t.HasSchema p s → SchemaFrom C.dataSchema C.arraySchema C.objectSchema env P s
  forms : ∀ ctx f, t.HasForm ctx f → ∃ es, P (.obj es) ∧ FormRead C es f
  interactions : ∀ i, t.HasInteraction i → ∃ es, P (.obj es) ∧ InteractionRead C env es i
  properties : ∀ m, t.properties = some m → m.Sorted ∧ ∀ kv ∈ m, ∃ es, P (.obj es) ∧ PropertyRead C env es kv.2
  actions : ∀ m, t.actions = some m → m.Sorted ∧ ∀ kv ∈ m, ∃ es, P (.obj es) ∧ ActionRead C env es kv.2
  events : ∀ m, t.events = some m → m.Sorted ∧ ∀ kv ∈ m, ∃ es, P (.obj es) ∧ EventRead C env es kv.2
  links : ∀ l, t.links = some l → ∀ k ∈ l, LinkKept env k
  sorted : t.securityDefinitions.Sorted
  security : ∀ kv ∈ t.securityDefinitions, ∃ es, P (.obj es) ∧ SecurityRead env es kv.2
  uriVariables : ∀ m, t.uriVariables = some m → m.Sorted
  schemaDefinitions : ∀ m, t.schemaDefinitions = some m → m.Sorted
  self : ∃ es, P (.obj es) ∧ ThingRead C env es t

variable {C : ExtCodecs X} {env : SerdeEnv} {P : Json → Prop}

theorem form_from {d : Json} (hd : P d) {f : Form X} (h : deForm C d = some f) :
    ∃ es, P (.obj es) ∧ FormRead C es f := by
  cases d with
  | obj es => exact ⟨es, hd, deForm_iff.1 h⟩
  | _ => cases h

theorem property_from {d : Json} (hd : P d) {p : PropertyAffordance X} (h : deProperty C env d = some p) :
    ∃ es, P (.obj es) ∧ PropertyRead C env es p := by
  cases d with
  | obj es => exact ⟨es, hd, deProperty_iff.1 h⟩
  | _ => cases h

theorem action_from {d : Json} (hd : P d) {p : ActionAffordance X} (h : deAction C env d = some p) :
    ∃ es, P (.obj es) ∧ ActionRead C env es p := by
  cases d with
  | obj es => exact ⟨es, hd, deAction_iff.1 h⟩
  | _ => cases h

theorem event_from {d : Json} (hd : P d) {p : EventAffordance X} (h : deEvent C env d = some p) :
    ∃ es, P (.obj es) ∧ EventRead C env es p := by
  cases d with
  | obj es => exact ⟨es, hd, deEvent_iff.1 h⟩
  | _ => cases h

theorem security_from {d : Json} (hd : P d) {s : SecurityScheme} (h : deSecurity env d = some s) :
    ∃ es, P (.obj es) ∧ SecurityRead env es s := by
  cases d with
  | obj es => exact ⟨es, hd, deSecurity_iff.1 h⟩
  | _ => cases h

theorem tags_from (hs : env.Stable) {d : Json} {l : List String}
    (h : deOneOrMany (deTagText env) d = some l) : ∀ t ∈ l, env.langRead t = some t := by
  intro t ht
  obtain ⟨v, -, h⟩ := oneOrMany_from (P := fun _ => True)
    ⟨fun _ _ => trivial, fun _ _ => trivial, fun _ _ => trivial⟩ trivial h ht
  cases v with
  | str s => exact hs.tags s t h
  | _ => cases h

theorem link_from (hs : env.Stable) {d : Json} {l : Link} (h : deLink env d = some l) : LinkKept env l := by
  intro tags ht
  cases d with
  | obj es =>
    have := (deLink_iff.1 h).hreflang
    rw [ht] at this
    obtain ⟨v, -, -, hv⟩ := optional_from (P := fun _ => True)
      ⟨fun _ _ => trivial, fun _ _ => trivial, fun _ _ => trivial⟩ trivial this
    exact tags_from hs hv
  | arr js =>
    match js with
    | a :: b :: c :: d :: e :: last =>
      simp only [deLink, bind, pure] at h
      obtain ⟨_, -, h⟩ := Option.bind_eq_some_iff.1 h
      obtain ⟨_, -, h⟩ := Option.bind_eq_some_iff.1 h
      obtain ⟨_, -, h⟩ := Option.bind_eq_some_iff.1 h
      obtain ⟨_, -, h⟩ := Option.bind_eq_some_iff.1 h
      obtain ⟨_, -, h⟩ := Option.bind_eq_some_iff.1 h
      match last with
      | [] => cases h; cases ht
      | [v] =>
        obtain ⟨_, h1, h⟩ := Option.bind_eq_some_iff.1 h
        cases h
        simp only at ht
        subst ht
        unfold deOption at h1
        split at h1
        · cases h1
        · obtain ⟨b, hb, e⟩ := Option.map_eq_some_iff.1 h1
          cases e
          exact tags_from hs hb
      | _ :: _ :: _ => cases h
    | [] => cases h
    | [_] => cases h
    | [_, _] => cases h
    | [_, _, _] => cases h
    | [_, _, _, _] => cases h
  | _ => cases h

theorem interaction_parts (hP : Hereditary P) {es : Members} (he : P (.obj es)) {i : Interaction X}
    (h : InteractionRead C env es i) : (∀ f ∈ i.forms, ∃ es, P (.obj es) ∧ FormRead C es f) ∧
    ∀ m, i.uriVariables = some m → m.Sorted ∧
      ∀ kv ∈ m, SchemaFrom C.dataSchema C.arraySchema C.objectSchema env P kv.2 := by
  refine ⟨fun f hf => ?_, fun m hm => ?_⟩
  · obtain ⟨v, hv, h⟩ := required_from hP he h.forms
    obtain ⟨w, hw, h⟩ := vec_from hP hv h hf
    exact form_from hw h
  · obtain ⟨h1, h2⟩ := optMap_from hP he (hm ▸ h.uriVariables)
    exact ⟨h1, fun kv hkv => let ⟨v, hv, h⟩ := h2 (k' := kv.1) hkv; schema_from hv h⟩

/-- A Thing that has been read. -/
theorem thing_from (hs : env.Stable) (hP : Hereditary P) {d : Json} (hd : P d) {t : Thing X}
    (h : deThing C env d = some t) : ThingFrom C env P t := by
  cases d with
  | obj es =>
    have hr := deThing_iff.1 h
    have hp : ∀ m, t.properties = some m → m.Sorted ∧
        ∀ kv ∈ m, ∃ es, P (.obj es) ∧ PropertyRead C env es kv.2 := fun m hm =>
      have h := optMap_from hP hd (hm ▸ hr.properties)
      ⟨h.1, fun kv hkv => let ⟨_, hv, h⟩ := h.2 (k' := kv.1) hkv; property_from hv h⟩
    have ha : ∀ m, t.actions = some m → m.Sorted ∧
        ∀ kv ∈ m, ∃ es, P (.obj es) ∧ ActionRead C env es kv.2 := fun m hm =>
      have h := optMap_from hP hd (hm ▸ hr.actions)
      ⟨h.1, fun kv hkv => let ⟨_, hv, h⟩ := h.2 (k' := kv.1) hkv; action_from hv h⟩
    have hev : ∀ m, t.events = some m → m.Sorted ∧
        ∀ kv ∈ m, ∃ es, P (.obj es) ∧ EventRead C env es kv.2 := fun m hm =>
      have h := optMap_from hP hd (hm ▸ hr.events)
      ⟨h.1, fun kv hkv => let ⟨_, hv, h⟩ := h.2 (k' := kv.1) hkv; event_from hv h⟩
    have hi : ∀ i, t.HasInteraction i → ∃ es, P (.obj es) ∧ InteractionRead C env es i := by
      intro i hi
      cases hi with
      | property h1 h2 =>
        obtain ⟨es, he, h⟩ := (hp _ h1).2 _ h2
        exact ⟨_, hP.rest _ he, deInteraction_iff.1 h.interaction⟩
      | action h1 h2 =>
        obtain ⟨es, he, h⟩ := (ha _ h1).2 _ h2
        exact ⟨_, hP.rest _ he, deInteraction_iff.1 h.interaction⟩
      | event h1 h2 =>
        obtain ⟨es, he, h⟩ := (hev _ h1).2 _ h2
        exact ⟨_, hP.rest _ he, deInteraction_iff.1 h.interaction⟩
    have hf : ∀ i, t.HasInteraction i → ∀ f ∈ i.forms, ∃ es, P (.obj es) ∧ FormRead C es f := fun i h =>
      let ⟨_, he, h⟩ := hi i h
      (interaction_parts hP he h).1
    have hu : ∀ i, t.HasInteraction i → ∀ m, i.uriVariables = some m → m.Sorted ∧
        ∀ kv ∈ m, SchemaFrom C.dataSchema C.arraySchema C.objectSchema env P kv.2 := fun i h =>
      let ⟨_, he, h⟩ := hi i h
      (interaction_parts hP he h).2
    have opt : ∀ {k es} {o : Option (DS X)} {s}, P (.obj es) → optional k (deDS C env) es = some o →
        o = some s → SchemaFrom C.dataSchema C.arraySchema C.objectSchema env P s := by
      intro k es o s he h hs
      subst hs
      obtain ⟨v, hv, -, h⟩ := optional_from hP he h
      exact schema_from hv h
    refine
      { schemas := ?_
        forms := ?_
        interactions := hi
        properties := hp
        actions := ha
        events := hev
        links := ?_
        sorted := ?_
        security := ?_
        uriVariables := fun m hm => (optMap_from hP hd (hm ▸ hr.uriVariables)).1
        schemaDefinitions := fun m hm => (optMap_from hP hd (hm ▸ hr.schemaDefinitions)).1
        self := ⟨es, hd, hr⟩ }
    · intro p s hsch
      cases hsch with
      | property h1 h2 =>
        obtain ⟨es, he, h⟩ := (hp _ h1).2 _ h2
        exact ⟨_, hP.rest _ he, deSchemaMembers_iff.1 h.dataSchema⟩
      | input h1 h2 h3 =>
        obtain ⟨es, he, h⟩ := (ha _ h1).2 _ h2
        exact opt he h.input h3
      | output h1 h2 h3 =>
        obtain ⟨es, he, h⟩ := (ha _ h1).2 _ h2
        exact opt he h.output h3
      | subscription h1 h2 h3 =>
        obtain ⟨es, he, h⟩ := (hev _ h1).2 _ h2
        exact opt he h.subscription h3
      | data h1 h2 h3 =>
        obtain ⟨es, he, h⟩ := (hev _ h1).2 _ h2
        exact opt he h.data h3
      | cancellation h1 h2 h3 =>
        obtain ⟨es, he, h⟩ := (hev _ h1).2 _ h2
        exact opt he h.cancellation h3
      | dataResponse h1 h2 h3 =>
        obtain ⟨es, he, h⟩ := (hev _ h1).2 _ h2
        exact opt he h.dataResponse h3
      | uriVariable h1 h2 =>
        obtain ⟨v, hv, h⟩ := (optMap_from hP hd (h1 ▸ hr.uriVariables)).2 h2
        exact schema_from hv h
      | propertyUriVariable h1 h2 h3 h4 => exact (hu _ (.property h1 h2) _ h3).2 _ h4
      | actionUriVariable h1 h2 h3 h4 => exact (hu _ (.action h1 h2) _ h3).2 _ h4
      | eventUriVariable h1 h2 h3 h4 => exact (hu _ (.event h1 h2) _ h3).2 _ h4
      | schemaDefinition h1 h2 =>
        obtain ⟨v, hv, h⟩ := (optMap_from hP hd (h1 ▸ hr.schemaDefinitions)).2 h2
        exact schema_from hv h
    · intro ctx f hfo
      cases hfo with
      | thing h1 h2 =>
        obtain ⟨v, hv, h⟩ := optVec_from hP hd (h1 ▸ hr.forms) h2
        exact form_from hv h
      | property h1 h2 h3 => exact hf _ (.property h1 h2) _ h3
      | action h1 h2 h3 => exact hf _ (.action h1 h2) _ h3
      | event h1 h2 h3 => exact hf _ (.event h1 h2) _ h3
    · intro l hl k hk
      obtain ⟨v, -, h⟩ := optVec_from hP hd (hl ▸ hr.links) hk
      exact link_from hs h
    · obtain ⟨v, -, h⟩ := required_from hP hd hr.securityDefinitions
      exact map_sorted h
    · intro kv hkv
      obtain ⟨v, hv, h⟩ := required_from hP hd hr.securityDefinitions
      obtain ⟨w, hw, h⟩ := map_from hP hv h (k := kv.1) hkv
      exact security_from hw h
  | _ => cases h

/-! ### Custom security schemes -/

/-- A member that has been read from a document without repeated members is carried by its normal form. -/
theorem Carries.norm {es : Members} (hn : (Json.obj es).NoDup) (k : String) :
    Carries es (HMap.collect (Json.normMembers es)) k := by
  have h := (Represents.obj (d := .obj es) (m := HMap.collect (Json.normMembers es))
    ⟨hn, by rw [show Json.obj (HMap.collect (Json.normMembers es)) = (Json.obj es).norm from rfl, norm_norm]⟩)
  obtain ⟨es', e, -, hc⟩ := h
  cases e
  exact hc k

/-- A custom scheme that has been read from a document without repeated members is read as one again. -/
theorem custom_from {es : Members} {s : SecurityScheme} (hn : (Json.obj es).NoDup)
    (h : SecurityRead env es s) : s.subtype.Kept := by
  cases hs : s.subtype with
  | known k => trivial
  | unknown scheme data =>
    have h0 := h.subtype
    rw [hs] at h0
    have hu : deUnknown (rest securityKeys es) = some (.unknown scheme data) ∧
        deKnown (rest securityKeys es) = none := by
      unfold deSubtype at h0
      split at h0
      · cases h0
      · rename_i e
        exact ⟨h0, e⟩
    obtain ⟨hu, hk⟩ := hu
    simp only [deUnknown, bind, pure] at hu
    obtain ⟨scheme', hsc, hu⟩ := Option.bind_eq_some_iff.1 hu
    cases hu
    obtain ⟨m, hm, hnames⟩ := custom_data (deSecurity_iff.2 h) hs
    have hv : (Json.obj (rest ["scheme"] (rest securityKeys es))).norm.IsValue := norm_norm _
    have hn' := Hereditary.noDup.rest securityKeys hn
    have hn2 := Hereditary.noDup.rest ["scheme"] hn'
    have hm' : m = HMap.collect (Json.normMembers (rest ["scheme"] (rest securityKeys es))) := by
      rw [Json.norm] at hm
      exact (Json.obj.inj hm).symm
    refine ⟨?_, hv, .inr ⟨m, hm, hnames⟩⟩
    rw [hm] at hv ⊢
    show ¬ LooksPredefined scheme m
    rw [← deKnown_iff (es := rest securityKeys es) hn'.1 hv hnames]
    · simp [hk]
    · intro k hk1
      by_cases he : k = "scheme"
      · subst he
        have h1 : occ "scheme" m = [] := occ_eq_nil.2 fun h => by
          obtain ⟨kv, hkv, e⟩ := List.mem_map.1 h
          exact hnames kv hkv (e ▸ List.mem_cons_self)
        unfold Carries
        rw [occ_cons, if_pos rfl, h1]
        unfold required at hsc
        split at hsc
        · rename_i v hv
          cases v with
          | str s => cases hsc; exact ⟨_, hv, .refl trivial⟩
          | _ => cases hsc
        · cases hsc
      · have h1 := hm' ▸ Carries.norm hn2 k
        unfold Carries at h1 ⊢
        rw [occ_cons, if_neg (Ne.symm he)]
        rw [occ_rest, if_neg (by simpa using he)] at h1
        exact h1
    · intro k hk1
      rw [occ_rest, if_pos hk1]

/-! ### What has been read can be written and read -/

theorem SchemaFrom.imp {DSx AS OS : Type} {C : ExtCodec DSx} {CA : ExtCodec AS} {CO : ExtCodec OS}
    {P Q : Json → Prop} (hPQ : ∀ d, P d → Q d) {x : DataSchema DSx AS OS} (h : SchemaFrom C CA CO env P x) :
    SchemaFrom C CA CO env Q x :=
  let ⟨es, he, hr⟩ := h
  ⟨es, hPQ _ he, hr⟩

theorem time_from (hs : env.Stable) {k : String} {es : Members} {d : OffsetDateTime}
    (h : optional k (deTime env) es = some (some d)) :
    ∃ s, env.timeFormat d = some s ∧ env.timeParse s = some d := by
  obtain ⟨v, -, -, h⟩ := optional_from (P := fun _ => True)
    ⟨fun _ _ => trivial, fun _ _ => trivial, fun _ _ => trivial⟩ trivial h
  cases v with
  | str s => exact hs.times s d h
  | _ => cases h

variable {t : Thing X}

theorem ThingFrom.plain (hs : env.Stable) (h : ThingFrom C env Json.NoDup t) : PlainValues env t :=
  let ⟨_, _, hr⟩ := h.self
  { created := fun _ e => time_from hs (e ▸ hr.created)
    modified := fun _ e => time_from hs (e ▸ hr.modified)
    schemas := fun p s _ hp hx => (within_from .noDup hx (h.schemas p s hp)).values
    security := fun kv hkv => let ⟨_, he, hr⟩ := h.security kv hkv; custom_from he hr }

theorem ThingFrom.writable (hs : env.Stable) (h : ThingFrom C env Json.NoDup t) (he : ExtensionsKept C t) :
    Writable env C t :=
  have hp := h.plain hs
  { created := fun d h => let ⟨s, e, _⟩ := hp.created d h; ⟨s, e⟩
    modified := fun d h => let ⟨s, e, _⟩ := hp.modified d h; ⟨s, e⟩
    security := by
      intro n s scheme data hs he
      have := hp.security _ hs
      simp only [he] at this
      obtain ⟨_, _, h | ⟨m, hm, _⟩⟩ := this
      · exact .inl h
      · exact .inr ⟨m, hm⟩
    schemas := fun p s x hp hx =>
      let ⟨h1, h2, h3⟩ := he.schemas p s x hp hx
      ⟨h1.1, fun a ha => (h2 a ha).1, fun a ha => (h3 a ha).1⟩
    forms := fun ctx f hf => let ⟨h1, h2⟩ := he.forms ctx f hf; ⟨h1.1, fun r hr => (h2 r hr).1⟩
    interactions := fun i hi => (he.interactions i hi).1
    properties := fun m hm kv hkv => (he.properties m hm kv hkv).1
    actions := fun m hm kv hkv => (he.actions m hm kv hkv).1
    events := fun m hm kv hkv => (he.events m hm kv hkv).1
    other := he.other.1 }

/-- Whether the rest of the Thing survives does not depend on the extensions, so that they can be others than those it has
been read with. -/
theorem ThingFrom.kept (hs : env.Stable) (h : ThingFrom C env Json.NoDup t) {C' : ExtCodecs X} (he : ExtensionsKept C' t) :
    Kept env C' t := by
  have hp := h.plain hs
  obtain ⟨es, -, hr⟩ := h.self
  have hsch : ∀ p s, t.HasSchema p s → DSKept env C' s := by
    intro p s hps x hx
    have hf := within_from .noDup hx (h.schemas p s hps)
    obtain ⟨e1, e2, e3⟩ := he.schemas p s x hps hx
    obtain ⟨v1, v2, v3⟩ := hf.values
    obtain ⟨es, hes, hr⟩ := hf
    exact
      { constant := v1, default := v2, enumeration := v3
        other := e1.2, otherArray := fun a ha => (e2 a ha).2, otherObject := fun a ha => (e3 a ha).2
        titles := lang_from hs hr.titles
        descriptions := lang_from hs hr.descriptions
        properties := fun o m ho hm => by
          obtain ⟨es', he', hr'⟩ := object_from .noDup (Hereditary.noDup.rest _ hes) (hr.subtype.trans ho)
          exact (optMap_from .noDup he' (hm ▸ hr'.properties)).1 }
  have hform : ∀ ctx f, t.HasForm ctx f → FormKept C' f := fun ctx f hf =>
    let ⟨h1, h2⟩ := he.forms ctx f hf
    ⟨fun r hr => (h2 r hr).2, h1.2⟩
  have hint : ∀ i, t.HasInteraction i → (∀ f ∈ i.forms, FormKept C' f) →
      (∀ m, i.uriVariables = some m → ∀ kv ∈ m, DSKept env C' kv.2) → InteractionKept env C' i := by
    intro i hi h1 h2
    obtain ⟨es, hes, hr⟩ := h.interactions i hi
    exact
      { titles := lang_from hs hr.titles
        descriptions := lang_from hs hr.descriptions
        forms := h1
        uriVariables := fun m hm => ⟨((interaction_parts .noDup hes hr).2 m hm).1, h2 m hm⟩
        other := (he.interactions i hi).2 }
  exact
    { context := by
        have := hr.context
        unfold defaulted at this
        split at this
        · rw [← Option.some.inj this]; rfl
        · rw [← Option.some.inj this]; exact norm_norm _
        · cases this
      titles := lang_from hs hr.titles
      descriptions := lang_from hs hr.descriptions
      created := fun d s h hf => by
        obtain ⟨s', e, e'⟩ := hp.created d h
        rw [e] at hf; cases hf; exact e'
      modified := fun d s h hf => by
        obtain ⟨s', e, e'⟩ := hp.modified d h
        rw [e] at hf; cases hf; exact e'
      properties := fun m hm => ⟨(h.properties m hm).1, fun kv hkv =>
        { interaction := hint _ (.property hm hkv) (fun f hf => hform _ f (.property hm hkv hf))
            fun u hu kv' hkv' => hsch _ _ (.propertyUriVariable hm hkv hu hkv')
          dataSchema := hsch _ _ (.property hm hkv)
          other := (he.properties m hm kv hkv).2 }⟩
      actions := fun m hm => ⟨(h.actions m hm).1, fun kv hkv =>
        { interaction := hint _ (.action hm hkv) (fun f hf => hform _ f (.action hm hkv hf))
            fun u hu kv' hkv' => hsch _ _ (.actionUriVariable hm hkv hu hkv')
          input := fun s e => hsch _ s (.input hm hkv e)
          output := fun s e => hsch _ s (.output hm hkv e)
          other := (he.actions m hm kv hkv).2 }⟩
      events := fun m hm => ⟨(h.events m hm).1, fun kv hkv =>
        { interaction := hint _ (.event hm hkv) (fun f hf => hform _ f (.event hm hkv hf))
            fun u hu kv' hkv' => hsch _ _ (.eventUriVariable hm hkv hu hkv')
          subscription := fun s e => hsch _ s (.subscription hm hkv e)
          data := fun s e => hsch _ s (.data hm hkv e)
          dataResponse := fun s e => hsch _ s (.dataResponse hm hkv e)
          cancellation := fun s e => hsch _ s (.cancellation hm hkv e)
          other := (he.events m hm kv hkv).2 }⟩
      links := h.links
      forms := fun l hl f hf => hform _ f (.thing hl hf)
      securityDefinitions := h.sorted
      security := fun kv hkv =>
        let ⟨es, hes, hr⟩ := h.security kv hkv
        ⟨lang_from hs hr.descriptions, hp.security kv hkv⟩
      uriVariables := fun m hm => ⟨h.uriVariables m hm, fun kv hkv => hsch _ _ (.uriVariable hm hkv)⟩
      schemaDefinitions := fun m hm =>
        ⟨h.schemaDefinitions m hm, fun kv hkv => hsch _ _ (.schemaDefinition hm hkv)⟩
      other := he.other.2 }

/-- The two parts of a property that has been read say the same. -/
theorem property_agrees {es : Members} {p : PropertyAffordance X} (h : PropertyRead C env es p) : p.Agrees := by
  have h1 := deInteraction_iff.1 h.interaction
  have h2 := deSchemaMembers_iff.1 h.dataSchema
  exact ⟨Option.some.inj (h1.attype.symm.trans h2.attype), Option.some.inj (h1.title.symm.trans h2.title),
    Option.some.inj (h1.titles.symm.trans h2.titles),
    Option.some.inj (h1.description.symm.trans h2.description),
    Option.some.inj (h1.descriptions.symm.trans h2.descriptions)⟩

/-- A custom scheme that has been read has data. -/
theorem custom_ne_null {es : Members} {s : SecurityScheme} (h : SecurityRead env es s) (scheme : String) :
    s.subtype ≠ .unknown scheme .null := fun e => by
  obtain ⟨m, hm, _⟩ := custom_data (deSecurity_iff.2 h) e
  cases hm

/-- Of a Thing that has been read, nothing is lost but empty lists of operations. -/
theorem ThingFrom.lossless (h : ThingFrom C env Json.NumbersInRange t) :
    t.Lossless ↔ t.NoEmptyOps where
  mp hl := hl.forms
  mpr ho :=
    { schemas := fun p s _ hp hx => (within_from .numbers hx (h.schemas p s hp)).lossless
      forms := ho
      properties := fun m hm kv hkv => let ⟨_, _, hr⟩ := (h.properties m hm).2 kv hkv; property_agrees hr
      security := fun kv hkv scheme => let ⟨_, _, hr⟩ := h.security kv hkv; custom_ne_null hr scheme }

/-- Values of lawful extensions are kept. -/
theorem ThingFrom.extensions (h : ThingFrom C env P t) (hP : Hereditary P) (hl : C.Lawful) :
    ExtensionsKept C t where
  schemas p s x hp hx := by
    obtain ⟨es, he, hr⟩ := within_from hP hx (h.schemas p s hp)
    refine ⟨hl.dataSchema _ _ hr.other, fun a ha => ?_, fun a ha => ?_⟩
    · obtain ⟨_, _, hr⟩ := array_from hP (hP.rest _ he) (hr.subtype.trans ha)
      exact hl.arraySchema _ _ hr.other
    · obtain ⟨_, _, hr⟩ := object_from hP (hP.rest _ he) (hr.subtype.trans ha)
      exact hl.objectSchema _ _ hr.other
  forms ctx f hf := by
    obtain ⟨es, he, hr⟩ := h.forms ctx f hf
    refine ⟨hl.form _ _ hr.other, fun r e => ?_⟩
    obtain ⟨v, hv, -, hr⟩ := optional_from hP he (e ▸ hr.response)
    cases v with
    | obj es => exact hl.response _ _ (deResponse_iff.1 hr).other
    | _ => cases hr
  interactions i hi := let ⟨_, _, hr⟩ := h.interactions i hi; hl.interaction _ _ hr.other
  properties m hm kv hkv := let ⟨_, _, hr⟩ := (h.properties m hm).2 kv hkv; hl.property _ _ hr.other
  actions m hm kv hkv := let ⟨_, _, hr⟩ := (h.actions m hm).2 kv hkv; hl.action _ _ hr.other
  events m hm kv hkv := let ⟨_, _, hr⟩ := (h.events m hm).2 kv hkv; hl.event _ _ hr.other
  other := let ⟨_, _, hr⟩ := h.self; hl.thing _ _ hr.other

end Wot
