import Verif.Lemmas.FloatThing
import Verif.Lemmas.FloatTree
import Verif.Lemmas.EditNorm
import Verif.Lemmas.Stored
import Verif.Lemmas.FloatExact
import Verif.Lemmas.FloatBack
import Verif.Lemmas.FloatFinite
import Verif.Lemmas.Equality
import Verif.Lemmas.JsonStruct
import Verif.Spec.Storable
/-
A Thing after a function on its floats can be read back if the Thing can.
-/
namespace Wot

open FloatText F64

variable {g : F64 → F64}

/-! ### Documents -/

theorem collect_mapVals {V W : Type} (f : V → W) (m : HMap V) : HMap.collect (HMap.mapVals f m) = HMap.mapVals f (HMap.collect m) := by
  refine (HMap.collect_sorted _).ext ((HMap.collect_sorted m).mapVals f) fun k => ?_
  rw [HMap.get?_mapVals, HMap.collect_get?, HMap.collect_get?, HMap.mapVals, ← List.map_reverse, List.find?_map]
  simp only [Option.map_map]
  rfl

theorem norm_mapFloats (j : Json) : (j.mapFloats g).norm = j.norm.mapFloats g := by
  induction j using Json.ind with
  | hnull => rfl
  | hbool b => rfl
  | hnum n => rfl
  | hstr s => rfl
  | harr l ih =>
    rw [mapFloats_arr, Json.norm, Json.norm, mapFloats_arr, normList_eq, normList_eq, List.map_map, List.map_map]
    exact congrArg Json.arr (List.map_congr_left fun c hc => ih c hc)
  | hobj m ih =>
    rw [mapFloats_obj, Json.norm, Json.norm, mapFloats_obj, normMembers_eq, normMembers_eq, ← collect_mapVals]
    simp only [HMap.mapVals, List.map_map]
    congr 2
    exact List.map_congr_left fun kv hkv => congrArg (Prod.mk kv.1) (ih kv hkv)

theorem isValue_mapFloats {j : Json} (h : j.IsValue) : (j.mapFloats g).IsValue := by
  unfold Json.IsValue at *
  rw [norm_mapFloats, h]

theorem noDup_mapFloats {j : Json} : j.NoDup → (j.mapFloats g).NoDup := by
  induction j using Json.ind with
  | hnull => exact id
  | hbool b => exact id
  | hnum n => exact id
  | hstr s => exact id
  | harr l ih =>
    rw [mapFloats_arr]
    intro h
    refine (noDupList_iff _).2 fun j hj => ?_
    obtain ⟨c, hc, rfl⟩ := List.mem_map.1 hj
    exact ih c hc ((noDupList_iff _).1 h c hc)
  | hobj m ih =>
    rw [mapFloats_obj]
    intro h
    refine ⟨?_, (noDupMembers_iff _).2 fun kv hkv => ?_⟩
    · have e : (HMap.mapVals (Json.mapFloats g) m).map (·.1) = m.map (·.1) := by simp [HMap.mapVals]
      rw [e]; exact h.1
    · obtain ⟨c, hc, rfl⟩ := List.mem_map.1 hkv
      exact ih c hc ((noDupMembers_iff _).1 h.2 c hc)

theorem nesting_mapFloats (j : Json) : (j.mapFloats g).nesting = j.nesting := by
  have key : ∀ j : Json, ∀ n, (j.mapFloats g).nesting ≤ n ↔ j.nesting ≤ n := by
    intro j
    induction j using Json.ind with
    | hnull => exact fun _ => Iff.rfl
    | hbool b => exact fun _ => Iff.rfl
    | hnum n => exact fun _ => Iff.rfl
    | hstr s => exact fun _ => Iff.rfl
    | harr l ih =>
      intro n
      rw [mapFloats_arr]
      cases n with
      | zero => simp [Json.nesting]
      | succ n =>
        rw [nesting_arr_le, nesting_arr_le]
        simp only [List.forall_mem_map]
        exact forall₂_congr fun c hc => ih c hc n
    | hobj m ih =>
      intro n
      rw [mapFloats_obj]
      cases n with
      | zero => simp [Json.nesting]
      | succ n =>
        rw [nesting_obj_le, nesting_obj_le]
        simp only [HMap.mapVals, List.forall_mem_map]
        exact forall₂_congr fun c hc => ih c hc n
  exact Nat.le_antisymm ((key j _).2 (Nat.le_refl _)) ((key j _).1 (Nat.le_refl _))

theorem mem_normMembers {m : Members} (hn : (m.map (·.1)).Nodup) {kv : String × Json} :
    kv ∈ HMap.collect (m.map fun kv => (kv.1, kv.2.norm)) ↔ ∃ c ∈ m, kv = (c.1, c.2.norm) := by
  have hn' : ((m.map fun kv => (kv.1, kv.2.norm)).map (·.1)).Nodup := by rw [List.map_map]; exact hn
  rw [← (perm_collect hn').mem_iff, List.mem_map]
  exact exists_congr fun c => and_congr_right fun _ => eq_comm

theorem nesting_norm {j : Json} (hd : j.NoDup) : j.norm.nesting = j.nesting := by
  have key : ∀ j : Json, j.NoDup → ∀ n, j.norm.nesting ≤ n ↔ j.nesting ≤ n := by
    intro j
    induction j using Json.ind with
    | hnull => exact fun _ _ => Iff.rfl
    | hbool b => exact fun _ _ => Iff.rfl
    | hnum n => exact fun _ _ => Iff.rfl
    | hstr s => exact fun _ _ => Iff.rfl
    | harr l ih =>
      intro hd n
      rw [Json.norm, normList_eq]
      cases n with
      | zero => simp [Json.nesting]
      | succ n =>
        rw [nesting_arr_le, nesting_arr_le]
        simp only [List.forall_mem_map]
        exact forall₂_congr fun c hc => ih c hc ((noDupList_iff _).1 hd c hc) n
    | hobj m ih =>
      intro hd n
      rw [Json.norm, normMembers_eq]
      cases n with
      | zero => simp [Json.nesting]
      | succ n =>
        rw [nesting_obj_le, nesting_obj_le]
        constructor
        · intro h c hc
          exact (ih c hc ((noDupMembers_iff _).1 hd.2 c hc) n).1 (h _ ((mem_normMembers hd.1).2 ⟨c, hc, rfl⟩))
        · intro h kv hkv
          obtain ⟨c, hc, rfl⟩ := (mem_normMembers hd.1).1 hkv
          exact (ih c hc ((noDupMembers_iff _).1 hd.2 c hc) n).2 (h c hc)
  exact Nat.le_antisymm ((key j hd _).2 (Nat.le_refl _)) ((key j hd _).1 (Nat.le_refl _))

theorem numberIn_norm_of {n : JNum} {j : Json} (h : NumberIn n j) : j.NoDup → NumberIn n j.norm := by
  induction h with
  | here => exact fun _ => .here
  | element hj _ ih =>
    intro hd
    rw [Json.norm, normList_eq]
    exact .element (List.mem_map.2 ⟨_, hj, rfl⟩) (ih ((noDupList_iff _).1 hd _ hj))
  | member hj _ ih =>
    intro hd
    rw [Json.norm, normMembers_eq]
    exact .member ((mem_normMembers hd.1).2 ⟨_, hj, rfl⟩) (ih ((noDupMembers_iff _).1 hd.2 _ hj))

theorem numberIn_mapFloats {n : JNum} {j : Json} (h : NumberIn n (j.mapFloats g)) : ∃ i, NumberIn i j ∧ n = i.mapFloat g := by
  induction j using Json.ind with
  | hnull => cases h
  | hbool b => cases h
  | hnum i => cases h; exact ⟨i, .here, rfl⟩
  | hstr s => cases h
  | harr l ih =>
    rw [mapFloats_arr] at h
    cases h with
    | element hj h =>
      obtain ⟨c, hc, rfl⟩ := List.mem_map.1 hj
      obtain ⟨i, hi, e⟩ := ih c hc h
      exact ⟨i, .element hc hi, e⟩
  | hobj m ih =>
    rw [mapFloats_obj] at h
    cases h with
    | member hj h =>
      obtain ⟨c, hc, e⟩ := List.mem_map.1 hj
      cases e
      obtain ⟨i, hi, e⟩ := ih c hc h
      exact ⟨i, .member hc hi, e⟩

theorem inRange_mapFloats (hg : ∀ x, (g x).isFinite = x.isFinite) {j : Json} (h : j.NumbersInRange) : (j.mapFloats g).NumbersInRange := by
  intro n hn
  obtain ⟨i, hi, rfl⟩ := numberIn_mapFloats hn
  have := h i hi
  cases i with
  | pos n => exact this
  | neg n => exact this
  | float f => exact (hg f).trans this

/-! ### Security -/

theorem of_mapFloats_str {v : Json} {s : String} (h : v.mapFloats g = .str s) : v = .str s := by
  cases v <;> simp [Json.mapFloats] at h ⊢; exact h

theorem of_mapFloats_null {v : Json} (h : v.mapFloats g = .null) : v = .null := by
  cases v <;> simp [Json.mapFloats] at h ⊢

theorem of_mapFloats_empty {v : Json} (h : v.mapFloats g = .obj []) : v = .obj [] := by
  cases v with
  | obj m => rw [mapFloats_obj] at h; cases m <;> simp [HMap.mapVals] at h ⊢
  | _ => simp [Json.mapFloats] at h

theorem of_mapFloats_one {v w : Json} {n : String} (h : v.mapFloats g = .obj [(n, w)]) :
    ∃ w', v = .obj [(n, w')] ∧ w'.mapFloats g = w := by
  cases v with
  | obj m =>
    rw [mapFloats_obj] at h
    rcases m with _ | ⟨⟨k, x⟩, _ | ⟨y, m⟩⟩ <;> simp [HMap.mapVals] at h
    obtain ⟨rfl, rfl⟩ := h
    exact ⟨x, rfl, rfl⟩
  | _ => simp [Json.mapFloats] at h

theorem text_mapFloats {v : Json} : IsText (v.mapFloats g) → IsText v := fun ⟨s, h⟩ => ⟨s, of_mapFloats_str h⟩

theorem texts_mapFloats {v : Json} : IsTexts (v.mapFloats g) → IsTexts v := by
  rintro (h | ⟨l, h⟩)
  · exact .inl (text_mapFloats h)
  · right
    refine ⟨l, ?_⟩
    cases v with
    | arr m =>
      rw [mapFloats_arr] at h
      injection h with h
      refine congrArg Json.arr ?_
      induction l generalizing m with
      | nil => cases m <;> simp at h ⊢
      | cons a l ih =>
        cases m with
        | nil => simp at h
        | cons b m =>
          simp only [List.map_cons, List.cons.injEq] at h ⊢
          exact ⟨of_mapFloats_str h.1, ih m h.2⟩
    | _ => simp [Json.mapFloats] at h

theorem name_mapFloats {names : List String} {v : Json} : IsNameIn names (v.mapFloats g) → IsNameIn names v := by
  rintro ⟨n, hn, h | h | h⟩
  · exact ⟨n, hn, .inl (of_mapFloats_str h)⟩
  · obtain ⟨w, rfl, hw⟩ := of_mapFloats_one h
    exact ⟨n, hn, .inr (.inl (by rw [of_mapFloats_null hw]))⟩
  · obtain ⟨w, rfl, hw⟩ := of_mapFloats_one h
    exact ⟨n, hn, .inr (.inr (by rw [of_mapFloats_empty hw]))⟩

section
variable {m : Members} {k : String} {P : Json → Prop}

theorem mem_mapFloats {v : Json} (h : (k, v) ∈ m) : (k, v.mapFloats g) ∈ HMap.mapVals (Json.mapFloats g) m :=
  List.mem_map.2 ⟨_, h, rfl⟩

theorem ifMember_mapFloats (hP : ∀ v, P (v.mapFloats g) → P v) (h : IfMember (HMap.mapVals (Json.mapFloats g) m) k P) :
    IfMember m k P := fun v hv => hP v (h _ (mem_mapFloats hv))

theorem ifNotNull_mapFloats (hP : ∀ v, P (v.mapFloats g) → P v) (h : IfNotNull (HMap.mapVals (Json.mapFloats g) m) k P) :
    IfNotNull m k P := fun v hv hn => hP v (h _ (mem_mapFloats hv) fun e => hn (of_mapFloats_null e))

theorem hasMember_mapFloats (hP : ∀ v, P (v.mapFloats g) → P v) (h : HasMember (HMap.mapVals (Json.mapFloats g) m) k P) :
    HasMember m k P := by
  obtain ⟨v, hv, h⟩ := h
  obtain ⟨⟨k', w⟩, hw, e⟩ := List.mem_map.1 hv
  cases e
  exact ⟨w, hw, hP w h⟩

theorem located_mapFloats (h : LooksLocated (HMap.mapVals (Json.mapFloats g) m)) : LooksLocated m :=
  ⟨ifMember_mapFloats (fun _ => name_mapFloats) h.1, ifNotNull_mapFloats (fun _ => text_mapFloats) h.2⟩

theorem predefined_mapFloats {scheme : String} (h : LooksPredefined scheme (HMap.mapVals (Json.mapFloats g) m)) :
    LooksPredefined scheme m := by
  have T := fun v => text_mapFloats (g := g) (v := v)
  have one : ∀ {k : String} {v : Json}, HMap.mapVals (Json.mapFloats g) m = [(k, v)] → ∃ w, m = [(k, w)] ∧ v = w.mapFloats g := by
    intro k v h
    rcases m with _ | ⟨⟨a, x⟩, _ | ⟨y, m⟩⟩ <;> simp [HMap.mapVals] at h
    obtain ⟨rfl, rfl⟩ := h
    exact ⟨x, rfl, rfl⟩
  generalize hm : HMap.mapVals (Json.mapFloats g) m = m' at h
  cases h with
  | nosec => exact .nosec
  | auto => exact .auto
  | oneOf h => obtain ⟨w, rfl, rfl⟩ := one hm; exact .oneOf (texts_mapFloats h)
  | allOf h => obtain ⟨w, rfl, rfl⟩ := one hm; exact .allOf (texts_mapFloats h)
  | basic h => subst hm; exact .basic (located_mapFloats h)
  | apikey h => subst hm; exact .apikey (located_mapFloats h)
  | digest h h' => subst hm; exact .digest (located_mapFloats h) (hasMember_mapFloats (fun _ => name_mapFloats) h')
  | bearer h h1 h2 h3 =>
    subst hm
    exact .bearer (located_mapFloats h) (ifNotNull_mapFloats T h1) (ifMember_mapFloats T h2) (ifMember_mapFloats T h3)
  | psk h => subst hm; exact .psk (ifNotNull_mapFloats T h)
  | oauth2 h1 h2 h3 h4 h5 =>
    subst hm
    exact .oauth2 (ifNotNull_mapFloats T h1) (ifNotNull_mapFloats T h2) (ifNotNull_mapFloats T h3)
      (ifNotNull_mapFloats (fun _ => texts_mapFloats) h4) (hasMember_mapFloats T h5)

end

theorem scheme_mapFloats {s : SchemeSubtype} (h : s.Kept) : (s.mapFloats g).Kept := by
  cases s with
  | known k => exact h
  | unknown scheme data =>
    obtain ⟨h1, h2, h3⟩ := h
    refine ⟨?_, isValue_mapFloats h2, ?_⟩
    · intro hl
      refine h1 ?_
      rcases h3 with rfl | ⟨m, rfl, -⟩
      · exact hl
      · rw [mapFloats_obj] at hl; exact predefined_mapFloats hl
    · rcases h3 with rfl | ⟨m, rfl, h3⟩
      · exact .inl rfl
      · refine .inr ⟨_, mapFloats_obj m, fun kv hkv => ?_⟩
        obtain ⟨kv', hkv', rfl⟩ := List.mem_map.1 hkv
        exact h3 kv' hkv'

/-! ### Schemas -/

section
variable {L DSx AS OS : Type} {s x : Schema L DSx AS OS}

theorem mapFloats_head : (s.mapFloats g).head = s.head.mapFloats g := by rw [mapFloats_eq]; rfl

theorem mapFloats_oneOf : (s.mapFloats g).oneOf = s.oneOf.map (List.map (Schema.mapFloats g)) := by rw [mapFloats_eq]; rfl

theorem mapFloats_subtype : (s.mapFloats g).subtype =
    (s.subtype.map (SubtypeF.map (Schema.mapFloats g))).map (SubtypeF.mapFloats g) := by rw [mapFloats_eq]; rfl

theorem children_mapFloats {S : Type} (st : SubtypeF AS OS S) : (st.mapFloats g).children = st.children := by cases st <;> rfl

theorem within_mapFloats {x s : Schema L DSx AS OS} (h : Within x (s.mapFloats g)) : ∃ y, Within y s ∧ x = y.mapFloats g := by
  induction s using Schema.ind generalizing x with
  | h hd o st ih1 ih2 =>
    rw [within_iff, mapFloats_oneOf, mapFloats_subtype] at h
    simp only [Option.map_eq_some_iff] at h
    obtain rfl | ⟨_, ⟨l, hl, rfl⟩, c, hc, hx⟩ | ⟨_, ⟨_, ⟨st', hst, rfl⟩, rfl⟩, c, hc, hx⟩ := h
    · exact ⟨_, .self _, rfl⟩
    · obtain ⟨c', hc', rfl⟩ := List.mem_map.1 hc
      obtain ⟨y, hy, rfl⟩ := ih1 l hl c' hc' hx
      exact ⟨y, within_iff.2 (.inr (.inl ⟨l, hl, c', hc', hy⟩)), rfl⟩
    · rw [children_mapFloats, children_map] at hc
      obtain ⟨c', hc', rfl⟩ := List.mem_map.1 hc
      obtain ⟨y, hy, rfl⟩ := ih2 st' hst c' hc' hx
      exact ⟨y, within_iff.2 (.inr (.inr ⟨st', hst, c', hc', hy⟩)), rfl⟩

theorem array_mapFloats {a : ArrayF AS (Schema L DSx AS OS)} (h : (s.mapFloats g).subtype = some (.array a)) :
    ∃ a', s.subtype = some (.array a') ∧ a.other = a'.other := by
  rw [mapFloats_subtype] at h
  obtain ⟨st, h1, h2⟩ := Option.map_eq_some_iff.1 h
  obtain ⟨st', h3, rfl⟩ := Option.map_eq_some_iff.1 h1
  cases st' <;> simp only [SubtypeF.map, SubtypeF.mapFloats, SubtypeF.array.injEq, reduceCtorEq] at h2
  subst h2
  exact ⟨_, h3, rfl⟩

theorem object_mapFloats {a : ObjectF OS (Schema L DSx AS OS)} (h : (s.mapFloats g).subtype = some (.object a)) :
    ∃ a', s.subtype = some (.object a') ∧ a.other = a'.other ∧ a.properties = a'.properties.map (HMap.mapVals (Schema.mapFloats g)) := by
  rw [mapFloats_subtype] at h
  obtain ⟨st, h1, h2⟩ := Option.map_eq_some_iff.1 h
  obtain ⟨st', h3, rfl⟩ := Option.map_eq_some_iff.1 h1
  cases st' <;> simp only [SubtypeF.map, SubtypeF.mapFloats, SubtypeF.object.injEq, reduceCtorEq] at h2
  subst h2
  exact ⟨_, h3, rfl, rfl⟩

end

theorem schemaKept_mapFloats {DSx AS OS : Type} {C : ExtCodec DSx} {CA : ExtCodec AS} {CO : ExtCodec OS} {env : SerdeEnv}
    {s : DataSchema DSx AS OS} (h : SchemaKept env C CA CO s) : SchemaKept env C CA CO (s.mapFloats g) := by
  intro x hx
  obtain ⟨y, hy, rfl⟩ := within_mapFloats hx
  have k := h y hy
  exact
    { constant := fun v hv => by
        rw [mapFloats_head] at hv
        obtain ⟨w, hw, rfl⟩ := Option.map_eq_some_iff.1 hv
        exact isValue_mapFloats (k.constant w hw)
      default := fun v hv => by
        rw [mapFloats_head] at hv
        obtain ⟨w, hw, rfl⟩ := Option.map_eq_some_iff.1 hv
        exact isValue_mapFloats (k.default w hw)
      enumeration := fun l hl v hv => by
        rw [mapFloats_head] at hl
        obtain ⟨w, hw, rfl⟩ := Option.map_eq_some_iff.1 hl
        obtain ⟨u, hu, rfl⟩ := List.mem_map.1 hv
        exact isValue_mapFloats (k.enumeration w hw u hu)
      other := by rw [mapFloats_head]; exact k.other
      otherArray := fun a ha => by
        obtain ⟨a', h1, h2⟩ := array_mapFloats ha
        rw [h2]; exact k.otherArray a' h1
      otherObject := fun a ha => by
        obtain ⟨a', h1, h2, -⟩ := object_mapFloats ha
        rw [h2]; exact k.otherObject a' h1
      titles := by rw [mapFloats_head]; exact k.titles
      descriptions := by rw [mapFloats_head]; exact k.descriptions
      properties := fun o m ho hm => by
        obtain ⟨a', h1, -, h3⟩ := object_mapFloats ho
        rw [h3] at hm
        obtain ⟨w, hw, rfl⟩ := Option.map_eq_some_iff.1 hm
        exact (k.properties a' w h1 hw).mapVals _ }

/-! ### Things -/

section
variable {X : ExtTypes} {C : ExtCodecs X} {env : SerdeEnv} {t : Thing X}

theorem schemasKept_mapFloats {o : Option (HMap (DS X))} (h : SchemasKept env C o) :
    SchemasKept env C (o.map (HMap.mapVals (Schema.mapFloats g))) := by
  intro m hm
  obtain ⟨w, hw, rfl⟩ := Option.map_eq_some_iff.1 hm
  refine ⟨(h w hw).1.mapVals _, fun kv hkv => ?_⟩
  obtain ⟨u, hu, rfl⟩ := List.mem_map.1 hkv
  exact schemaKept_mapFloats ((h w hw).2 u hu)

theorem interactionKept_mapFloats {i : Interaction X} (h : InteractionKept env C i) : InteractionKept env C (i.mapFloats g) :=
  { titles := h.titles, descriptions := h.descriptions, forms := h.forms, other := h.other
    uriVariables := schemasKept_mapFloats h.uriVariables }

theorem ds_mapFloats {o : Option (DS X)} (h : ∀ s, o = some s → DSKept env C s) :
    ∀ s, o.map (Schema.mapFloats g) = some s → DSKept env C s := by
  intro s hs
  obtain ⟨w, hw, rfl⟩ := Option.map_eq_some_iff.1 hs
  exact schemaKept_mapFloats (h w hw)

theorem Kept.mapFloats (h : Kept env C t) : Kept env C (t.mapFloats g) := by
  have vals : ∀ {V : Type} {P : V → Prop} {w : V → V} {o : Option (HMap V)}, (∀ v, P v → P (w v)) →
      (∀ m, o = some m → m.Sorted ∧ ∀ kv ∈ m, P kv.2) →
      ∀ m, o.map (HMap.mapVals w) = some m → m.Sorted ∧ ∀ kv ∈ m, P kv.2 := by
    intro V P w o hw h m hm
    obtain ⟨m', hm', rfl⟩ := Option.map_eq_some_iff.1 hm
    refine ⟨(h m' hm').1.mapVals _, fun kv hkv => ?_⟩
    obtain ⟨u, hu, rfl⟩ := List.mem_map.1 hkv
    exact hw _ ((h m' hm').2 u hu)
  exact
    { context := isValue_mapFloats h.context
      titles := h.titles
      descriptions := h.descriptions
      created := h.created
      modified := h.modified
      properties := vals (P := PropertyKept env C) (fun p hp => ⟨interactionKept_mapFloats hp.interaction, schemaKept_mapFloats hp.dataSchema, hp.other⟩)
        h.properties
      actions := vals (P := ActionKept env C) (fun p hp => ⟨interactionKept_mapFloats hp.interaction, ds_mapFloats hp.input, ds_mapFloats hp.output, hp.other⟩)
        h.actions
      events := vals (P := EventKept env C) (fun p hp => ⟨interactionKept_mapFloats hp.interaction, ds_mapFloats hp.subscription,
        ds_mapFloats hp.data, ds_mapFloats hp.dataResponse, ds_mapFloats hp.cancellation, hp.other⟩) h.events
      links := h.links
      forms := h.forms
      securityDefinitions := h.securityDefinitions.mapVals _
      security := fun kv hkv => by
        obtain ⟨u, hu, rfl⟩ := List.mem_map.1 hkv
        exact ⟨(h.security u hu).descriptions, scheme_mapFloats (h.security u hu).subtype⟩
      uriVariables := schemasKept_mapFloats h.uriVariables
      schemaDefinitions := schemasKept_mapFloats h.schemaDefinitions
      other := h.other }

theorem Kept.maps (h : Kept env C t) : t.Maps := by
  have ik : ∀ i, t.HasInteraction i → InteractionKept env C i := by
    intro i hi
    cases hi with
    | property hm hp => exact ((h.properties _ hm).2 _ hp).interaction
    | action hm hp => exact ((h.actions _ hm).2 _ hp).interaction
    | event hm hp => exact ((h.events _ hm).2 _ hp).interaction
  have sk : ∀ p s, t.HasSchema p s → DSKept env C s := by
    intro p s hs
    cases hs with
    | property hm hp => exact ((h.properties _ hm).2 _ hp).dataSchema
    | input hm hp e => exact ((h.actions _ hm).2 _ hp).input _ e
    | output hm hp e => exact ((h.actions _ hm).2 _ hp).output _ e
    | subscription hm hp e => exact ((h.events _ hm).2 _ hp).subscription _ e
    | data hm hp e => exact ((h.events _ hm).2 _ hp).data _ e
    | cancellation hm hp e => exact ((h.events _ hm).2 _ hp).cancellation _ e
    | dataResponse hm hp e => exact ((h.events _ hm).2 _ hp).dataResponse _ e
    | uriVariable hm hp => exact (h.uriVariables _ hm).2 _ hp
    | propertyUriVariable hm hp hu hk => exact ((((h.properties _ hm).2 _ hp).interaction).uriVariables _ hu).2 _ hk
    | actionUriVariable hm hp hu hk => exact ((((h.actions _ hm).2 _ hp).interaction).uriVariables _ hu).2 _ hk
    | eventUriVariable hm hp hu hk => exact ((((h.events _ hm).2 _ hp).interaction).uriVariables _ hu).2 _ hk
    | schemaDefinition hm hp => exact (h.schemaDefinitions _ hm).2 _ hp
  refine { translations := ?_, schemas := fun p s x hs hx => (sk p s hs x hx).properties,
           interactions := fun i hi m hm => ((ik i hi).uriVariables m hm).1, properties := fun m hm => (h.properties m hm).1,
           actions := fun m hm => (h.actions m hm).1, events := fun m hm => (h.events m hm).1,
           securityDefinitions := h.securityDefinitions, uriVariables := fun m hm => (h.uriVariables m hm).1,
           schemaDefinitions := fun m hm => (h.schemaDefinitions m hm).1 }
  intro m hm
  cases hm with
  | titles e => exact (h.titles m e).1
  | descriptions e => exact (h.descriptions m e).1
  | security hkv e => exact ((h.security _ hkv).descriptions m e).1
  | interactionTitles hi e => exact ((ik _ hi).titles m e).1
  | interactionDescriptions hi e => exact ((ik _ hi).descriptions m e).1
  | schemaTitles hs hx e => exact ((sk _ _ hs _ hx).titles m e).1
  | schemaDescriptions hs hx e => exact ((sk _ _ hs _ hx).descriptions m e).1

/-- The same environment, but maps are iterated in the order of their keys. -/
def SerdeEnv.inOrder (env : SerdeEnv) : SerdeEnv := { env with iter := id, iter_perm := fun _ => .refl _ }

/-- What is written for the Thing, after a function on its floats, says the same as what is written for the Thing after the function. -/
theorem float_written (hg : ∀ x, (g x).isFinite = x.isFinite) (hC : C.Fixed g) (hk : t.Maps) (hk' : (t.mapFloats g).Maps)
    {j : Json} (hj : toText C env t = some j) :
    ∃ j', toText C env (t.mapFloats g) = some j' ∧ (j.mapFloats g).norm = j'.norm := by
  have alike := fun {t : Thing X} (ht : t.Maps) => serThing_alike (C := C) (env := env) (env' := env.inOrder) rfl ht
  have a1 := alike hk
  have a2 := alike hk'
  rw [show serThing C env t = some j from hj, Option.map_some] at a1
  obtain ⟨k, hk1, hk2⟩ := Option.map_eq_some_iff.1 a1.symm
  rw [float_thing hg hC (fun _ => rfl) hk1] at a2
  obtain ⟨j', h1, h2⟩ := Option.map_eq_some_iff.1 (a2.trans (Option.map_some ..))
  refine ⟨j', h1, ?_⟩
  rw [norm_mapFloats, h2, norm_mapFloats, hk2]

/-! ### Where schemas and forms are -/

theorem mem_vals {V : Type} {w : V → V} {o : Option (HMap V)} {m : HMap V} {n : String} {v : V}
    (hm : o.map (HMap.mapVals w) = some m) (hv : (n, v) ∈ m) : ∃ m' v', o = some m' ∧ (n, v') ∈ m' ∧ v = w v' := by
  obtain ⟨m', hm', rfl⟩ := Option.map_eq_some_iff.1 hm
  obtain ⟨⟨n', v'⟩, hv', e⟩ := List.mem_map.1 hv
  cases e
  exact ⟨m', v', hm', hv', rfl⟩

theorem hasSchema_mapFloats {p : Position} {s : DS X} (h : (t.mapFloats g).HasSchema p s) :
    ∃ s', t.HasSchema p s' ∧ s = s'.mapFloats g := by
  have opt : ∀ {o : Option (DS X)} {s}, o.map (Schema.mapFloats g) = some s → ∃ s', o = some s' ∧ s = s'.mapFloats g := by
    intro o s h
    obtain ⟨s', h', rfl⟩ := Option.map_eq_some_iff.1 h
    exact ⟨s', h', rfl⟩
  cases h with
  | property hm hp => obtain ⟨_, _, hm', hp', rfl⟩ := mem_vals hm hp; exact ⟨_, .property hm' hp', rfl⟩
  | input hm hp e => obtain ⟨_, _, hm', hp', rfl⟩ := mem_vals hm hp; obtain ⟨_, e', rfl⟩ := opt e; exact ⟨_, .input hm' hp' e', rfl⟩
  | output hm hp e => obtain ⟨_, _, hm', hp', rfl⟩ := mem_vals hm hp; obtain ⟨_, e', rfl⟩ := opt e; exact ⟨_, .output hm' hp' e', rfl⟩
  | subscription hm hp e =>
    obtain ⟨_, _, hm', hp', rfl⟩ := mem_vals hm hp; obtain ⟨_, e', rfl⟩ := opt e; exact ⟨_, .subscription hm' hp' e', rfl⟩
  | data hm hp e => obtain ⟨_, _, hm', hp', rfl⟩ := mem_vals hm hp; obtain ⟨_, e', rfl⟩ := opt e; exact ⟨_, .data hm' hp' e', rfl⟩
  | cancellation hm hp e =>
    obtain ⟨_, _, hm', hp', rfl⟩ := mem_vals hm hp; obtain ⟨_, e', rfl⟩ := opt e; exact ⟨_, .cancellation hm' hp' e', rfl⟩
  | dataResponse hm hp e =>
    obtain ⟨_, _, hm', hp', rfl⟩ := mem_vals hm hp; obtain ⟨_, e', rfl⟩ := opt e; exact ⟨_, .dataResponse hm' hp' e', rfl⟩
  | uriVariable hm hp => obtain ⟨_, _, hm', hp', rfl⟩ := mem_vals hm hp; exact ⟨_, .uriVariable hm' hp', rfl⟩
  | propertyUriVariable hm hp hu hk =>
    obtain ⟨_, _, hm', hp', rfl⟩ := mem_vals hm hp
    obtain ⟨_, _, hu', hk', rfl⟩ := mem_vals hu hk
    exact ⟨_, .propertyUriVariable hm' hp' hu' hk', rfl⟩
  | actionUriVariable hm hp hu hk =>
    obtain ⟨_, _, hm', hp', rfl⟩ := mem_vals hm hp
    obtain ⟨_, _, hu', hk', rfl⟩ := mem_vals hu hk
    exact ⟨_, .actionUriVariable hm' hp' hu' hk', rfl⟩
  | eventUriVariable hm hp hu hk =>
    obtain ⟨_, _, hm', hp', rfl⟩ := mem_vals hm hp
    obtain ⟨_, _, hu', hk', rfl⟩ := mem_vals hu hk
    exact ⟨_, .eventUriVariable hm' hp' hu' hk', rfl⟩
  | schemaDefinition hm hp => obtain ⟨_, _, hm', hp', rfl⟩ := mem_vals hm hp; exact ⟨_, .schemaDefinition hm' hp', rfl⟩

theorem vals_mem {V : Type} {w : V → V} {o : Option (HMap V)} {m : HMap V} {n : String} {v : V}
    (hm : o = some m) (hv : (n, v) ∈ m) : o.map (HMap.mapVals w) = some (HMap.mapVals w m) ∧ (n, w v) ∈ HMap.mapVals w m :=
  ⟨by rw [hm]; rfl, List.mem_map.2 ⟨_, hv, rfl⟩⟩

theorem hasForm_mapFloats {ctx : FormContext} {f : Form X} : (t.mapFloats g).HasForm ctx f ↔ t.HasForm ctx f := by
  constructor <;> intro h
  · cases h with
    | thing hm hf => exact .thing hm hf
    | property hm hp hf => obtain ⟨_, _, hm', hp', rfl⟩ := mem_vals hm hp; exact .property hm' hp' hf
    | action hm hp hf => obtain ⟨_, _, hm', hp', rfl⟩ := mem_vals hm hp; exact .action hm' hp' hf
    | event hm hp hf => obtain ⟨_, _, hm', hp', rfl⟩ := mem_vals hm hp; exact .event hm' hp' hf
  · cases h with
    | thing hm hf => exact .thing hm hf
    | property hm hp hf => obtain ⟨hm', hp'⟩ := vals_mem (w := PropertyAffordance.mapFloats g) hm hp; exact .property hm' hp' hf
    | action hm hp hf => obtain ⟨hm', hp'⟩ := vals_mem (w := ActionAffordance.mapFloats g) hm hp; exact .action hm' hp' hf
    | event hm hp hf => obtain ⟨hm', hp'⟩ := vals_mem (w := EventAffordance.mapFloats g) hm hp; exact .event hm' hp' hf

/-! ### What is lost -/

theorem number_mapFloats {L DSx AS OS : Type} {s : Schema L DSx AS OS} {n : NumberSchema} (h : (s.mapFloats g).subtype = some (.number n)) :
    ∃ n', s.subtype = some (.number n') ∧ n = n'.mapFloats g := by
  rw [mapFloats_subtype] at h
  obtain ⟨st, h1, h2⟩ := Option.map_eq_some_iff.1 h
  obtain ⟨st', h3, rfl⟩ := Option.map_eq_some_iff.1 h1
  cases st' <;> simp only [SubtypeF.map, SubtypeF.mapFloats, SubtypeF.number.injEq, reduceCtorEq] at h2
  subst h2
  exact ⟨_, h3, rfl⟩

theorem schemaLossless_mapFloats (hg : ∀ x, (g x).isFinite = x.isFinite) {L DSx AS OS : Type} {s : Schema L DSx AS OS}
    (h : SchemaLossless s) : SchemaLossless (s.mapFloats g) where
  constant e := by
    rw [mapFloats_head] at e
    obtain ⟨w, hw, e⟩ := Option.map_eq_some_iff.1 e
    exact h.constant (of_mapFloats_null e ▸ hw)
  default e := by
    rw [mapFloats_head] at e
    obtain ⟨w, hw, e⟩ := Option.map_eq_some_iff.1 e
    exact h.default (of_mapFloats_null e ▸ hw)
  maximum n b hn hb := by
    obtain ⟨n', hn', rfl⟩ := number_mapFloats hn
    obtain ⟨b', hb', rfl⟩ := Option.map_eq_some_iff.1 hb
    have := h.maximum n' b' hn' hb'
    cases b' <;> exact (hg _).trans this
  minimum n b hn hb := by
    obtain ⟨n', hn', rfl⟩ := number_mapFloats hn
    obtain ⟨b', hb', rfl⟩ := Option.map_eq_some_iff.1 hb
    have := h.minimum n' b' hn' hb'
    cases b' <;> exact (hg _).trans this
  multipleOf n f hn hf := by
    obtain ⟨n', hn', rfl⟩ := number_mapFloats hn
    obtain ⟨f', hf', rfl⟩ := Option.map_eq_some_iff.1 hf
    exact (hg _).trans (h.multipleOf n' f' hn' hf')

theorem lossless_mapFloats (hg : ∀ x, (g x).isFinite = x.isFinite) (h : t.Lossless) : (t.mapFloats g).Lossless where
  schemas p s x hs hx := by
    obtain ⟨s', hs', rfl⟩ := hasSchema_mapFloats hs
    obtain ⟨y, hy, rfl⟩ := within_mapFloats hx
    exact schemaLossless_mapFloats hg (h.schemas p s' y hs' hy)
  forms ctx f hf := h.forms ctx f (hasForm_mapFloats.1 hf)
  properties m hm kv hkv := by
    obtain ⟨_, p, hm, hp, e⟩ := mem_vals hm hkv
    have := h.properties _ hm _ hp
    rw [e]
    exact ⟨by simpa [PropertyAffordance.mapFloats, mapFloats_head, Interaction.mapFloats, SchemaHead.mapFloats] using this.attype,
      by simpa [PropertyAffordance.mapFloats, mapFloats_head, Interaction.mapFloats, SchemaHead.mapFloats] using this.title,
      by simpa [PropertyAffordance.mapFloats, mapFloats_head, Interaction.mapFloats, SchemaHead.mapFloats] using this.titles,
      by simpa [PropertyAffordance.mapFloats, mapFloats_head, Interaction.mapFloats, SchemaHead.mapFloats] using this.description,
      by simpa [PropertyAffordance.mapFloats, mapFloats_head, Interaction.mapFloats, SchemaHead.mapFloats] using this.descriptions⟩
  security kv hkv scheme e := by
    obtain ⟨u, hu, rfl⟩ := List.mem_map.1 hkv
    have e : u.2.subtype.mapFloats g = .unknown scheme .null := e
    cases hs : u.2.subtype with
    | known k => rw [hs] at e; cases e
    | unknown sc data =>
      rw [hs] at e
      injection e with e1 e2
      exact h.security u hu sc (by rw [hs, of_mapFloats_null e2])

/-! ### One function after another -/

theorem json_mapFloats_comp (f g : F64 → F64) (j : Json) : (j.mapFloats f).mapFloats g = j.mapFloats fun x => g (f x) := by
  induction j using Json.ind with
  | hnull => rfl
  | hbool b => rfl
  | hnum n => cases n <;> rfl
  | hstr s => rfl
  | harr l ih =>
    rw [mapFloats_arr, mapFloats_arr, mapFloats_arr, List.map_map]
    exact congrArg Json.arr (List.map_congr_left fun c hc => ih c hc)
  | hobj m ih =>
    rw [mapFloats_obj, mapFloats_obj, mapFloats_obj, HMap.mapVals, HMap.mapVals, HMap.mapVals, List.map_map]
    exact congrArg Json.obj (List.map_congr_left fun kv hkv => congrArg (Prod.mk kv.1) (ih kv hkv))

theorem optMap_comp {α : Type} {f g h : α → α} (e : ∀ a, g (f a) = h a) (o : Option α) : (o.map f).map g = o.map h := by
  cases o with
  | none => rfl
  | some a => exact congrArg some (e a)

theorem listMap_comp {α : Type} {f g h : α → α} (e : ∀ a, g (f a) = h a) (l : List α) : (l.map f).map g = l.map h := by
  rw [List.map_map]; exact List.map_congr_left fun a _ => e a

theorem mapVals_comp {V : Type} {f g h : V → V} (e : ∀ a, g (f a) = h a) (m : HMap V) :
    HMap.mapVals g (HMap.mapVals f m) = HMap.mapVals h m := by
  unfold HMap.mapVals
  rw [List.map_map]; exact List.map_congr_left fun a _ => congrArg (Prod.mk a.1) (e a.2)

theorem subtype_map_congr {AS OS S S' : Type} {F G : S → S'} (st : SubtypeF AS OS S) (h : ∀ c ∈ st.children, F c = G c) :
    st.map F = st.map G := by
  rcases st with ⟨_ | (_ | _), _, _, _⟩ | _ | _ | _ | ⟨_ | _, _, _⟩ | _ | _ <;>
    simp_all [SubtypeF.map, SubtypeF.children, ElemOrVec.toList, ElemOrVec.map, HMap.values, HMap.mapVals]
  exact fun a b hb => h b a hb

theorem subtype_map_map {AS OS S S' S'' : Type} (F : S → S') (G : S' → S'') (st : SubtypeF AS OS S) :
    (st.map F).map G = st.map fun c => G (F c) := by
  rcases st with ⟨_ | (_ | _), _, _, _⟩ | _ | _ | _ | ⟨_ | _, _, _⟩ | _ | _ <;>
    simp [SubtypeF.map, ElemOrVec.map, HMap.mapVals]

theorem subtype_map_id {AS OS S : Type} (st : SubtypeF AS OS S) : st.map (fun c => c) = st := by
  rcases st with ⟨_ | (_ | _), _, _, _⟩ | _ | _ | _ | ⟨_ | _, _, _⟩ | _ | _ <;>
    simp [SubtypeF.map, ElemOrVec.map, HMap.mapVals]

theorem schema_mapFloats_comp {L DSx AS OS : Type} (f g : F64 → F64) (s : Schema L DSx AS OS) :
    (s.mapFloats f).mapFloats g = s.mapFloats fun x => g (f x) := by
  have js := json_mapFloats_comp f g
  induction s using Schema.ind with
  | h hd o st ih1 ih2 =>
    rw [mapFloats_eq, mapFloats_head, mapFloats_oneOf, mapFloats_subtype, mapFloats_eq (g := fun x => g (f x))]
    congr 1
    · simp only [SchemaHead.mapFloats, Schema.head, optMap_comp js, optMap_comp (listMap_comp js)]
    · show Option.map _ (Option.map _ o) = Option.map _ o
      cases o with
      | none => rfl
      | some l =>
        simp only [Option.map_some, List.map_map]
        exact congrArg some (List.map_congr_left fun c hc => ih1 l rfl c hc)
    · show Option.map _ (Option.map _ (Option.map _ (Option.map _ st))) = Option.map _ (Option.map _ st)
      cases st with
      | none => rfl
      | some st =>
        have ih := ih2 st rfl
        simp only [Option.map_some]
        refine congrArg some ?_
        cases st with
        | number n =>
          simp only [SubtypeF.map, SubtypeF.mapFloats, NumberSchema.mapFloats, optMap_comp (fun _ => rfl : ∀ a, g (f a) = _)]
          rw [optMap_comp (h := Maximum.map fun x => g (f x)) (by intro a; cases a <;> rfl),
            optMap_comp (h := Minimum.map fun x => g (f x)) (by intro a; cases a <;> rfl)]
        | array a => exact (subtype_map_map _ _ _).trans (subtype_map_congr _ ih)
        | object a => exact (subtype_map_map _ _ _).trans (subtype_map_congr _ ih)
        | _ => rfl

theorem Thing.mapFloats_comp (f g : F64 → F64) (t : Thing X) : (t.mapFloats f).mapFloats g = t.mapFloats fun x => g (f x) := by
  have js := json_mapFloats_comp f g
  have ss := fun s : DS X => schema_mapFloats_comp f g s
  have is : ∀ i : Interaction X, (i.mapFloats f).mapFloats g = i.mapFloats fun x => g (f x) := fun i => by
    simp only [Interaction.mapFloats, optMap_comp (mapVals_comp ss)]
  have ps : ∀ i : PropertyAffordance X, (i.mapFloats f).mapFloats g = i.mapFloats fun x => g (f x) := fun i => by
    simp only [PropertyAffordance.mapFloats, is, ss]
  have as : ∀ i : ActionAffordance X, (i.mapFloats f).mapFloats g = i.mapFloats fun x => g (f x) := fun i => by
    simp only [ActionAffordance.mapFloats, is, optMap_comp ss]
  have es : ∀ i : EventAffordance X, (i.mapFloats f).mapFloats g = i.mapFloats fun x => g (f x) := fun i => by
    simp only [EventAffordance.mapFloats, is, optMap_comp ss]
  have sec : ∀ s : SecurityScheme, (s.mapFloats f).mapFloats g = s.mapFloats fun x => g (f x) := fun s => by
    unfold SecurityScheme.mapFloats
    cases s.subtype with
    | known k => rfl
    | unknown scheme data => simp only [SchemeSubtype.mapFloats, js]
  simp only [Thing.mapFloats, js, optMap_comp (mapVals_comp ps), optMap_comp (mapVals_comp as), optMap_comp (mapVals_comp es),
    mapVals_comp sec, optMap_comp (mapVals_comp ss)]

theorem json_mapFloats_id (j : Json) : j.mapFloats (fun x => x) = j := by
  induction j using Json.ind with
  | hnull => rfl
  | hbool b => rfl
  | hnum n => cases n <;> rfl
  | hstr s => rfl
  | harr l ih => rw [mapFloats_arr]; exact congrArg Json.arr ((List.map_congr_left ih).trans (List.map_id' l))
  | hobj m ih =>
    rw [mapFloats_obj]
    exact congrArg Json.obj ((List.map_congr_left fun kv hkv => congrArg (Prod.mk kv.1) (ih kv hkv)).trans (List.map_id' m))

theorem optMap_same {α : Type} {f : α → α} (e : ∀ a, f a = a) (o : Option α) : o.map f = o := by
  cases o with
  | none => rfl
  | some a => exact congrArg some (e a)

theorem listMap_same {α : Type} {f : α → α} (e : ∀ a, f a = a) (l : List α) : l.map f = l :=
  (List.map_congr_left fun a _ => e a).trans (List.map_id' l)

theorem mapVals_same {V : Type} {f : V → V} (e : ∀ a, f a = a) (m : HMap V) : HMap.mapVals f m = m :=
  (List.map_congr_left fun a _ => congrArg (Prod.mk a.1) (e a.2)).trans (List.map_id' m)

theorem schema_mapFloats_id {L DSx AS OS : Type} (s : Schema L DSx AS OS) : s.mapFloats (fun x => x) = s := by
  have js := json_mapFloats_id
  induction s using Schema.ind with
  | h hd o st ih1 ih2 =>
    rw [mapFloats_eq]
    congr 1
    · simp only [SchemaHead.mapFloats, Schema.head, optMap_same js, optMap_same (listMap_same js)]
    · show Option.map _ o = o
      cases o with
      | none => rfl
      | some l => exact congrArg some ((List.map_congr_left (ih1 l rfl)).trans (List.map_id' l))
    · show Option.map _ (Option.map _ st) = st
      cases st with
      | none => rfl
      | some st =>
        have e := (subtype_map_congr st (ih2 st rfl)).trans (subtype_map_id st)
        simp only [Option.map_some]
        rw [e]
        refine congrArg some ?_
        cases st with
        | number n =>
          simp only [SubtypeF.mapFloats, NumberSchema.mapFloats, optMap_same (fun _ : F64 => rfl)]
          rw [optMap_same (f := Maximum.map fun x => x) (by intro a; cases a <;> rfl),
            optMap_same (f := Minimum.map fun x => x) (by intro a; cases a <;> rfl)]
        | _ => rfl

theorem Thing.mapFloats_id (t : Thing X) : t.mapFloats (fun x => x) = t := by
  have js := json_mapFloats_id
  have ss := fun s : DS X => schema_mapFloats_id s
  have is : ∀ i : Interaction X, i.mapFloats (fun x => x) = i := fun i => by
    simp only [Interaction.mapFloats, optMap_same (mapVals_same ss)]
  have ps : ∀ i : PropertyAffordance X, i.mapFloats (fun x => x) = i := fun i => by
    simp only [PropertyAffordance.mapFloats, is, ss]
  have as : ∀ i : ActionAffordance X, i.mapFloats (fun x => x) = i := fun i => by
    simp only [ActionAffordance.mapFloats, is, optMap_same ss]
  have es : ∀ i : EventAffordance X, i.mapFloats (fun x => x) = i := fun i => by
    simp only [EventAffordance.mapFloats, is, optMap_same ss]
  have sec : ∀ s : SecurityScheme, s.mapFloats (fun x => x) = s := fun s => by
    obtain ⟨_, _, _, _, st⟩ := s
    unfold SecurityScheme.mapFloats
    cases st with
    | known k => rfl
    | unknown scheme data => simp only [SchemeSubtype.mapFloats, js]
  simp only [Thing.mapFloats, js, optMap_same (mapVals_same ps), optMap_same (mapVals_same as), optMap_same (mapVals_same es),
    mapVals_same sec, optMap_same (mapVals_same ss)]

/-! ### Information twice -/

theorem repeats_mapFloats {p : PropertyAffordance X} : (p.mapFloats g).RepeatsInfo ↔ p.RepeatsInfo := by
  simp only [PropertyAffordance.RepeatsInfo, PropertyAffordance.mapFloats, Interaction.mapFloats, mapFloats_head, SchemaHead.mapFloats]

theorem twice_mapFloats {m : Members} {k : String} (h : occ k m ≠ []) : occ k (HMap.mapVals (Json.mapFloats g) m) ≠ [] := by
  rw [occ_mapVals]
  simpa using h

/-- A property whose interaction and schema both carry some information is not read back from text, whatever becomes of its
floats. -/
theorem property_twice_mapFloats {p : PropertyAffordance X} {j : Json} (hr : p.RepeatsInfo)
    (hj : serProperty C env.toEnv p = some j) : deProperty C env (j.mapFloats g) = none := by
  simp only [serProperty, bind, pure, Option.bind_eq_some_iff] at hj
  obtain ⟨m, h1, s, h2, other, h3, e⟩ := hj
  injection e with e
  subst e
  obtain ⟨pi⟩ := InteractionParts.of h1
  obtain ⟨ps⟩ := SchemaParts.of h2
  have inI : ∀ {k : String} {v : Json}, (k, some v) ∈ _ → occ k m ≠ [] := fun h => by
    rw [congrArg (occ _) pi.eq, occ_append]
    exact fun e => occ_members h (List.append_eq_nil_iff.1 e).1
  have inS : ∀ {k : String} {v : Json}, (k, some v) ∈ _ → occ k s ≠ [] := fun h => by
    rw [congrArg (occ _) ps.eq, occ_append, occ_append]
    exact fun e => occ_members h (List.append_eq_nil_iff.1 (List.append_eq_nil_iff.1 e).1).1
  rw [mapFloats_obj, mapFloats_append, mapFloats_append, mapFloats_append]
  have twice : ∀ (k : String) {α : Type} (de : Json → Option α), k ≠ "observable" → occ k m ≠ [] →
      occ k s ≠ [] → optional k de (rest ["observable"] (HMap.mapVals (Json.mapFloats g) m ++ HMap.mapVals (Json.mapFloats g) s ++
        HMap.mapVals (Json.mapFloats g) (members [("observable", p.observable.map Json.bool)]) ++
        HMap.mapVals (Json.mapFloats g) other)) = none := by
    intro k α de hk h1 h2
    have := optional_twice (de := de) (HMap.mapVals (Json.mapFloats g) (members [("observable", p.observable.map Json.bool)]) ++
      HMap.mapVals (Json.mapFloats g) other) (twice_mapFloats (g := g) h1) (twice_mapFloats (g := g) h2)
    unfold optional defaulted at this ⊢
    rw [occ_rest, if_neg (by simpa using hk), List.append_assoc]
    exact this
  cases hd : deProperty C env _ with
  | none => rfl
  | some q =>
    exfalso
    simp only [deProperty, deInteraction, bind, pure, Option.bind_eq_some_iff] at hd
    obtain ⟨_, _, _, ⟨_, d1, _, d2, _, d3, _, d4, _, d5, _⟩, _⟩ := hd
    rcases hr with ⟨h, h'⟩ | ⟨h, h'⟩ | ⟨h, h'⟩ | ⟨h, h'⟩ | ⟨h, h'⟩ <;>
      obtain ⟨a, ha⟩ := Option.isSome_iff_exists.1 h <;>
      obtain ⟨b, hb⟩ := Option.isSome_iff_exists.1 h'
    · have := twice "@type" deStrings (by decide) (inI (v := serStrings a) (by simp [ha])) (inS (v := serStrings b) (by simp [hb]))
      rw [d1] at this; cases this
    · have := twice "title" deStr (by decide) (inI (v := .str a) (by simp [ha])) (inS (v := .str b) (by simp [hb]))
      rw [d2] at this; cases this
    · have := twice "titles" (deLang env) (by decide) (inI (v := serLang env.toEnv a) (by simp [ha])) (inS (v := serLang env.toEnv b) (by simp [hb]))
      rw [d3] at this; cases this
    · have := twice "description" deStr (by decide) (inI (v := .str a) (by simp [ha])) (inS (v := .str b) (by simp [hb]))
      rw [d4] at this; cases this
    · have := twice "descriptions" (deLang env) (by decide) (inI (v := serLang env.toEnv a) (by simp [ha])) (inS (v := serLang env.toEnv b) (by simp [hb]))
      rw [d5] at this; cases this

/-- Nor is a Thing with such a property. -/
theorem thing_twice_mapFloats {j : Json} {m : HMap (PropertyAffordance X)}
    {kv : String × PropertyAffordance X} (hm : t.properties = some m) (hkv : kv ∈ m)
    (hr : kv.2.RepeatsInfo) (hj : serThing C env t = some j) : deThing C env (j.mapFloats g) = none := by
  simp only [serThing, bind, pure, Option.bind_eq_some_iff] at hj
  obtain ⟨created, hcr, modified, hmo, properties, hpr, actions, hac, events, hev, forms, hfo,
    secs, hsec, uris, huri, schemas, hsch, other, ho, e⟩ := hj
  injection e with e
  subst e
  rw [hm] at hpr
  obtain ⟨jp, hjp, rfl⟩ := Option.map_eq_some_iff.1 hpr
  obtain ⟨ms, hms, rfl⟩ := Option.map_eq_some_iff.1 hjp
  obtain ⟨jkv, hjkv, hk, hser⟩ := (mapOptVals_eq_some.1 hms).of_mem_left kv
    ((env.iter_perm m).mem_iff.2 hkv)
  have hno := property_twice_mapFloats (g := g) hr hser
  have hin : ∀ L, ("properties", some (Json.obj ms)) ∈ L →
      ∀ l, occ "properties" (HMap.mapVals (Json.mapFloats g) (members L ++ other)) = l →
        Json.obj (HMap.mapVals (Json.mapFloats g) ms) ∈ l := by
    rintro L hL _ rfl
    rw [occ_mapVals, occ_append]
    exact List.mem_map.2 ⟨_, List.mem_append_left _ (mem_occ.2 (List.mem_filterMap.2 ⟨_, hL, rfl⟩)), mapFloats_obj ms⟩
  rw [mapFloats_obj]
  cases hd : deThing C env _ with
  | none => rfl
  | some q =>
    exfalso
    simp only [deThing, bind, pure, Option.bind_eq_some_iff] at hd
    obtain ⟨_, _, _, _, _, _, _, _, _, _, _, _, _, _, _, _, _, _, _, _, _, _, _, _, ps, hps, _⟩ := hd
    unfold optional defaulted at hps
    split at hps
    · next e =>
      have hin := hin _ (by simp) _ e
      cases hin
    · next v e =>
      have hin := hin _ (by simp) _ e
      rw [List.mem_singleton] at hin
      subst hin
      simp only [deOption, deMap, Option.map_eq_some_iff] at hps
      obtain ⟨_, ⟨l, hl, _⟩, _⟩ := hps
      obtain ⟨b, _, _, hb⟩ := (mapOptVals_eq_some.1 hl).of_mem_left _ (mem_mapFloats (g := g) (k := jkv.1) (v := jkv.2) hjkv)
      rw [hno] at hb
      cases hb
    · cases hps

/-! ### The texts of serde_json -/

theorem again_finite (x : F64) : (serdeJson.again x).isFinite = x.isFinite := by
  unfold FloatText.again
  cases hf : x.isFinite with
  | false => exact hf
  | true =>
    obtain ⟨y, h, -⟩ := float_back (mag_finite.1 hf)
    have h : serdeJson.read (serdeJson.write x) = some y := h
    rw [if_pos rfl, h]
    exact readFloat_finite h

theorem again_read {x : F64} (hf : x.isFinite = true) : serdeJson.read (serdeJson.write x) = some (serdeJson.again x) := by
  obtain ⟨y, h, -⟩ := float_back (mag_finite.1 hf)
  have h : serdeJson.read (serdeJson.write x) = some y := h
  unfold FloatText.again
  rw [if_pos hf, h]; rfl

theorem again_keeps {x : F64} (h : serdeJson.Keeps x) : serdeJson.again x = x := by
  obtain ⟨_, _, _, _, -, -, -, -, -, -, h⟩ := h
  unfold FloatText.again
  rw [h]
  split <;> rfl

theorem again_json {j : Json} (h : j.NumbersKept serdeJson) : j.mapFloats serdeJson.again = j := by
  induction j using Json.ind with
  | hnull => rfl
  | hbool b => rfl
  | hnum n =>
    cases n with
    | pos n => rfl
    | neg n => rfl
    | float f => exact congrArg (fun x => Json.num (.float x)) (again_keeps (h (.float f) .here))
  | hstr s => rfl
  | harr l ih =>
    rw [mapFloats_arr]
    exact congrArg Json.arr ((List.map_congr_left fun c hc => ih c hc fun n hn => h n (.element hc hn)).trans (List.map_id' l))
  | hobj m ih =>
    rw [mapFloats_obj]
    exact congrArg Json.obj ((List.map_congr_left fun kv hkv =>
      congrArg (Prod.mk kv.1) (ih kv hkv fun n hn => h n (.member hkv hn))).trans (List.map_id' m))

theorem again_fixed (h : C.NumbersKept serdeJson) : C.Fixed serdeJson.again := by
  have key : ∀ {A : Type} {c : ExtCodec A}, (∀ a, c.NumbersKept serdeJson a) → c.Fixed serdeJson.again := by
    intro A c h a es he
    exact (List.map_congr_left fun kv hkv => congrArg (Prod.mk kv.1) (again_json (h a es he kv hkv))).trans (List.map_id' es)
  exact ⟨key h.dataSchema, key h.arraySchema, key h.objectSchema, key h.form, key h.response, key h.interaction, key h.property,
    key h.action, key h.event, key h.thing⟩

theorem parse_again {j : Json} (hj : j.NumbersInRange) :
    Json.parse serdeJson (String.ofList (j.compact serdeJson)) = some (j.mapFloats serdeJson.again) ∧
    Json.parse serdeJson (String.ofList (j.pretty serdeJson 0)) = some (j.mapFloats serdeJson.again) := by
  have hn : ∀ n, NumberIn n j → NumberText serdeJson (n.mapFloat serdeJson.again) (n.text serdeJson) := by
    intro n hn
    have hr := hj n hn
    cases n with
    | pos n => exact number_text (n := .pos n) hr
    | neg n => exact number_text (n := .neg n) hr
    | float x =>
      obtain ⟨sign, ds, fr, ex, he, hs, hi, hf, hex, hne, -⟩ := exact_lawful.keeps x hr
      have he : serdeJson.write x = sign ++ ds ++ fr ++ ex := he
      have := again_read (x := x) hr
      simp only [JNum.text, JNum.mapFloat]
      rw [he] at this ⊢
      exact .float hs hi hf hex hne this
  exact ⟨parse_iff.2 ⟨[], _, [], space_nil, compact_moved j hn, space_nil, by simp⟩,
    parse_iff.2 ⟨[], _, [], space_nil, pretty_moved j 0 hn, space_nil, by simp⟩⟩

theorem inRange_of_kept {j : Json} (h : j.NumbersKept serdeJsonExact) : j.NumbersInRange := by
  intro n hn
  have := h n hn
  cases n with
  | pos n => exact this
  | neg n => exact this
  | float f =>
    obtain ⟨_, _, _, _, -, -, -, -, -, -, h⟩ := this
    exact exact_lawful.finite _ _ h

/-- What is read from either string of a Thing is read from its tree, after reading its floats again. -/
theorem load_again {j : Json} (hj : toText C env t = some j) (hd : j.nesting ≤ 127) (hr : j.NumbersInRange) {text : String}
    (hs : t.toString C env serdeJson = some text ∨ t.toStringPretty C env serdeJson = some text) :
    (Thing.fromString C env serdeJson text : Option (Thing X)) = fromText C env (j.mapFloats serdeJson.again) := by
  obtain ⟨p1, p2⟩ := parse_again hr
  have e : Json.parse serdeJson text = some (j.mapFloats serdeJson.again) := by
    rcases hs with hs | hs
    · rw [Thing.toString, hj] at hs; cases hs; exact p1
    · rw [Thing.toStringPretty, hj] at hs; cases hs; exact p2
  rw [fromString_parse e]
  unfold fromStr
  exact if_pos (Nat.le_trans (nesting_counted _) (by rw [nesting_mapFloats]; exact hd))

theorem stored_again (sep : C.Separate) (once : C.WriteOnce) (hc : C.NumbersKept serdeJson) (hk : Kept env C t)
    (hi : ∀ ps, t.properties = some ps → ∀ kv ∈ ps, ¬ kv.2.RepeatsInfo) {j : Json} (hj : toText C env t = some j) :
    fromText C env (j.mapFloats serdeJson.again) = some (t.mapFloats serdeJson.again).stored := by
  have hk' := hk.mapFloats (g := serdeJson.again)
  obtain ⟨j', hj', e⟩ := float_written again_finite (again_fixed hc) hk.maps hk'.maps hj
  exact thing_stored sep hk' hj' _ ⟨noDup_mapFloats (noDup_thing sep once hk hi hj), e⟩

/-- The tree of the Thing that has been read is no deeper, and its numbers are in range. -/
theorem tree_again (sep : C.Separate) (once : C.WriteOnce) (hc : C.NumbersKept serdeJson) (hk : Kept env C t)
    (hi : ∀ ps, t.properties = some ps → ∀ kv ∈ ps, ¬ kv.2.RepeatsInfo) {j : Json} (hj : toText C env t = some j)
    (hr : j.NumbersInRange) :
    (∀ ps, (t.mapFloats serdeJson.again).properties = some ps → ∀ kv ∈ ps, ¬ kv.2.RepeatsInfo) ∧
    ∃ j', toText C env (t.mapFloats serdeJson.again) = some j' ∧ j'.nesting = j.nesting ∧ j'.NumbersInRange := by
  have hk' := hk.mapFloats (g := serdeJson.again)
  have hi' : ∀ ps, (t.mapFloats serdeJson.again).properties = some ps → ∀ kv ∈ ps, ¬ kv.2.RepeatsInfo := by
    intro ps hps kv hkv
    obtain ⟨_, p, hm, hp, e⟩ := mem_vals hps hkv
    rw [e, repeats_mapFloats]
    exact hi _ hm _ hp
  obtain ⟨j', hj', e⟩ := float_written again_finite (again_fixed hc) hk.maps hk'.maps hj
  have d := noDup_thing sep once hk hi hj
  have d' := noDup_thing sep once hk' hi' hj'
  refine ⟨hi', j', hj', ?_, fun n hn => ?_⟩
  · rw [← nesting_norm d', ← e, nesting_norm (noDup_mapFloats d), nesting_mapFloats]
  · have := numberIn_norm_of hn d'
    rw [← e] at this
    exact Json.NumbersInRange.norm (inRange_mapFloats again_finite hr) n this

end
end Wot
