import Verif.Spec.Unordered
import Verif.Lemmas.Reread
import Verif.Lemmas.BuiltStorable
import Verif.Lemmas.Edits
import Verif.Lemmas.Unreadable
/-
What is written does not depend on the order in which maps are iterated, up to the order of members.
-/
namespace Wot

theorem alike_bind {A A' B B' : Type} {n : A → A'} {k : B → B'} {a a' : Option A} {g g' : A → Option B}
    (ha : a.map n = a'.map n) (hg : ∀ x x', n x = n x' → (g x).map k = (g' x').map k) :
    (a.bind g).map k = (a'.bind g').map k := by
  cases a with
  | none =>
    cases a' with
    | none => rfl
    | some x' => cases ha
  | some x =>
    cases a' with
    | none => cases ha
    | some x' => exact hg x x' (Option.some.inj ha)

theorem alike_same {A B B' : Type} {k : B → B'} {a : Option A} {g g' : A → Option B}
    (hg : ∀ x, (g x).map k = (g' x).map k) : (a.bind g).map k = (a.bind g').map k := by
  cases a with
  | none => rfl
  | some x => exact hg x

theorem normMembers_members (l : List (String × Option Json)) :
    Json.normMembers (members l) = members (l.map fun kv => (kv.1, kv.2.map Json.norm)) := by
  induction l with
  | nil => rfl
  | cons kv l ih =>
    obtain ⟨k, v⟩ := kv
    rw [List.map_cons, members_cons, members_cons]
    cases v with
    | none => exact ih
    | some v => show (k, v.norm) :: Json.normMembers (members l) = _; rw [ih]; rfl

theorem normMembers_append (a b : Members) :
    Json.normMembers (a ++ b) = Json.normMembers a ++ Json.normMembers b := by
  simp only [normMembers_eq, HMap.mapVals, List.map_append]

theorem norm_obj {a b : Members} (h : Json.normMembers a = Json.normMembers b) :
    (Json.obj a).norm = (Json.obj b).norm := by simp only [Json.norm, h]

theorem mapOpt_alike {A B B' : Type} {f : A → Option B} {n : B → B'} (l : List A) :
    (mapOpt f l).map (List.map n) = mapOpt (fun a => (f a).map n) l := by
  induction l with
  | nil => rfl
  | cons a l ih =>
    rw [mapOpt_cons, mapOpt_cons, ← ih]
    cases f a with
    | none => rfl
    | some b => cases mapOpt f l <;> rfl

theorem mapOpt_perm {A B : Type} {f : A → Option B} {l l' : List A} (h : l.Perm l') :
    (mapOpt f l = none ∧ mapOpt f l' = none) ∨
      ∃ m m', mapOpt f l = some m ∧ mapOpt f l' = some m' ∧ m.Perm m' := by
  by_cases hf : ∀ a ∈ l, ∃ b, f a = some b
  · obtain ⟨m, hm⟩ := can_mapOpt.2 hf
    obtain ⟨m', hm'⟩ := can_mapOpt.2 fun a ha => hf a (h.mem_iff.2 ha)
    refine .inr ⟨m, m', hm, hm', ?_⟩
    have e : ∀ l m, mapOpt f l = some m → m = l.filterMap f := by
      intro l
      induction l with
      | nil => rintro m ⟨⟩; rfl
      | cons a l ih =>
        intro m h
        rw [mapOpt] at h
        cases ha : f a with
        | none => simp [ha] at h
        | some b =>
          cases hl : mapOpt f l with
          | none => simp [ha, hl] at h
          | some bs =>
            simp only [ha, hl, Option.some.injEq] at h
            rw [← h, List.filterMap_cons, ha, ih bs hl]
    rw [e l m hm, e l' m' hm']
    exact h.filterMap f
  · simp only [Classical.not_forall, not_exists] at hf
    obtain ⟨a, ha, hf⟩ := hf
    have hn : f a = none := by
      cases h : f a with
      | none => rfl
      | some b => exact absurd h (hf b)
    exact .inl ⟨mapOpt_none ha hn, mapOpt_none (h.mem_iff.1 ha) hn⟩

/-- What is written for the map with the given values, members sorted. -/
def canonical (m : HMap (Option Json)) : Option Json := (mapOptVals id m).map .obj

theorem serMap_canonical {A : Type} (env : Env) (f : A → Option Json) {m : HMap A} (hm : m.Sorted) :
    (serMap env f m).map Json.norm = canonical (m.mapVals fun a => (f a).map Json.norm) := by
  have e : ∀ l : List (String × A), (mapOptVals f l).map Json.normMembers =
      mapOptVals (fun a => (f a).map Json.norm) l := by
    intro l
    have := mapOpt_alike (f := fun kv : String × A => (f kv.2).map fun b => (kv.1, b))
      (n := fun kv : String × Json => (kv.1, kv.2.norm)) l
    unfold mapOptVals
    refine Eq.trans ?_ (this.trans ?_)
    · congr 1; funext m; rw [normMembers_eq]; rfl
    · congr 1; funext kv; rw [Option.map_map, Option.map_map]; rfl
  have e' : mapOptVals id (m.mapVals fun a => (f a).map Json.norm) =
      mapOptVals (fun a => (f a).map Json.norm) m := by
    unfold mapOptVals HMap.mapVals
    rw [mapOpt_map]
    rfl
  have e'' : (serMap env f m).map Json.norm =
      ((mapOptVals f (env.iter m)).map Json.normMembers).map fun l => Json.obj (HMap.collect l) := by
    unfold serMap
    rw [Option.map_map, Option.map_map]
    rfl
  rw [e'', e, canonical, e']
  rcases mapOpt_perm (f := fun kv : String × A => ((f kv.2).map Json.norm).map fun b => (kv.1, b))
    (env.iter_perm m) with ⟨h1, h2⟩ | ⟨l, l', h1, h2, hp⟩
  · unfold mapOptVals; rw [h1, h2]; rfl
  · have hk := (mapOptVals_eq_some (f := fun a => (f a).map Json.norm)).1 h2
    have hs : HMap.Sorted l' := by
      have : l'.map (·.1) = m.map (·.1) := by
        clear h1 h2 hp hm e' e''
        induction hk with
        | nil => rfl
        | cons h _ ih => rw [List.map_cons, List.map_cons, ih, h.1]
      rw [HMap.Sorted, ← List.pairwise_map (f := fun kv : String × Json => kv.1) (R := (· < ·)), this,
        List.pairwise_map]
      exact hm
    unfold mapOptVals
    rw [h1, h2, Option.map_some, Option.map_some,
      HMap.collect_perm hp ((hp.map _).nodup_iff.2 hs.nodup), HMap.collect_of_sorted hs]

theorem serMap_alike {A : Type} {e e' : Env} {f f' : A → Option Json} {m : HMap A} (hm : m.Sorted)
    (h : ∀ kv ∈ m, (f kv.2).map Json.norm = (f' kv.2).map Json.norm) :
    (serMap e f m).map Json.norm = (serMap e' f' m).map Json.norm := by
  rw [serMap_canonical _ _ hm, serMap_canonical _ _ hm]
  congr 1
  exact List.map_congr_left fun kv hkv => by simp only [h kv hkv]

theorem optOpt_alike {A : Type} {f f' : A → Option Json} {o : Option A}
    (h : ∀ a, o = some a → (f a).map Json.norm = (f' a).map Json.norm) :
    (optOpt f o).map (Option.map Json.norm) = (optOpt f' o).map (Option.map Json.norm) := by
  cases o with
  | none => rfl
  | some a =>
    have e : ∀ o : Option Json, (o.map some).map (Option.map Json.norm) = (o.map Json.norm).map some := by
      intro o; cases o <;> rfl
    simp only [optOpt]
    rw [e, e, h a rfl]

theorem optMap_alike {A : Type} {e e' : Env} {f f' : A → Option Json} {o : Option (HMap A)}
    (hm : ∀ m, o = some m → m.Sorted)
    (h : ∀ m, o = some m → ∀ kv ∈ m, (f kv.2).map Json.norm = (f' kv.2).map Json.norm) :
    (optOpt (serMap e f) o).map (Option.map Json.norm) = (optOpt (serMap e' f') o).map (Option.map Json.norm) :=
  optOpt_alike fun m hm' => serMap_alike (hm m hm') (h m hm')

theorem serLang_alike (e e' : Env) {m : MultiLanguage} (hm : m.map.Sorted) :
    (serLang e m).norm = (serLang e' m).norm := by
  have h : ∀ e : Env, (serLang e m).norm = .obj (m.map.mapVals Json.str) := by
    intro e
    have : ∀ l : HMap String, Json.normMembers (l.map fun kv => (kv.1, Json.str kv.2)) = l.mapVals Json.str := by
      intro l
      rw [normMembers_eq]
      simp only [HMap.mapVals, List.map_map]
      rfl
    show Json.obj (HMap.collect (Json.normMembers _)) = _
    rw [this]
    have hp : (HMap.mapVals Json.str (e.iter m.map)).Perm (m.map.mapVals Json.str) := (e.iter_perm m.map).map _
    rw [HMap.collect_perm hp ((hp.map _).nodup_iff.2 (hm.mapVals Json.str).nodup),
      HMap.collect_of_sorted (hm.mapVals _)]
  rw [h, h]

theorem lang_alike (e e' : Env) {o : Option MultiLanguage} (hm : ∀ m, o = some m → m.map.Sorted) :
    (o.map (serLang e)).map Json.norm = (o.map (serLang e')).map Json.norm := by
  cases o with
  | none => rfl
  | some m => simp only [Option.map_some, serLang_alike e e' (hm m rfl)]

/-- Members lists with the same values up to order within the values. -/
theorem members_alike {L L' : List (String × Option Json)}
    (h : L.map (fun kv => (kv.1, kv.2.map Json.norm)) = L'.map fun kv => (kv.1, kv.2.map Json.norm)) :
    Json.normMembers (members L) = Json.normMembers (members L') := by
  rw [normMembers_members, normMembers_members, h]

/-! ### Schemas -/

section
variable {DSx AS OS : Type} {C : ExtCodec DSx} {CA : ExtCodec AS} {CO : ExtCodec OS} {e e' : Env}

/-- What the type `HashMap` guarantees of one schema. -/
def NodeMaps (x : DataSchema DSx AS OS) : Prop :=
  (∀ m, x.head.titles = some m → m.map.Sorted) ∧ (∀ m, x.head.descriptions = some m → m.map.Sorted) ∧
    ∀ o m, x.subtype = some (.object o) → o.properties = some m → HMap.Sorted m

theorem subtype_alike {st : SubtypeF AS OS (DataSchema DSx AS OS)}
    (hm : ∀ o m, st = .object o → o.properties = some m → HMap.Sorted m)
    (h : ∀ c ∈ st.children, (serSchema C CA CO e c).map Json.norm = (serSchema C CA CO e' c).map Json.norm) :
    (serSchemaSubtype CA CO e (st.map (serSchema C CA CO e))).map Json.normMembers =
      (serSchemaSubtype CA CO e' (st.map (serSchema C CA CO e'))).map Json.normMembers := by
  have cons : ∀ (a b : Option Members) (k : String) (v : Json),
      a.map Json.normMembers = b.map Json.normMembers →
      (a.map fun m => (k, v) :: m).map Json.normMembers = (b.map fun m => (k, v) :: m).map Json.normMembers := by
    intro a b k v hab
    have e : ∀ a : Option Members, (a.map fun m => (k, v) :: m).map Json.normMembers =
        (a.map Json.normMembers).map fun m => (k, v.norm) :: m := by intro a; cases a <;> rfl
    rw [e, e, hab]
  cases st with
  | array a =>
    refine cons _ _ _ _ ?_
    unfold serArray
    refine alike_bind (n := Option.map Json.norm) ?_ fun x x' hx => alike_same fun o => ?_
    · show (optOpt serItems (a.items.map (ElemOrVec.map (serSchema C CA CO e)))).map _ =
        (optOpt serItems (a.items.map (ElemOrVec.map (serSchema C CA CO e')))).map _
      cases hi : a.items with
      | none => rfl
      | some i =>
        have : (serItems (i.map (serSchema C CA CO e))).map Json.norm =
            (serItems (i.map (serSchema C CA CO e'))).map Json.norm := by
          cases i with
          | elem c => exact h c (by simp [SubtypeF.children, hi, ElemOrVec.toList])
          | vec l =>
            have e1 : ∀ l : List (Option Json), ((mapOpt id l).map Json.arr).map Json.norm =
                (mapOpt (fun o => o.map Json.norm) l).map Json.arr := by
              intro l
              have := mapOpt_alike (f := (id : Option Json → Option Json)) (n := Json.norm) l
              simp only [id] at this
              rw [← this, Option.map_map, Option.map_map]
              congr 1; funext l; simp [Json.norm, normList_eq]
            simp only [ElemOrVec.map, serItems]
            rw [e1, e1, mapOpt_map, mapOpt_map]
            congr 1
            exact mapOpt_congr fun c hc => h c (by simp [SubtypeF.children, hi, ElemOrVec.toList, hc])
        simp only [Option.map_some, optOpt]
        have e : ∀ o : Option Json, (o.map some).map (Option.map Json.norm) = (o.map Json.norm).map some := by
          intro o; cases o <;> rfl
        rw [e, e, this]
    · show some _ = some _
      rw [normMembers_append, normMembers_append]
      congr 2
      exact members_alike (by simp only [List.map_cons, hx])
  | object o =>
    refine cons _ _ _ _ ?_
    unfold serObject
    refine alike_bind (n := Option.map Json.norm) ?_ fun x x' hx => alike_same fun o => ?_
    · show (optOpt (serMap e id) (o.properties.map (HMap.mapVals (serSchema C CA CO e)))).map _ =
        (optOpt (serMap e' id) (o.properties.map (HMap.mapVals (serSchema C CA CO e')))).map _
      cases ho : o.properties with
      | none => rfl
      | some m =>
        have hs := hm o m rfl ho
        have : (serMap e id (HMap.mapVals (serSchema C CA CO e) m)).map Json.norm =
            (serMap e' id (HMap.mapVals (serSchema C CA CO e') m)).map Json.norm := by
          rw [serMap_canonical _ _ (hs.mapVals _), serMap_canonical _ _ (hs.mapVals _)]
          congr 1
          simp only [HMap.mapVals, List.map_map]
          refine List.map_congr_left fun kv hkv => ?_
          simp only [Function.comp, id]
          rw [h kv.2 (by simp only [SubtypeF.children, ho]; exact List.mem_map_of_mem hkv)]
        simp only [Option.map_some, optOpt]
        have e : ∀ o : Option Json, (o.map some).map (Option.map Json.norm) = (o.map Json.norm).map some := by
          intro o; cases o <;> rfl
        rw [e, e, this]
    · show some _ = some _
      rw [normMembers_append, normMembers_append]
      congr 2
      exact members_alike (by simp only [List.map_cons, hx])
  | boolean => rfl
  | number n => rfl
  | integer n => rfl
  | string n => rfl
  | null => rfl

theorem schemaMembers_alike {s : DataSchema DSx AS OS} (hm : NodeMaps s)
    (h1 : ∀ l, s.oneOf = some l → ∀ c ∈ l,
      (serSchema C CA CO e c).map Json.norm = (serSchema C CA CO e' c).map Json.norm)
    (h2 : ∀ st, s.subtype = some st → ∀ c ∈ st.children,
      (serSchema C CA CO e c).map Json.norm = (serSchema C CA CO e' c).map Json.norm) :
    (serSchemaMembers C CA CO e s).map Json.normMembers = (serSchemaMembers C CA CO e' s).map Json.normMembers := by
  unfold serSchemaMembers serSchemaStep
  refine alike_bind (n := Option.map Json.norm) ?_ fun x x' hx =>
    alike_bind (n := Option.map Json.normMembers) ?_ fun y y' hy => alike_same fun o => ?_
  · cases ho : s.oneOf with
    | none => rfl
    | some l =>
      have e1 : ∀ l : List (Option Json), ((mapOpt id l).map Json.arr).map Json.norm =
          (mapOpt (fun o => o.map Json.norm) l).map Json.arr := by
        intro l
        have := mapOpt_alike (f := (id : Option Json → Option Json)) (n := Json.norm) l
        simp only [id] at this
        rw [← this, Option.map_map, Option.map_map]
        congr 1; funext l; simp [Json.norm, normList_eq]
      simp only [Option.map_some, optOpt]
      have e : ∀ o : Option Json, (o.map some).map (Option.map Json.norm) = (o.map Json.norm).map some := by
        intro o; cases o <;> rfl
      rw [e, e, e1, e1, mapOpt_map, mapOpt_map]
      congr 2
      exact mapOpt_congr fun c hc => h1 l ho c hc
  · cases hs : s.subtype with
    | none => rfl
    | some st =>
      simp only [Option.map_some, optOpt]
      have e : ∀ o : Option Members, (o.map some).map (Option.map Json.normMembers) =
          (o.map Json.normMembers).map some := by
        intro o; cases o <;> rfl
      rw [e, e, subtype_alike (fun o m ho => hm.2.2 o m (by rw [hs, ho])) (h2 st hs)]
  · show some _ = some _
    have hy' : Json.normMembers (y.getD []) = Json.normMembers (y'.getD []) := by
      cases y <;> cases y' <;> simp_all
    simp only [normMembers_append, hy']
    congr 3
    exact members_alike (by simp only [List.map_cons, hx, lang_alike e e' hm.1, lang_alike e e' hm.2.1])

theorem serSchema_alike {s : DataSchema DSx AS OS} (hm : ∀ x, Within x s → NodeMaps x) :
    (serSchema C CA CO e s).map Json.norm = (serSchema C CA CO e' s).map Json.norm := by
  induction s using Schema.ind with
  | h hd o st ih1 ih2 =>
    have := schemaMembers_alike (C := C) (CA := CA) (CO := CO) (e := e) (e' := e') (hm _ (.self _))
      (fun l hl c hc => ih1 l hl c hc fun x hx => hm x (within_iff.2 (.inr (.inl ⟨l, hl, c, hc, hx⟩))))
      (fun st' hst c hc => ih2 st' hst c hc fun x hx =>
          hm x (within_iff.2 (.inr (.inr ⟨st', hst, c, hc, hx⟩))))
    have e1 : ∀ e : Env, (serSchema C CA CO e (.mk hd o st)).map Json.norm =
        ((serSchemaMembers C CA CO e (.mk hd o st)).map Json.normMembers).map
          fun m => Json.obj (HMap.collect m) := by
      intro e
      rw [serSchema, Schema.fold_mk, Option.map_map, Option.map_map]
      rfl
    rw [e1, e1, this]

end

/-! ### Things -/

variable {X : ExtTypes} {C : ExtCodecs X} {e e' : Env}

/-- What the type `HashMap` guarantees of all schemas in a schema. -/
abbrev DSMaps (s : DS X) : Prop := ∀ x, Within x s → NodeMaps x

theorem ds_alike {o : Option (DS X)} (h : ∀ s, o = some s → DSMaps s) :
    (optOpt (serDS C e) o).map (Option.map Json.norm) = (optOpt (serDS C e') o).map (Option.map Json.norm) :=
  optOpt_alike fun s hs => serSchema_alike (h s hs)

theorem schemas_alike {o : Option (HMap (DS X))} (hs : ∀ m, o = some m → m.Sorted)
    (h : ∀ m, o = some m → ∀ kv ∈ m, DSMaps kv.2) :
    (optOpt (serMap e (serDS C e)) o).map (Option.map Json.norm) =
      (optOpt (serMap e' (serDS C e')) o).map (Option.map Json.norm) :=
  optMap_alike hs fun m hm kv hkv => serSchema_alike (h m hm kv hkv)

/-- The same of an affordance. -/
structure InteractionMaps (i : Interaction X) : Prop where
  titles : ∀ m, i.titles = some m → m.map.Sorted
  descriptions : ∀ m, i.descriptions = some m → m.map.Sorted
  uriVariables : ∀ m, i.uriVariables = some m → m.Sorted
  schemas : ∀ m, i.uriVariables = some m → ∀ kv ∈ m, DSMaps kv.2

theorem interaction_alike {i : Interaction X} (h : InteractionMaps i) :
    (serInteraction C e i).map Json.normMembers = (serInteraction C e' i).map Json.normMembers := by
  unfold serInteraction
  refine alike_same fun forms => alike_bind (n := Option.map Json.norm)
    (schemas_alike h.uriVariables h.schemas) fun x x' hx => alike_same fun o => ?_
  show some _ = some _
  rw [normMembers_append, normMembers_append]
  congr 2
  exact members_alike (by
    simp only [List.map_cons, hx, lang_alike e e' h.titles, lang_alike e e' h.descriptions])

theorem property_alike {p : PropertyAffordance X} (h : InteractionMaps p.interaction) (hs : DSMaps p.dataSchema) :
    (serProperty C e p).map Json.norm = (serProperty C e' p).map Json.norm := by
  unfold serProperty
  refine alike_bind (n := Json.normMembers) (interaction_alike h) fun x x' hx =>
    alike_bind (n := Json.normMembers) ?_ fun y y' hy => alike_same fun o => ?_
  · refine schemaMembers_alike (hs _ (.self _))
      (fun l hl c hc => serSchema_alike fun x hx => hs x (within_iff.2 (.inr (.inl ⟨l, hl, c, hc, hx⟩))))
      (fun st hst c hc => serSchema_alike fun x hx => hs x (within_iff.2 (.inr (.inr ⟨st, hst, c, hc, hx⟩))))
  · show some _ = some _
    exact congrArg some (norm_obj (by simp only [normMembers_append, hx, hy]))

theorem action_alike {a : ActionAffordance X} (h : InteractionMaps a.interaction)
    (h1 : ∀ s, a.input = some s → DSMaps s) (h2 : ∀ s, a.output = some s → DSMaps s) :
    (serAction C e a).map Json.norm = (serAction C e' a).map Json.norm := by
  unfold serAction
  refine alike_bind (n := Json.normMembers) (interaction_alike h) fun x x' hx =>
    alike_bind (n := Option.map Json.norm) (ds_alike h1) fun y y' hy =>
    alike_bind (n := Option.map Json.norm) (ds_alike h2) fun z z' hz => alike_same fun o => ?_
  show some _ = some _
  refine congrArg some (norm_obj ?_)
  simp only [normMembers_append, hx]
  congr 2
  exact members_alike (by simp only [List.map_cons, hy, hz])

theorem event_alike {a : EventAffordance X} (h : InteractionMaps a.interaction)
    (h1 : ∀ s, a.subscription = some s → DSMaps s) (h2 : ∀ s, a.data = some s → DSMaps s)
    (h3 : ∀ s, a.dataResponse = some s → DSMaps s) (h4 : ∀ s, a.cancellation = some s → DSMaps s) :
    (serEvent C e a).map Json.norm = (serEvent C e' a).map Json.norm := by
  unfold serEvent
  refine alike_bind (n := Json.normMembers) (interaction_alike h) fun x x' hx =>
    alike_bind (n := Option.map Json.norm) (ds_alike h1) fun y y' hy =>
    alike_bind (n := Option.map Json.norm) (ds_alike h2) fun z z' hz =>
    alike_bind (n := Option.map Json.norm) (ds_alike h3) fun v v' hv =>
    alike_bind (n := Option.map Json.norm) (ds_alike h4) fun w w' hw => alike_same fun o => ?_
  show some _ = some _
  refine congrArg some (norm_obj ?_)
  simp only [normMembers_append, hx]
  congr 2
  exact members_alike (by simp only [List.map_cons, hy, hz, hv, hw])

theorem security_alike {s : SecurityScheme} (h : ∀ m, s.descriptions = some m → m.map.Sorted) :
    (serSecurity e s).map Json.norm = (serSecurity e' s).map Json.norm := by
  unfold serSecurity
  cases serSubtype s.subtype with
  | none => rfl
  | some m =>
    show some _ = some _
    refine congrArg some (norm_obj ?_)
    simp only [normMembers_append]
    congr 1
    exact members_alike (by simp only [List.map_cons, lang_alike e e' h])

theorem Thing.Maps.node {t : Thing X} (h : t.Maps) {p : Position} {s : DS X} (hs : t.HasSchema p s) : DSMaps s :=
  fun x hx => ⟨fun m hm => h.translations m (.schemaTitles hs hx hm),
    fun m hm => h.translations m (.schemaDescriptions hs hx hm), h.schemas p s x hs hx⟩

theorem Thing.Maps.interaction {t : Thing X} (h : t.Maps) {i : Interaction X} (hi : t.HasInteraction i)
    (hu : ∀ m, i.uriVariables = some m → ∀ kv ∈ m, ∃ p, t.HasSchema p kv.2) : InteractionMaps i :=
  ⟨fun m hm => h.translations m (.interactionTitles hi hm),
    fun m hm => h.translations m (.interactionDescriptions hi hm), h.interactions i hi,
    fun m hm kv hkv => let ⟨_, h'⟩ := hu m hm kv hkv; h.node h'⟩

theorem serThing_alike {env env' : SerdeEnv} (ht : env.timeFormat = env'.timeFormat) {t : Thing X} (h : t.Maps) :
    (serThing C env t).map Json.norm = (serThing C env' t).map Json.norm := by
  unfold serThing
  rw [ht]
  refine alike_same fun created => alike_same fun modified => ?_
  refine alike_bind (n := Option.map Json.norm) (optMap_alike h.properties fun m hm kv hkv => property_alike
    (h.interaction (.property hm hkv) fun u hu kv' hkv' => ⟨_, .propertyUriVariable hm hkv hu hkv'⟩)
    (h.node (.property hm hkv))) fun p p' hp => ?_
  refine alike_bind (n := Option.map Json.norm) (optMap_alike h.actions fun m hm kv hkv => action_alike
    (h.interaction (.action hm hkv) fun u hu kv' hkv' => ⟨_, .actionUriVariable hm hkv hu hkv'⟩)
    (fun s hs => h.node (.input hm hkv hs)) (fun s hs => h.node (.output hm hkv hs))) fun a a' ha => ?_
  refine alike_bind (n := Option.map Json.norm) (optMap_alike h.events fun m hm kv hkv => event_alike
    (h.interaction (.event hm hkv) fun u hu kv' hkv' => ⟨_, .eventUriVariable hm hkv hu hkv'⟩)
    (fun s hs => h.node (.subscription hm hkv hs)) (fun s hs => h.node (.data hm hkv hs))
    (fun s hs => h.node (.dataResponse hm hkv hs)) (fun s hs => h.node (.cancellation hm hkv hs)))
    fun v v' hv => ?_
  refine alike_same fun forms => ?_
  refine alike_bind (n := Json.norm) (serMap_alike h.securityDefinitions fun kv hkv =>
    security_alike fun m hm => h.translations m (.security hkv hm)) fun d d' hd => ?_
  refine alike_bind (n := Option.map Json.norm) (schemas_alike h.uriVariables fun m hm kv hkv =>
    h.node (.uriVariable hm hkv)) fun u u' hu => ?_
  refine alike_bind (n := Option.map Json.norm) (schemas_alike h.schemaDefinitions fun m hm kv hkv =>
    h.node (.schemaDefinition hm hkv)) fun s s' hs => ?_
  refine alike_same fun o => ?_
  show some _ = some _
  refine congrArg some (norm_obj ?_)
  simp only [normMembers_append]
  congr 1
  exact members_alike (by
    simp only [List.map_cons, hp, ha, hv, hd, hu, hs, Option.map_some,
      lang_alike env.toEnv env'.toEnv fun m hm => h.translations m (.titles hm),
      lang_alike env.toEnv env'.toEnv fun m hm => h.translations m (.descriptions hm)])

/-! ### Reading -/

section
variable {DSx AS OS : Type} {CD : ExtCodec DSx} {CA : ExtCodec AS} {CO : ExtCodec OS} {e e' : Env}
  {a : String → Option String} {b b' : OffsetDateTime → Option String} {c : String → Option OffsetDateTime}

theorem deSchemaN_unordered (n : Nat) :
    deSchemaN CD CA CO ⟨e, a, b, c⟩ n = deSchemaN CD CA CO ⟨e', a, b', c⟩ n := by
  induction n with
  | zero => rfl
  | succ n ih =>
    funext j
    cases j with
    | obj es => unfold deSchemaN; rw [ih]; rfl
    | _ => rfl

theorem deSchema_unordered : deSchema CD CA CO ⟨e, a, b, c⟩ = deSchema CD CA CO ⟨e', a, b', c⟩ := by
  funext j; exact congrFun (deSchemaN_unordered j.depth) j

theorem deInteraction_unordered : deInteraction C ⟨e, a, b, c⟩ = deInteraction C ⟨e', a, b', c⟩ := by
  funext es; unfold deInteraction deDS; rw [deSchema_unordered (e' := e') (b' := b')]; rfl

theorem deProperty_unordered : deProperty C ⟨e, a, b, c⟩ = deProperty C ⟨e', a, b', c⟩ := by
  funext j
  cases j with
  | obj es =>
    unfold deProperty deDS
    rw [deSchema_unordered (e' := e') (b' := b'), deInteraction_unordered (e' := e') (b' := b')]; rfl
  | _ => rfl

theorem deAction_unordered : deAction C ⟨e, a, b, c⟩ = deAction C ⟨e', a, b', c⟩ := by
  funext j
  cases j with
  | obj es =>
    unfold deAction deDS
    rw [deSchema_unordered (e' := e') (b' := b'), deInteraction_unordered (e' := e') (b' := b')]
  | _ => rfl

theorem deEvent_unordered : deEvent C ⟨e, a, b, c⟩ = deEvent C ⟨e', a, b', c⟩ := by
  funext j
  cases j with
  | obj es =>
    unfold deEvent deDS
    rw [deSchema_unordered (e' := e') (b' := b'), deInteraction_unordered (e' := e') (b' := b')]
  | _ => rfl

end

/-! ### Where Things come from -/

theorem Reachable.maps {title : String} {h : List (ThingOp X)} {b : ThingBuilder X} {env : Env} {t : Thing X}
    (hr : Reachable X title h b) (hb : b.build env = .ok t) : t.Maps := by
  have hw := hr.wf
  have hres := ((hr.ok_iff env t).1 hb).2
  refine { translations := ?_, schemas := ?_, interactions := ?_, properties := ?_, actions := ?_, events := ?_,
           securityDefinitions := ?_, uriVariables := ?_, schemaDefinitions := ?_ }
  · intro m hm
    obtain ⟨u, -, rfl⟩ := (hr.hasTranslations hb).1 hm
    exact HMap.collect_sorted _
  · intro p s x hs hx o m ho hm
    obtain ⟨u, hu, rfl⟩ := (hr.hasSchema hb).1 hs
    obtain ⟨y, hy, rfl⟩ := within_mapLang.1 hx
    have hrep := (hw.schemas u (hr.anySchema.2 ⟨p, hu⟩) y hy).2.2
    rw [mapLang_subtype] at ho
    obtain ⟨st, hst, he⟩ := Option.map_eq_some_iff.1 ho
    cases st <;> simp only [SubtypeF.map, SubtypeF.object.injEq, reduceCtorEq] at he
    subst he
    obtain ⟨m', hm', rfl⟩ := Option.map_eq_some_iff.1 hm
    exact (hrep _ _ hst hm').mapVals _
  · intro i hi m hm
    cases hi with
    | @property l n p hp hkv =>
      obtain ⟨q, hq, e⟩ := (hr.hasProperty hb).1 ⟨l, hp, hkv⟩
      rw [e] at hm
      exact sorted_interactionResult
        (hw.propertyUriVariables n q (by rw [hr.properties]; exact History.mem_properties.2 hq)) hm
    | @action l n p hp hkv =>
      obtain ⟨q, hq, e⟩ := (hr.hasAction hb).1 ⟨l, hp, hkv⟩
      rw [e] at hm
      exact sorted_interactionResult
        (hw.actionUriVariables n q (by rw [hr.actions]; exact History.mem_actions.2 hq)) hm
    | @event l n p hp hkv =>
      obtain ⟨q, hq, e⟩ := (hr.hasEvent hb).1 ⟨l, hp, hkv⟩
      rw [e] at hm
      exact sorted_interactionResult
        (hw.eventUriVariables n q (by rw [hr.events]; exact History.mem_events.2 hq)) hm
  · exact fun m hm => sorted_mapResult (by rw [← hm, hres]; rfl)
  · exact fun m hm => sorted_mapResult (by rw [← hm, hres]; rfl)
  · exact fun m hm => sorted_mapResult (by rw [← hm, hres]; rfl)
  · rw [hres]; exact HMap.collect_sorted _
  · intro m hm
    rw [hres] at hm
    obtain ⟨m', hm', rfl⟩ := Option.map_eq_some_iff.1 hm
    exact (hw.uriVariables m' hm').mapVals _
  · intro m hm
    rw [hres] at hm
    simp only [ThingBuilder.result] at hm
    split at hm
    · cases hm
    · cases hm; exact hw.schemaDefinitions.mapVals _

theorem ThingFrom.maps {env : SerdeEnv} {P : Json → Prop} (hP : Hereditary P) (hs : env.Stable) {t : Thing X}
    (h : ThingFrom C env P t) : t.Maps := by
  obtain ⟨es, he, hr⟩ := h.self
  refine { translations := ?_, schemas := ?_, interactions := ?_, properties := fun m hm => (h.properties m hm).1,
           actions := fun m hm => (h.actions m hm).1, events := fun m hm => (h.events m hm).1,
           securityDefinitions := h.sorted, uriVariables := h.uriVariables,
           schemaDefinitions := h.schemaDefinitions }
  · intro m hm
    cases hm with
    | titles e => exact (lang_from hs hr.titles m e).1
    | descriptions e => exact (lang_from hs hr.descriptions m e).1
    | security hkv e =>
      obtain ⟨_, _, hr⟩ := h.security _ hkv
      exact (lang_from hs hr.descriptions m e).1
    | interactionTitles hi e =>
      obtain ⟨_, _, hr⟩ := h.interactions _ hi
      exact (lang_from hs hr.titles m e).1
    | interactionDescriptions hi e =>
      obtain ⟨_, _, hr⟩ := h.interactions _ hi
      exact (lang_from hs hr.descriptions m e).1
    | schemaTitles hs' hx e =>
      obtain ⟨_, _, hr⟩ := within_from hP hx (h.schemas _ _ hs')
      exact (lang_from hs hr.titles m e).1
    | schemaDescriptions hs' hx e =>
      obtain ⟨_, _, hr⟩ := within_from hP hx (h.schemas _ _ hs')
      exact (lang_from hs hr.descriptions m e).1
  · intro p s x hs hx o m ho hm
    obtain ⟨es, he, hr⟩ := within_from hP hx (h.schemas p s hs)
    obtain ⟨es', he', hr'⟩ := object_from hP (hP.rest _ he) (hr.subtype.trans ho)
    exact (optMap_from hP he' (hm ▸ hr'.properties)).1
  · intro i hi m hm
    obtain ⟨es, he, hr⟩ := h.interactions i hi
    exact ((interaction_parts hP he hr).2 m hm).1

end Wot
