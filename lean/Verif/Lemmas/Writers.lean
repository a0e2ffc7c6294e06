import Verif.Spec.Written
import Verif.Lemmas.Built
import Verif.Lemmas.Readers
import Verif.Lemmas.Unordered
/-
Helper lemmas for `Verif.Props.Readers`: what is written with other extensions.
-/
namespace Wot

namespace Reader

/-- What members amount to in a `serde_json::Value`. -/
abbrev val (m : Members) : Json := (Json.obj m).norm

theorem val_last {a b : Members} (h : val a = val b) (k : String) :
    (lastOf (occ k a)).map Json.norm = (lastOf (occ k b)).map Json.norm := by
  rw [← get?_norm, ← get?_norm]
  simp only [val, Json.norm, Json.obj.injEq] at h
  rw [h]

theorem val_append {a a' b b' : Members} (ha : val a = val a') (hb : val b = val b') : val (a ++ b) = val (a' ++ b') := by
  refine norm_obj_eq fun k => ?_
  rw [occ_append, occ_append, lastOf_append_list, lastOf_append_list]
  have h1 := val_last ha k
  have h2 := val_last hb k
  revert h1 h2
  cases lastOf (occ k b) <;> cases lastOf (occ k b') <;> simp [Option.or]

theorem val_members {L L' : List (String × Option Json)}
    (h : L.map (fun kv => (kv.1, kv.2.map Json.norm)) = L'.map fun kv => (kv.1, kv.2.map Json.norm)) :
    val (members L) = val (members L') := norm_obj (members_alike h)

theorem val_cons {k : String} {v : Json} {a b : Option Members} (h : a.map val = b.map val) :
    (a.map fun m => (k, v) :: m).map val = (b.map fun m => (k, v) :: m).map val := by
  cases a with
  | none => cases b with
    | none => rfl
    | some _ => cases h
  | some x => cases b with
    | none => cases h
    | some y =>
      have : val x = val y := Option.some.inj h
      exact congrArg some (val_append (a := [(k, v)]) rfl this)

theorem some_map {A B : Type} (n : A → B) (o : Option A) : (o.map some).map (Option.map n) = (o.map n).map some := by
  cases o <;> rfl

section
variable {A A' : Type} {f : A → Option Json} {f' : A' → Option Json} {G : A → A'}

theorem opt_write {o : Option A} (h : ∀ a, o = some a → (f' (G a)).map Json.norm = (f a).map Json.norm) :
    (optOpt f' (o.map G)).map (Option.map Json.norm) = (optOpt f o).map (Option.map Json.norm) := by
  cases o with
  | none => rfl
  | some a => simp only [Option.map_some, optOpt]; rw [some_map, some_map, h a rfl]

theorem map_write {e : Env} {m : HMap A} (hm : m.Sorted)
    (h : ∀ kv ∈ m, (f' (G kv.2)).map Json.norm = (f kv.2).map Json.norm) :
    (serMap e f' (HMap.mapVals G m)).map Json.norm = (serMap e f m).map Json.norm := by
  rw [serMap_canonical _ _ hm, serMap_canonical _ _ (hm.mapVals _)]
  congr 1
  simp only [HMap.mapVals, List.map_map]
  exact List.map_congr_left fun kv hkv => by simp only [Function.comp, h kv hkv]

theorem optMap_write {e : Env} {o : Option (HMap A)} (hm : ∀ m, o = some m → m.Sorted)
    (h : ∀ m, o = some m → ∀ kv ∈ m, (f' (G kv.2)).map Json.norm = (f kv.2).map Json.norm) :
    (optOpt (serMap e f') (o.map (HMap.mapVals G))).map (Option.map Json.norm) =
      (optOpt (serMap e f) o).map (Option.map Json.norm) :=
  opt_write fun m hm' => map_write (hm m hm') (h m hm')

theorem list_write {l : List A} (h : ∀ a ∈ l, (f' (G a)).map Json.norm = (f a).map Json.norm) :
    (mapOpt f' (l.map G)).map (List.map Json.norm) = (mapOpt f l).map (List.map Json.norm) := by
  rw [mapOpt_map, mapOpt_alike, mapOpt_alike]
  exact mapOpt_congr h

theorem arr_write {l : List A} (h : ∀ a ∈ l, (f' (G a)).map Json.norm = (f a).map Json.norm) :
    ((mapOpt f' (l.map G)).map Json.arr).map Json.norm = ((mapOpt f l).map Json.arr).map Json.norm := by
  have e : ∀ o : Option (List Json), (o.map Json.arr).map Json.norm = (o.map (List.map Json.norm)).map Json.arr := by
    intro o
    cases o with
    | none => rfl
    | some l => simp [Json.norm, normList_eq]
  rw [e, e, list_write h]

end

/-! ### Data schemas -/

section
variable {DSx AS OS DSx' AS' OS' : Type} {C : ExtCodec DSx} {CA : ExtCodec AS} {CO : ExtCodec OS}
  {D : ExtCodec DSx'} {DA : ExtCodec AS'} {DO : ExtCodec OS'} {f : DSx → DSx'} {g : AS → AS'} {h : OS → OS'} {e : Env}

/-- What the type `HashMap` guarantees of the properties of one object schema. -/
def NodeSorted (x : DataSchema DSx AS OS) : Prop :=
  ∀ o m, x.subtype = some (.object o) → o.properties = some m → HMap.Sorted m

variable (C CA CO D DA DO f g h e) in
/-- The two programs write the schema alike. -/
abbrev Wrote (c : DataSchema DSx AS OS) : Prop :=
  (serSchema D DA DO e (c.withExt f g h)).map Json.norm = (serSchema C CA CO e c).map Json.norm

theorem subtype_write (hA : WritesAlike CA DA g) (hO : WritesAlike CO DO h)
    {st : SubtypeF AS OS (DataSchema DSx AS OS)} (hm : ∀ o m, st = .object o → o.properties = some m → HMap.Sorted m)
    (hc : ∀ c ∈ st.children, Wrote C CA CO D DA DO f g h e c) :
    (serSchemaSubtype DA DO e (((st.map (Schema.withExt f g h)).withExt g h).map (serSchema D DA DO e))).map val =
      (serSchemaSubtype CA CO e (st.map (serSchema C CA CO e))).map val := by
  cases st with
  | array a =>
    refine val_cons ?_
    unfold serArray
    refine alike_bind (n := Option.map Json.norm) ?_ fun x x' hx => alike_bind (n := val) (hA a.other) fun o o' ho => ?_
    · show (optOpt serItems ((a.items.map (ElemOrVec.map (Schema.withExt f g h))).map
        (ElemOrVec.map (serSchema D DA DO e)))).map _ = (optOpt serItems (a.items.map (ElemOrVec.map _))).map _
      cases hi : a.items with
      | none => rfl
      | some i =>
        simp only [Option.map_some, optOpt]
        rw [some_map, some_map]
        congr 1
        cases i with
        | elem c => exact hc c (by simp [SubtypeF.children, hi, ElemOrVec.toList])
        | vec l =>
          simp only [ElemOrVec.map, serItems]
          rw [List.map_map]
          refine Eq.trans ?_ (arr_write (f := id) (f' := id)
            (G := id) (l := l.map (serSchema C CA CO e)) fun a _ => rfl)
          rw [List.map_id, mapOpt_id_eq, mapOpt_id_eq]
          have := arr_write (f := serSchema C CA CO e) (f' := serSchema D DA DO e) (G := Schema.withExt f g h) (l := l)
            fun c hl => hc c (by simp [SubtypeF.children, hi, ElemOrVec.toList, hl])
          rw [mapOpt_map] at this
          exact this
    · show some _ = some _
      exact congrArg some (val_append (val_members (by simp only [List.map_cons, hx])) ho)
  | object o =>
    refine val_cons ?_
    unfold serObject
    refine alike_bind (n := Option.map Json.norm) ?_ fun x x' hx => alike_bind (n := val) (hO o.other) fun p p' hp => ?_
    · show (optOpt (serMap e id) ((o.properties.map (HMap.mapVals (Schema.withExt f g h))).map
        (HMap.mapVals (serSchema D DA DO e)))).map _ = (optOpt (serMap e id) (o.properties.map (HMap.mapVals _))).map _
      cases ho : o.properties with
      | none => rfl
      | some m =>
        have hs := hm o m rfl ho
        simp only [Option.map_some, optOpt]
        rw [some_map, some_map]
        congr 1
        have e1 := map_write (e := e) (f := fun c => serSchema D DA DO e (Schema.withExt f g h c)) (f' := id)
          (G := fun c => serSchema D DA DO e (Schema.withExt f g h c)) hs fun _ _ => rfl
        have e2 := map_write (e := e) (f := serSchema C CA CO e) (f' := id)
          (G := serSchema C CA CO e) hs fun _ _ => rfl
        have e0 : HMap.mapVals (serSchema D DA DO e) (HMap.mapVals (Schema.withExt f g h) m) =
            HMap.mapVals (fun c => serSchema D DA DO e (Schema.withExt f g h c)) m := by
          simp [HMap.mapVals]
        rw [e0, e1, e2]
        exact serMap_alike hs fun kv hkv => hc kv.2 (by
          simp only [SubtypeF.children, ho]; exact List.mem_map_of_mem hkv)
    · show some _ = some _
      exact congrArg some (val_append (val_members (by simp only [List.map_cons, hx])) hp)
  | boolean => rfl
  | number n => rfl
  | integer n => rfl
  | string n => rfl
  | null => rfl

theorem schemaMembers_write (hD : WritesAlike C D f) (hA : WritesAlike CA DA g) (hO : WritesAlike CO DO h)
    {s : DataSchema DSx AS OS} (hm : NodeSorted s)
    (h1 : ∀ l, s.oneOf = some l → ∀ c ∈ l, Wrote C CA CO D DA DO f g h e c)
    (h2 : ∀ st, s.subtype = some st → ∀ c ∈ st.children, Wrote C CA CO D DA DO f g h e c) :
    (serSchemaMembers D DA DO e (s.withExt f g h)).map val = (serSchemaMembers C CA CO e s).map val := by
  obtain ⟨hd, o, st⟩ := s
  rw [withExt_mk]
  unfold serSchemaMembers serSchemaStep
  refine alike_bind (n := Option.map Json.norm) ?_ fun x x' hx =>
    alike_bind (n := Option.map val) ?_ fun y y' hy => alike_bind (n := val) (hD hd.other) fun p p' hp => ?_
  · show (optOpt _ ((o.map (List.map (Schema.withExt f g h))).map _)).map _ = (optOpt _ (o.map _)).map _
    cases o with
    | none => rfl
    | some l =>
      simp only [Option.map_some, optOpt]
      rw [some_map, some_map, List.map_map, mapOpt_id_eq, mapOpt_id_eq]
      congr 1
      have := arr_write (f := serSchema C CA CO e) (f' := serSchema D DA DO e) (G := Schema.withExt f g h) (l := l)
        (h1 l rfl)
      rw [mapOpt_map] at this
      exact this
  · show (optOpt _ (((st.map (SubtypeF.map (Schema.withExt f g h))).map (SubtypeF.withExt g h)).map _)).map _ =
      (optOpt _ (st.map _)).map _
    cases st with
    | none => rfl
    | some st =>
      simp only [Option.map_some, optOpt]
      rw [some_map, some_map, subtype_write hA hO (fun o m ho => hm o m (congrArg some ho)) (h2 st rfl)]
  · show some _ = some _
    have hy' : val (y.getD []) = val (y'.getD []) := by
      cases y with
      | none => cases y' with
        | none => rfl
        | some _ => cases hy
      | some a => cases y' with
        | none => cases hy
        | some b => exact Option.some.inj hy
    exact congrArg some (val_append (val_append (val_members (by
      simp only [List.map_cons, hx, SchemaHead.withExt, Schema.head])) hy') hp)

theorem obj_write {a b : Option Members} (h : a.map val = b.map val) :
    (a.map Json.obj).map Json.norm = (b.map Json.obj).map Json.norm := by
  rw [Option.map_map, Option.map_map]; exact h

theorem schema_write (hD : WritesAlike C D f) (hA : WritesAlike CA DA g) (hO : WritesAlike CO DO h)
    {s : DataSchema DSx AS OS} (hm : ∀ x, Within x s → NodeSorted x) : Wrote C CA CO D DA DO f g h e s := by
  induction s using Schema.ind with
  | h hd o st ih1 ih2 =>
    have := schemaMembers_write (e := e) hD hA hO (hm _ (.self _))
      (fun l hl c hc => ih1 l hl c hc fun x hx => hm x (within_iff.2 (.inr (.inl ⟨l, hl, c, hc, hx⟩))))
      (fun st' hst c hc => ih2 st' hst c hc fun x hx =>
          hm x (within_iff.2 (.inr (.inr ⟨st', hst, c, hc, hx⟩))))
    have e2 : serSchema C CA CO e (.mk hd o st) = (serSchemaMembers C CA CO e (.mk hd o st)).map Json.obj := by
      rw [serSchema, Schema.fold_mk]; rfl
    have e1 : serSchema D DA DO e (Schema.withExt f g h (.mk hd o st)) =
        (serSchemaMembers D DA DO e (Schema.withExt f g h (.mk hd o st))).map Json.obj := by
      rw [withExt_mk, serSchema, Schema.fold_mk]; rfl
    unfold Wrote
    rw [e1, e2]
    exact obj_write this

end

/-! ### Things -/

variable {X Y Z : ExtTypes} {C : ExtCodecs X} {D : ExtCodecs Y} {E : ExtCodecs Z} {f : ExtMap X Y} {e : Env}

theorem DSMaps.sorted {s : DS X} (h : DSMaps s) : ∀ x, Within x s → NodeSorted x := fun x hx => (h x hx).2.2

section
variable (hf : f.Each WritesAlike C D)
include hf

theorem ds_write {s : DS X} (h : DSMaps s) : (serDS D e (DS.withExt f s)).map Json.norm = (serDS C e s).map Json.norm :=
  schema_write hf.dataSchema hf.arraySchema hf.objectSchema (DSMaps.sorted h)

theorem form_write (x : Form X) : (serForm D (x.withExt f)).map Json.norm = (serForm C x).map Json.norm := by
  unfold serForm
  refine alike_bind (n := Option.map Json.norm) ?_ fun r r' hr => alike_bind (n := val) (hf.form x.other) fun o o' ho => ?_
  · refine opt_write fun r _ => ?_
    have : ∀ {R : Type} (c : ExtCodec R) (r : ExpectedResponse R), serResponse c r =
        ((c.ser r.other).map fun m => ("contentType", Json.str r.contentType) :: m).map Json.obj := by
      intro R c r; rw [Option.map_map]; rfl
    rw [this, this]
    exact obj_write (val_cons (hf.response r.other))
  · show some _ = some _
    exact congrArg some (val_append (val_members (by simp only [List.map_cons, hr, Form.withExt])) ho)

theorem interaction_write {i : Interaction X} (h : InteractionMaps i) :
    (serInteraction D e (i.withExt f)).map val = (serInteraction C e i).map val := by
  unfold serInteraction
  refine alike_bind (n := List.map Json.norm) (list_write fun x _ => form_write hf x) fun l l' hl =>
    alike_bind (n := Option.map Json.norm)
      (optMap_write h.uriVariables fun m hm kv hkv => ds_write hf (h.schemas m hm kv hkv)) fun u u' hu =>
    alike_bind (n := val) (hf.interaction i.other) fun o o' ho => ?_
  show some _ = some _
  refine congrArg some (val_append (val_members ?_) ho)
  simp only [List.map_cons, hu, Interaction.withExt, Option.map_some, Json.norm, normList_eq, hl]

theorem property_write {p : PropertyAffordance X} (h : InteractionMaps p.interaction) (hs : DSMaps p.dataSchema) :
    (serProperty D e (p.withExt f)).map Json.norm = (serProperty C e p).map Json.norm := by
  unfold serProperty
  refine alike_bind (n := val) (interaction_write hf h) fun x x' hx => alike_bind (n := val) ?_ fun y y' hy =>
    alike_bind (n := val) (hf.property p.other) fun o o' ho => ?_
  · have hs' := DSMaps.sorted hs
    refine schemaMembers_write hf.dataSchema hf.arraySchema hf.objectSchema (hs' _ (.self _))
      (fun l hl c hc => schema_write hf.dataSchema hf.arraySchema hf.objectSchema
        fun x hx => hs' x (within_iff.2 (.inr (.inl ⟨l, hl, c, hc, hx⟩))))
      (fun st hst c hc => schema_write hf.dataSchema hf.arraySchema hf.objectSchema
        fun x hx => hs' x (within_iff.2 (.inr (.inr ⟨st, hst, c, hc, hx⟩))))
  · show some _ = some _
    exact congrArg some (val_append (val_append (val_append hx hy) rfl) ho)

theorem action_write {a : ActionAffordance X} (h : InteractionMaps a.interaction)
    (h1 : ∀ s, a.input = some s → DSMaps s) (h2 : ∀ s, a.output = some s → DSMaps s) :
    (serAction D e (a.withExt f)).map Json.norm = (serAction C e a).map Json.norm := by
  unfold serAction
  refine alike_bind (n := val) (interaction_write hf h) fun x x' hx =>
    alike_bind (n := Option.map Json.norm) (opt_write fun s hs => ds_write hf (h1 s hs)) fun y y' hy =>
    alike_bind (n := Option.map Json.norm) (opt_write fun s hs => ds_write hf (h2 s hs)) fun z z' hz =>
    alike_bind (n := val) (hf.action a.other) fun o o' ho => ?_
  show some _ = some _
  exact congrArg some (val_append (val_append hx (val_members (by
    simp only [List.map_cons, hy, hz, ActionAffordance.withExt]))) ho)

theorem event_write {a : EventAffordance X} (h : InteractionMaps a.interaction)
    (h1 : ∀ s, a.subscription = some s → DSMaps s) (h2 : ∀ s, a.data = some s → DSMaps s)
    (h3 : ∀ s, a.dataResponse = some s → DSMaps s) (h4 : ∀ s, a.cancellation = some s → DSMaps s) :
    (serEvent D e (a.withExt f)).map Json.norm = (serEvent C e a).map Json.norm := by
  unfold serEvent
  refine alike_bind (n := val) (interaction_write hf h) fun x x' hx =>
    alike_bind (n := Option.map Json.norm) (opt_write fun s hs => ds_write hf (h1 s hs)) fun y y' hy =>
    alike_bind (n := Option.map Json.norm) (opt_write fun s hs => ds_write hf (h2 s hs)) fun z z' hz =>
    alike_bind (n := Option.map Json.norm) (opt_write fun s hs => ds_write hf (h3 s hs)) fun v v' hv =>
    alike_bind (n := Option.map Json.norm) (opt_write fun s hs => ds_write hf (h4 s hs)) fun w w' hw =>
    alike_bind (n := val) (hf.event a.other) fun o o' ho => ?_
  show some _ = some _
  exact congrArg some (val_append (val_append hx (val_members (by
    simp only [List.map_cons, hy, hz, hv, hw]))) ho)

theorem thing_write {env : SerdeEnv} {t : Thing X} (h : t.Maps) :
    (serThing D env (t.withExt f)).map Json.norm = (serThing C env t).map Json.norm := by
  unfold serThing
  refine alike_same fun created => alike_same fun modified => ?_
  refine alike_bind (n := Option.map Json.norm) (optMap_write h.properties fun m hm kv hkv => property_write hf
    (h.interaction (.property hm hkv) fun u hu kv' hkv' => ⟨_, .propertyUriVariable hm hkv hu hkv'⟩)
    (h.node (.property hm hkv))) fun p p' hp => ?_
  refine alike_bind (n := Option.map Json.norm) (optMap_write h.actions fun m hm kv hkv => action_write hf
    (h.interaction (.action hm hkv) fun u hu kv' hkv' => ⟨_, .actionUriVariable hm hkv hu hkv'⟩)
    (fun s hs => h.node (.input hm hkv hs)) (fun s hs => h.node (.output hm hkv hs))) fun a a' ha => ?_
  refine alike_bind (n := Option.map Json.norm) (optMap_write h.events fun m hm kv hkv => event_write hf
    (h.interaction (.event hm hkv) fun u hu kv' hkv' => ⟨_, .eventUriVariable hm hkv hu hkv'⟩)
    (fun s hs => h.node (.subscription hm hkv hs)) (fun s hs => h.node (.data hm hkv hs))
    (fun s hs => h.node (.dataResponse hm hkv hs)) (fun s hs => h.node (.cancellation hm hkv hs)))
    fun v v' hv => ?_
  refine alike_bind (n := Option.map Json.norm) (opt_write fun l _ => arr_write fun x _ => form_write hf x)
    fun forms forms' hforms => ?_
  refine alike_same fun d => ?_
  refine alike_bind (n := Option.map Json.norm) (optMap_write h.uriVariables fun m hm kv hkv =>
    ds_write hf (h.node (.uriVariable hm hkv))) fun u u' hu => ?_
  refine alike_bind (n := Option.map Json.norm) (optMap_write h.schemaDefinitions fun m hm kv hkv =>
    ds_write hf (h.node (.schemaDefinition hm hkv))) fun s s' hs => ?_
  refine alike_bind (n := val) (hf.thing t.other) fun o o' ho => ?_
  show some _ = some _
  exact congrArg some (val_append (val_members (by
    simp only [List.map_cons, hp, ha, hv, hforms, hu, hs, Thing.withExt])) ho)

end

/-! ### Particular programs -/

theorem val_comm {a b : Members} (h : ∀ kv ∈ a, ∀ kv' ∈ b, kv.1 ≠ kv'.1) : val (a ++ b) = val (b ++ a) := by
  refine norm_obj_eq fun k => ?_
  rw [occ_append, occ_append, lastOf_append_list, lastOf_append_list]
  cases ha : lastOf (occ k a) with
  | none => cases lastOf (occ k b) <;> rfl
  | some v =>
    cases hb : lastOf (occ k b) with
    | none => rfl
    | some w => exact absurd rfl (h (k, v) (mem_occ.1 (lastOf_mem ha)) (k, w) (mem_occ.1 (lastOf_mem hb)))

theorem cons_ser {A B : Type} (c : ExtCodec A) (d : ExtCodec B) (x : Cons A B) :
    (c.cons d).ser x = (c.ser x.head).bind fun m => (d.ser x.tail).bind fun n => some (m ++ n) := rfl

theorem swap_writes {A B : Type} {c : ExtCodec A} {d : ExtCodec B} (hc : c.Own) (hd : d.Own) (h : Apart c.keys d.keys) :
    WritesAlike (c.cons d) (d.cons c) Cons.swap := by
  intro x
  rw [cons_ser, cons_ser]
  show (((d.ser x.tail).bind fun m => (c.ser x.head).bind fun n => some (m ++ n)).map val) =
    ((c.ser x.head).bind fun m => (d.ser x.tail).bind fun n => some (m ++ n)).map val
  cases h1 : c.ser x.head with
  | none => cases d.ser x.tail <;> rfl
  | some m =>
    cases h2 : d.ser x.tail with
    | none => rfl
    | some n =>
      refine congrArg some (val_comm fun kv hkv kv' hkv' e => ?_)
      exact h kv'.1 (hc _ _ h1 kv' hkv') (e ▸ hd _ _ h2 kv hkv)

theorem over_writes {A B F : Type} {c : ExtCodec A} {d : ExtCodec B} (g : ExtCodec F) (hc : c.Own) (hd : d.Own)
    (h : Apart c.keys d.keys) : WritesAlike (c.cons (d.cons g)) (d.cons (c.cons g)) Cons.over := by
  intro x
  rw [cons_ser, cons_ser, cons_ser, cons_ser]
  show (((d.ser x.tail.head).bind fun m => ((c.ser x.head).bind fun n => (g.ser x.tail.tail).bind fun o =>
      some (n ++ o)).bind fun n => some (m ++ n)).map val) =
    ((c.ser x.head).bind fun m => ((d.ser x.tail.head).bind fun n => (g.ser x.tail.tail).bind fun o =>
      some (n ++ o)).bind fun n => some (m ++ n)).map val
  cases h1 : c.ser x.head with
  | none => cases d.ser x.tail.head <;> rfl
  | some m =>
    cases h2 : d.ser x.tail.head with
    | none => rfl
    | some n =>
      cases g.ser x.tail.tail with
      | none => rfl
      | some o =>
        refine congrArg some ?_
        show val (n ++ (m ++ o)) = val (m ++ (n ++ o))
        rw [← List.append_assoc, ← List.append_assoc]
        refine val_append (val_comm fun kv hkv kv' hkv' e => ?_) rfl
        exact h kv'.1 (hc _ _ h1 kv' hkv') (e ▸ hd _ _ h2 kv hkv)

theorem each_swap_writes (hc : C.Own) (hd : D.Own) (h : C.NamesApart D) :
    (ExtMap.swap : ExtMap (.cons X Y) _).Each WritesAlike (.cons C D) (.cons D C) :=
  ⟨swap_writes hc.thing hd.thing h.thing, swap_writes hc.interaction hd.interaction h.interaction,
    swap_writes hc.property hd.property h.property, swap_writes hc.action hd.action h.action,
    swap_writes hc.event hd.event h.event, swap_writes hc.form hd.form h.form,
    swap_writes hc.response hd.response h.response, swap_writes hc.dataSchema hd.dataSchema h.dataSchema,
    swap_writes hc.objectSchema hd.objectSchema h.objectSchema, swap_writes hc.arraySchema hd.arraySchema h.arraySchema⟩

theorem each_over_writes (hc : C.Own) (hd : D.Own) (h : C.NamesApart D) :
    (ExtMap.over : ExtMap (.cons X (.cons Y Z)) _).Each WritesAlike (.cons C (.cons D E)) (.cons D (.cons C E)) :=
  ⟨over_writes _ hc.thing hd.thing h.thing, over_writes _ hc.interaction hd.interaction h.interaction,
    over_writes _ hc.property hd.property h.property, over_writes _ hc.action hd.action h.action,
    over_writes _ hc.event hd.event h.event, over_writes _ hc.form hd.form h.form,
    over_writes _ hc.response hd.response h.response, over_writes _ hc.dataSchema hd.dataSchema h.dataSchema,
    over_writes _ hc.objectSchema hd.objectSchema h.objectSchema,
    over_writes _ hc.arraySchema hd.arraySchema h.arraySchema⟩

end Reader
end Wot
