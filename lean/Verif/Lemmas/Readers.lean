import Verif.Spec.Readers
import Verif.Lemmas.CodecSchema
import Verif.Lemmas.FloatReread
import Verif.Lemmas.EditLaws
import Verif.Spec.Grammar
/-
Helper lemmas for `Verif.Props.Readers`.
-/
namespace Wot

namespace Reader

section
variable {A B A' B' : Type}

theorem bind_same {F : B → B'} {x : Option A} {k : A → Option B} {k' : A → Option B'}
    (h : ∀ a, k' a = (k a).map F) : x.bind k' = (x.bind k).map F := by
  cases x with
  | none => rfl
  | some a => exact h a

theorem bind_map {F : B → B'} {G : A → A'} {x : Option A} {x' : Option A'} {k : A → Option B} {k' : A' → Option B'}
    (hx : x' = x.map G) (h : ∀ a, k' (G a) = (k a).map F) : x'.bind k' = (x.bind k).map F := by
  subst hx
  cases x with
  | none => rfl
  | some a => exact h a

variable {de : Json → Option A} {de' : Json → Option A'} {G : A → A'}

theorem option_map (h : ∀ j, de' j = (de j).map G) (j : Json) :
    deOption de' j = (deOption de j).map (Option.map G) := by
  unfold deOption
  split
  · rfl
  · rw [h, Option.map_map, Option.map_map]; rfl

theorem optional_map (h : ∀ j, de' j = (de j).map G) (k : String) (es : Members) :
    optional k de' es = (optional k de es).map (Option.map G) := by
  unfold optional defaulted
  split
  · rfl
  · exact option_map h _
  · rfl

theorem required_map (h : ∀ j, de' j = (de j).map G) (k : String) (es : Members) :
    required k de' es = (required k de es).map G := by
  unfold required
  split
  · exact h _
  · rfl

theorem mapOpt_follow {T : Type} {f : T → Option A} {f' : T → Option A'} (h : ∀ j, f' j = (f j).map G) (l : List T) :
    mapOpt f' l = (mapOpt f l).map (List.map G) := by
  induction l with
  | nil => rfl
  | cons a l ih =>
    unfold mapOpt
    rw [h, ih]
    cases f a with
    | none => rfl
    | some b => cases mapOpt f l <;> rfl

theorem vec_map (h : ∀ j, de' j = (de j).map G) (j : Json) : deVec de' j = (deVec de j).map (List.map G) := by
  cases j with
  | arr l => exact mapOpt_follow h l
  | _ => rfl

theorem map_map (h : ∀ j, de' j = (de j).map G) (j : Json) : deMap de' j = (deMap de j).map (HMap.mapVals G) := by
  cases j with
  | obj es =>
    have : mapOptVals de' es = (mapOptVals de es).map (List.map fun kv => (kv.1, G kv.2)) :=
      mapOpt_follow (G := fun kv : String × A => (kv.1, G kv.2)) (fun kv => by
        rw [h, Option.map_map, Option.map_map]; rfl) es
    show (mapOptVals de' es).map _ = ((mapOptVals de es).map _).map _
    rw [this, Option.map_map, Option.map_map]
    congr 1
    funext m
    exact collect_mapVals G m
  | _ => rfl

end

/-! ### Data schemas -/

section
variable {DSx AS OS DSx' AS' OS' : Type} {C : ExtCodec DSx} {CA : ExtCodec AS} {CO : ExtCodec OS}
  {D : ExtCodec DSx'} {DA : ExtCodec AS'} {DO : ExtCodec OS'} {f : DSx → DSx'} {g : AS → AS'} {h : OS → OS'}

theorem withExt_mk {L : Type} (hd : SchemaHead L DSx) (o : Option (List (Schema L DSx AS OS)))
    (s : Option (SubtypeF AS OS (Schema L DSx AS OS))) :
    Schema.withExt f g h (.mk hd o s) = .mk (hd.withExt f) (o.map (List.map (Schema.withExt f g h)))
      ((s.map (SubtypeF.map (Schema.withExt f g h))).map (SubtypeF.withExt g h)) := by
  rw [Schema.withExt, Schema.fold_mk]

variable {S S' : Type} {sub : Json → Option S} {sub' : Json → Option S'} {G : S → S'}

theorem items_map (hs : ∀ j, sub' j = (sub j).map G) (j : Json) :
    deItems sub' j = (deItems sub j).map (ElemOrVec.map G) := by
  unfold deItems
  rw [hs]
  cases sub j with
  | some s => rfl
  | none =>
    show (deVec sub' j).map _ = ((deVec sub j).map _).map _
    rw [vec_map hs, Option.map_map, Option.map_map]; rfl

theorem subtype_map (hA : FollowsExactly CA DA g) (hO : FollowsExactly CO DO h) (hs : ∀ j, sub' j = (sub j).map G)
    (es : Members) : deSchemaSubtype DA DO sub' es =
      (deSchemaSubtype CA CO sub es).map fun s => (s.map G).withExt g h := by
  unfold deSchemaSubtype
  refine bind_same fun tag => ?_
  cases tag with
  | array =>
    show (deArray DA sub' _).map _ = ((deArray CA sub _).map _).map _
    have : deArray DA sub' (rest ["type"] es) = (deArray CA sub (rest ["type"] es)).map
        fun a => ⟨a.items.map (ElemOrVec.map G), a.minItems, a.maxItems, g a.other⟩ := by
      unfold deArray
      refine bind_map (optional_map (items_map hs) _ _) fun items => bind_same fun _ => bind_same fun _ =>
        bind_map (hA _) fun _ => rfl
    rw [this, Option.map_map, Option.map_map]; rfl
  | object =>
    show (deObject DO sub' _).map _ = ((deObject CO sub _).map _).map _
    have : deObject DO sub' (rest ["type"] es) = (deObject CO sub (rest ["type"] es)).map
        fun a => ⟨a.properties.map (HMap.mapVals G), a.required, h a.other⟩ := by
      unfold deObject
      refine bind_map (optional_map (map_map hs) _ _) fun items => bind_same fun _ =>
        bind_map (hO _) fun _ => rfl
    rw [this, Option.map_map, Option.map_map]; rfl
  | number => show (deNumber _).map _ = ((deNumber _).map _).map _; rw [Option.map_map]; rfl
  | integer => show (deInteger _).map _ = ((deInteger _).map _).map _; rw [Option.map_map]; rfl
  | string => show (deString _).map _ = ((deString _).map _).map _; rw [Option.map_map]; rfl
  | boolean => rfl
  | null => rfl

theorem schemaMembers_map (hD : FollowsExactly C D f) (hA : FollowsExactly CA DA g) (hO : FollowsExactly CO DO h)
    {env : SerdeEnv} {sub : Json → Option (DataSchema DSx AS OS)} {sub' : Json → Option (DataSchema DSx' AS' OS')}
    (hs : ∀ j, sub' j = (sub j).map (Schema.withExt f g h)) (es : Members) :
    deSchemaMembers D DA DO env sub' es = (deSchemaMembers C CA CO env sub es).map (Schema.withExt f g h) := by
  unfold deSchemaMembers
  iterate 8 refine bind_same fun _ => ?_
  refine bind_map (optional_map (vec_map hs) _ _) fun oneOf => ?_
  iterate 4 refine bind_same fun _ => ?_
  refine bind_map (hD _) fun _ => ?_
  rw [subtype_map hA hO hs]
  show some _ = some _
  rw [withExt_mk, Option.map_map]
  rfl

theorem schema_map (hD : FollowsExactly C D f) (hA : FollowsExactly CA DA g) (hO : FollowsExactly CO DO h)
    {env : SerdeEnv} (j : Json) :
    deSchema D DA DO env j = (deSchema C CA CO env j).map (Schema.withExt f g h) := by
  unfold deSchema
  generalize j.depth = n
  induction n generalizing j with
  | zero => rfl
  | succ n ih =>
    cases j with
    | obj es => exact schemaMembers_map hD hA hO ih es
    | _ => rfl

end

/-! ### Things -/

variable {X Y : ExtTypes} {C : ExtCodecs X} {D : ExtCodecs Y} {f : ExtMap X Y} {env : SerdeEnv}

theorem ds_map (hf : f.Each FollowsExactly C D) (j : Json) : deDS D env j = (deDS C env j).map (DS.withExt f) :=
  schema_map hf.dataSchema hf.arraySchema hf.objectSchema j

theorem response_map (hf : f.Each FollowsExactly C D) (j : Json) :
    deResponse D.response j = (deResponse C.response j).map (ExpectedResponse.withExt f.response) := by
  cases j with
  | obj es => exact bind_same fun _ => bind_map (hf.response _) fun _ => rfl
  | _ => rfl

theorem form_map (hf : f.Each FollowsExactly C D) (j : Json) : deForm D j = (deForm C j).map (Form.withExt f) := by
  cases j with
  | obj es =>
    unfold deForm
    dsimp only
    iterate 7 refine bind_same fun _ => ?_
    exact bind_map (optional_map (response_map hf) _ _) fun _ => bind_same fun _ => bind_map (hf.form _) fun _ => rfl
  | _ => rfl

theorem interaction_map (hf : f.Each FollowsExactly C D) (es : Members) :
    deInteraction D env es = (deInteraction C env es).map (Interaction.withExt f) := by
  unfold deInteraction
  iterate 5 refine bind_same fun _ => ?_
  exact bind_map (required_map (vec_map (form_map hf)) _ _) fun _ =>
    bind_map (optional_map (map_map (ds_map hf)) _ _) fun _ => bind_map (hf.interaction _) fun _ => rfl

theorem property_map (hf : f.Each FollowsExactly C D) (j : Json) :
    deProperty D env j = (deProperty C env j).map (PropertyAffordance.withExt f) := by
  cases j with
  | obj es =>
    unfold deProperty
    exact bind_same fun _ => bind_map (interaction_map hf _) fun _ =>
      bind_map (schemaMembers_map hf.dataSchema hf.arraySchema hf.objectSchema (ds_map hf) _) fun _ =>
      bind_map (hf.property _) fun _ => rfl
  | _ => rfl

theorem action_map (hf : f.Each FollowsExactly C D) (j : Json) :
    deAction D env j = (deAction C env j).map (ActionAffordance.withExt f) := by
  cases j with
  | obj es =>
    unfold deAction
    exact bind_map (optional_map (ds_map hf) _ _) fun _ => bind_map (optional_map (ds_map hf) _ _) fun _ =>
      bind_same fun _ => bind_same fun _ => bind_same fun _ => bind_map (interaction_map hf _) fun _ =>
      bind_map (hf.action _) fun _ => rfl
  | _ => rfl

theorem event_map (hf : f.Each FollowsExactly C D) (j : Json) :
    deEvent D env j = (deEvent C env j).map (EventAffordance.withExt f) := by
  cases j with
  | obj es =>
    unfold deEvent
    exact bind_map (optional_map (ds_map hf) _ _) fun _ => bind_map (optional_map (ds_map hf) _ _) fun _ =>
      bind_map (optional_map (ds_map hf) _ _) fun _ => bind_map (optional_map (ds_map hf) _ _) fun _ =>
      bind_map (interaction_map hf _) fun _ => bind_map (hf.event _) fun _ => rfl
  | _ => rfl

theorem thing_map (hf : f.Each FollowsExactly C D) (j : Json) :
    deThing D env j = (deThing C env j).map (Thing.withExt f) := by
  cases j with
  | obj es =>
    unfold deThing
    dsimp only
    iterate 12 refine bind_same fun _ => ?_
    refine bind_map (optional_map (map_map (property_map hf)) _ _) fun _ => ?_
    refine bind_map (optional_map (map_map (action_map hf)) _ _) fun _ => ?_
    refine bind_map (optional_map (map_map (event_map hf)) _ _) fun _ => ?_
    refine bind_same fun _ => ?_
    refine bind_map (optional_map (vec_map (form_map hf)) _ _) fun _ => ?_
    iterate 2 refine bind_same fun _ => ?_
    refine bind_map (optional_map (map_map (ds_map hf)) _ _) fun _ => ?_
    refine bind_same fun _ => ?_
    refine bind_map (optional_map (map_map (ds_map hf)) _ _) fun _ => ?_
    exact bind_map (hf.thing _) fun _ => rfl
  | _ => rfl

/-! ### A reader in between -/

/-- What the first reader cannot read is read by the second. -/
def blend {A B : Type} (c : ExtCodec A) (d : ExtCodec B) (g : B → A) : ExtCodec A :=
  ⟨c.keys, c.ser, fun es => (c.de es).or ((d.de es).map g), c.takes⟩

theorem blend_follows {A B : Type} {c : ExtCodec A} {d : ExtCodec B} {f : A → B} {g : B → A} (h : Follows c d f)
    (hg : ∀ b, f (g b) = b) : FollowsExactly (blend c d g) d f := by
  intro es
  show d.de es = ((c.de es).or ((d.de es).map g)).map f
  cases ha : c.de es with
  | some a => exact h es a ha
  | none =>
    show d.de es = ((d.de es).map g).map f
    cases d.de es with
    | none => rfl
    | some b => exact congrArg some (hg b).symm

theorem blend_reads {A B : Type} {c : ExtCodec A} {d : ExtCodec B} {g : B → A} {a : A} (h : c.Reads a) :
    (blend c d g).Reads a := by
  refine ⟨h.own, fun m es hm hc => ?_⟩
  show (c.de es).or _ = some a
  rw [h.read m es hm hc]; rfl

/-- The same at all places. -/
def blends (C : ExtCodecs X) (D : ExtCodecs Y) (g : ExtMap Y X) : ExtCodecs X where
  thing := blend C.thing D.thing g.thing
  interaction := blend C.interaction D.interaction g.interaction
  property := blend C.property D.property g.property
  action := blend C.action D.action g.action
  event := blend C.event D.event g.event
  form := blend C.form D.form g.form
  response := blend C.response D.response g.response
  dataSchema := blend C.dataSchema D.dataSchema g.dataSchema
  objectSchema := blend C.objectSchema D.objectSchema g.objectSchema
  arraySchema := blend C.arraySchema D.arraySchema g.arraySchema

variable {g : ExtMap Y X} {t : Thing X}

theorem ser_blends : serThing (blends C D g) env t = serThing C env t := rfl

theorem separate_blends (h : C.Separate) : (blends C D g).Separate := ⟨h.thing, h.form, h.response, ⟨h.schemas.schema,
  h.schemas.array, h.schemas.object⟩, h.interaction, h.action, h.interactionAction, h.event, h.interactionEvent,
  h.property, h.interactionProperty, h.dataSchemaProperty, h.arraySchemaProperty, h.objectSchemaProperty⟩

theorem ds_blends {s : DS X} (h : DSKept env C s) : DSKept env (blends C D g) s := fun x hx =>
  let k := h x hx
  { constant := k.constant, default := k.default, enumeration := k.enumeration, other := blend_reads k.other,
    otherArray := fun a ha => blend_reads (k.otherArray a ha),
    otherObject := fun a ha => blend_reads (k.otherObject a ha), titles := k.titles, descriptions := k.descriptions,
    properties := k.properties }

theorem schemas_blends {o : Option (HMap (DS X))} (h : SchemasKept env C o) : SchemasKept env (blends C D g) o :=
  fun m hm => ⟨(h m hm).1, fun kv hkv => ds_blends ((h m hm).2 kv hkv)⟩

theorem form_blends {x : Form X} (h : FormKept C x) : FormKept (blends C D g) x :=
  ⟨fun r hr => blend_reads (h.response r hr), blend_reads h.other⟩

theorem interaction_blends {i : Interaction X} (h : InteractionKept env C i) : InteractionKept env (blends C D g) i :=
  ⟨h.titles, h.descriptions, fun x hx => form_blends (h.forms x hx), schemas_blends h.uriVariables,
    blend_reads h.other⟩

theorem kept_blends (h : Kept env C t) : Kept env (blends C D g) t where
  context := h.context
  titles := h.titles
  descriptions := h.descriptions
  created := h.created
  modified := h.modified
  properties m hm := ⟨(h.properties m hm).1, fun kv hkv =>
    let k := (h.properties m hm).2 kv hkv
    ⟨interaction_blends k.interaction, ds_blends k.dataSchema, blend_reads k.other⟩⟩
  actions m hm := ⟨(h.actions m hm).1, fun kv hkv =>
    let k := (h.actions m hm).2 kv hkv
    ⟨interaction_blends k.interaction, fun s hs => ds_blends (k.input s hs), fun s hs => ds_blends (k.output s hs),
      blend_reads k.other⟩⟩
  events m hm := ⟨(h.events m hm).1, fun kv hkv =>
    let k := (h.events m hm).2 kv hkv
    ⟨interaction_blends k.interaction, fun s hs => ds_blends (k.subscription s hs),
      fun s hs => ds_blends (k.data s hs), fun s hs => ds_blends (k.dataResponse s hs),
      fun s hs => ds_blends (k.cancellation s hs), blend_reads k.other⟩⟩
  links := h.links
  forms l hl x hx := form_blends (h.forms l hl x hx)
  securityDefinitions := h.securityDefinitions
  security := h.security
  uriVariables := schemas_blends h.uriVariables
  schemaDefinitions := schemas_blends h.schemaDefinitions
  other := blend_reads h.other

theorem once_blends (h : C.WriteOnce) : (blends C D g).WriteOnce := ⟨h.thing, h.interaction, h.property, h.action,
  h.event, h.form, h.response, h.dataSchema, h.objectSchema, h.arraySchema⟩

theorem exists_blends (hf : f.Each Follows C D) (ho : f.Each Onto C D) :
    ∃ g : ExtMap Y X, f.Each FollowsExactly (blends C D g) D := by
  have inv : ∀ {A B : Type} {F : A → B}, (∀ b, ∃ a, F a = b) → ∃ G : B → A, ∀ b, F (G b) = b :=
    fun h => ⟨fun b => (h b).choose, fun b => (h b).choose_spec⟩
  obtain ⟨g1, h1⟩ := inv ho.thing
  obtain ⟨g2, h2⟩ := inv ho.interaction
  obtain ⟨g3, h3⟩ := inv ho.property
  obtain ⟨g4, h4⟩ := inv ho.action
  obtain ⟨g5, h5⟩ := inv ho.event
  obtain ⟨g6, h6⟩ := inv ho.form
  obtain ⟨g7, h7⟩ := inv ho.response
  obtain ⟨g8, h8⟩ := inv ho.dataSchema
  obtain ⟨g9, h9⟩ := inv ho.objectSchema
  obtain ⟨g10, h10⟩ := inv ho.arraySchema
  exact ⟨⟨g1, g2, g3, g4, g5, g6, g7, g8, g9, g10⟩, blend_follows hf.thing h1, blend_follows hf.interaction h2,
    blend_follows hf.property h3, blend_follows hf.action h4, blend_follows hf.event h5, blend_follows hf.form h6,
    blend_follows hf.response h7, blend_follows hf.dataSchema h8, blend_follows hf.objectSchema h9,
    blend_follows hf.arraySchema h10⟩

/-! ### Which documents are read -/

section Grammar
open Doc

theorem one_mono {k : String} {es : Members} {P Q : Json → Prop} (h : ∀ v, P v → Q v) (hp : AtMostOne k es P) :
    AtMostOne k es Q :=
  hp.imp id fun ⟨v, h1, h2⟩ => ⟨v, h1, h2.imp id (h v)⟩

theorem has_mono {k : String} {es : Members} {P Q : Json → Prop} (h : ∀ v, P v → Q v) (hp : HasOne k es P) :
    HasOne k es Q := let ⟨v, h1, h2⟩ := hp; ⟨v, h1, h v h2⟩

theorem arr_mono {P Q : Json → Prop} (h : ∀ v, P v → Q v) (v : Json) (hp : ArrayOf P v) : ArrayOf Q v :=
  let ⟨l, h1, h2⟩ := hp; ⟨l, h1, fun x hx => h x (h2 x hx)⟩

theorem mapOf_mono {P Q : Json → Prop} (h : ∀ v, P v → Q v) (v : Json) (hp : MapOf P v) : MapOf Q v :=
  let ⟨l, h1, h2⟩ := hp; ⟨l, h1, fun x hx => h x.2 (h2 x hx)⟩

theorem obj_mono {P Q : Members → Prop} (h : ∀ es, P es → Q es) (v : Json) (hp : Object P v) : Object Q v :=
  let ⟨es, h1, h2⟩ := hp; ⟨es, h1, h es h2⟩

theorem extra_mono {A B : Type} {c : ExtCodec A} {d : ExtCodec B} {F : A → B} (h : Follows c d F) {K : List String}
    {es : Members} (hp : Extra c K es) : Extra d K es := let ⟨a, ha⟩ := hp; ⟨F a, h _ a ha⟩

theorem gschema_mono {A B : Type} {c : ExtCodec A} {d : ExtCodec B} {F : A → B} (h : Follows c d F) (v : Json)
    (hp : Doc.Schema env c v) : Doc.Schema env d v := by
  induction hp with
  | mk h1 h2 _ ih => exact .mk h1 (extra_mono h h2) ih

theorem gds_mono (h : f.Each Follows C D) (v : Json) (hp : Doc.DS env C v) : Doc.DS env D v :=
  gschema_mono h.dataSchema v hp

theorem gform_mono (h : f.Each Follows C D) (es : Members) (hp : Doc.Form C es) : Doc.Form D es :=
  { hp with
    response := one_mono (obj_mono fun _ x => ⟨x.contentType, extra_mono h.response x.other⟩) hp.response
    other := extra_mono h.form hp.other }

theorem ginteraction_mono (h : f.Each Follows C D) {K : List String} {es : Members} (hp : Doc.Interaction env C K es) :
    Doc.Interaction env D K es :=
  { hp with
    forms := has_mono (arr_mono (obj_mono (gform_mono h))) hp.forms
    uriVariables := one_mono (mapOf_mono (gds_mono h)) hp.uriVariables
    other := extra_mono h.interaction hp.other }

theorem gproperty_mono (h : f.Each Follows C D) (es : Members) (hp : Doc.Property env C es) : Doc.Property env D es :=
  { hp with
    interaction := ginteraction_mono h hp.interaction
    extension := extra_mono h.dataSchema hp.extension
    oneOf := fun l v h1 h2 => gds_mono h v (hp.oneOf l v h1 h2)
    other := extra_mono h.property hp.other }

theorem gaction_mono (h : f.Each Follows C D) (es : Members) (hp : Doc.Action env C es) : Doc.Action env D es :=
  { hp with
    interaction := ginteraction_mono h hp.interaction
    input := one_mono (gds_mono h) hp.input
    output := one_mono (gds_mono h) hp.output
    other := extra_mono h.action hp.other }

theorem gevent_mono (h : f.Each Follows C D) (es : Members) (hp : Doc.Event env C es) : Doc.Event env D es :=
  { hp with
    interaction := ginteraction_mono h hp.interaction
    subscription := one_mono (gds_mono h) hp.subscription
    data := one_mono (gds_mono h) hp.data
    dataResponse := one_mono (gds_mono h) hp.dataResponse
    cancellation := one_mono (gds_mono h) hp.cancellation
    other := extra_mono h.event hp.other }

theorem gthing_mono (h : f.Each Follows C D) (es : Members) (hp : Doc.Thing env C es) : Doc.Thing env D es :=
  { hp with
    properties := one_mono (mapOf_mono (obj_mono (gproperty_mono h))) hp.properties
    actions := one_mono (mapOf_mono (obj_mono (gaction_mono h))) hp.actions
    events := one_mono (mapOf_mono (obj_mono (gevent_mono h))) hp.events
    forms := one_mono (arr_mono (obj_mono (gform_mono h))) hp.forms
    uriVariables := one_mono (mapOf_mono (gds_mono h)) hp.uriVariables
    schemaDefinitions := one_mono (mapOf_mono (gds_mono h)) hp.schemaDefinitions
    other := extra_mono h.thing hp.other }

end Grammar

/-! ### Particular programs -/

section
variable {A B E : Type} {a : ExtCodec A} {b : ExtCodec B} {e : ExtCodec E}

theorem offered (h : b.Ignores a.keys) (es : Members) : b.de (if a.takes then rest a.keys es else es) = b.de es := by
  split
  · exact h es
  · rfl

theorem cons_de (h : b.Ignores a.keys) (es : Members) :
    (ExtCodec.cons a b).de es = (a.de es).bind fun x => (b.de es).map (Cons.mk x) := by
  show (a.de es).bind (fun x => (b.de (if a.takes then rest a.keys es else es)).bind fun y => some (Cons.mk x y)) = _
  rw [offered h]
  cases a.de es with
  | none => rfl
  | some x => cases b.de es <;> rfl

theorem head_follows : Follows (ExtCodec.cons a b) a Cons.head := by
  intro es c h
  replace h : (a.de es).bind (fun x => (b.de _).bind fun y => some ⟨x, y⟩) = some c := h
  cases ha : a.de es with
  | none => rw [ha] at h; cases h
  | some x =>
    rw [ha] at h
    replace h : (b.de _).bind (fun y => some ⟨x, y⟩) = some c := h
    generalize b.de _ = o at h
    cases o with
    | none => cases h
    | some y => cases h; rfl

theorem tail_follows (hi : b.Ignores a.keys) : Follows (ExtCodec.cons a b) b Cons.tail := by
  intro es c h
  rw [cons_de hi] at h
  cases ha : a.de es with
  | none => rw [ha] at h; cases h
  | some x =>
    rw [ha] at h
    cases hb : b.de es with
    | none => rw [hb] at h; cases h
    | some y => rw [hb] at h; cases h; rfl

theorem swap_follows (hb : b.Ignores a.keys) (ha : a.Ignores b.keys) :
    FollowsExactly (ExtCodec.cons a b) (ExtCodec.cons b a) Cons.swap := by
  intro es
  rw [cons_de hb, cons_de ha]
  cases a.de es <;> cases b.de es <;> rfl

theorem ignores_cons (ha : a.Ignores e.keys) (hb : b.Ignores e.keys) : (ExtCodec.cons a b).Ignores e.keys := by
  intro es
  show (a.de _).bind (fun x => (b.de _).bind fun y => some (Cons.mk x y)) =
    (a.de _).bind fun x => (b.de _).bind fun y => some (Cons.mk x y)
  rw [ha es]
  have : b.de (if a.takes then rest a.keys (rest e.keys es) else rest e.keys es) =
      b.de (if a.takes then rest a.keys es else es) := by
    cases a.takes with
    | false => exact hb es
    | true =>
      show b.de (rest a.keys (rest e.keys es)) = b.de (rest a.keys es)
      rw [← hb (rest a.keys es)]
      congr 1
      simp only [rest, List.filter_filter]
      congr 1
      funext kv
      exact Bool.and_comm _ _
  rw [this]

theorem over_follows (h1 : b.Ignores a.keys) (h2 : a.Ignores b.keys) (h3 : e.Ignores a.keys) (h4 : e.Ignores b.keys) :
    FollowsExactly (ExtCodec.cons a (ExtCodec.cons b e)) (ExtCodec.cons b (ExtCodec.cons a e)) Cons.over := by
  intro es
  rw [cons_de (ignores_cons h1 h3), cons_de (ignores_cons h2 h4), cons_de h4, cons_de h3]
  cases a.de es <;> cases b.de es <;> cases e.de es <;> rfl

theorem local_ignores (h : b.Local) {names : List String} (hk : Apart b.keys names) : b.Ignores names := by
  intro es
  refine h _ _ fun k hm => ?_
  rw [occ_rest, if_neg]
  simpa using hk k hm

theorem FollowsExactly.follows {F : A → B} (h : FollowsExactly a b F) : Follows a b F := fun es x hx => by
  rw [h es, hx]; rfl

end

theorem each_follows (h : f.Each FollowsExactly C D) : f.Each Follows C D :=
  ⟨FollowsExactly.follows h.thing, FollowsExactly.follows h.interaction, FollowsExactly.follows h.property,
    FollowsExactly.follows h.action, FollowsExactly.follows h.event, FollowsExactly.follows h.form,
    FollowsExactly.follows h.response, FollowsExactly.follows h.dataSchema, FollowsExactly.follows h.objectSchema,
    FollowsExactly.follows h.arraySchema⟩

variable {Z : ExtTypes} {E : ExtCodecs Z}

theorem each_head : (ExtMap.head : ExtMap (.cons X Y) X).Each Follows (.cons C D) C :=
  ⟨head_follows, head_follows, head_follows, head_follows, head_follows, head_follows, head_follows, head_follows,
    head_follows, head_follows⟩

theorem each_tail (h : D.Ignores C) : (ExtMap.tail : ExtMap (.cons X Y) Y).Each Follows (.cons C D) D :=
  ⟨tail_follows h.thing, tail_follows h.interaction, tail_follows h.property, tail_follows h.action,
    tail_follows h.event, tail_follows h.form, tail_follows h.response, tail_follows h.dataSchema,
    tail_follows h.objectSchema, tail_follows h.arraySchema⟩

theorem each_swap (h : D.Ignores C) (h' : C.Ignores D) :
    (ExtMap.swap : ExtMap (.cons X Y) _).Each FollowsExactly (.cons C D) (.cons D C) :=
  ⟨swap_follows h.thing h'.thing, swap_follows h.interaction h'.interaction, swap_follows h.property h'.property,
    swap_follows h.action h'.action, swap_follows h.event h'.event, swap_follows h.form h'.form,
    swap_follows h.response h'.response, swap_follows h.dataSchema h'.dataSchema,
    swap_follows h.objectSchema h'.objectSchema, swap_follows h.arraySchema h'.arraySchema⟩

theorem each_over (h1 : D.Ignores C) (h2 : C.Ignores D) (h3 : E.Ignores C) (h4 : E.Ignores D) :
    (ExtMap.over : ExtMap (.cons X (.cons Y Z)) _).Each FollowsExactly (.cons C (.cons D E)) (.cons D (.cons C E)) :=
  ⟨over_follows h1.thing h2.thing h3.thing h4.thing,
    over_follows h1.interaction h2.interaction h3.interaction h4.interaction,
    over_follows h1.property h2.property h3.property h4.property,
    over_follows h1.action h2.action h3.action h4.action, over_follows h1.event h2.event h3.event h4.event,
    over_follows h1.form h2.form h3.form h4.form, over_follows h1.response h2.response h3.response h4.response,
    over_follows h1.dataSchema h2.dataSchema h3.dataSchema h4.dataSchema,
    over_follows h1.objectSchema h2.objectSchema h3.objectSchema h4.objectSchema,
    over_follows h1.arraySchema h2.arraySchema h3.arraySchema h4.arraySchema⟩

theorem each_comp {g : ExtMap Y Z} (h : f.Each Follows C D) (h' : g.Each Follows D E) : (g.comp f).Each Follows C E :=
  have c : ∀ {A B F : Type} {a : ExtCodec A} {b : ExtCodec B} {c : ExtCodec F} {p : A → B} {q : B → F},
    Follows a b p → Follows b c q → Follows a c (q ∘ p) := @fun _ _ _ _ _ _ _ _ h1 h2 es x hx => h2 es _ (h1 es x hx)
  ⟨c (p := f.thing) (q := g.thing) h.thing h'.thing,
    c (p := f.interaction) (q := g.interaction) h.interaction h'.interaction,
    c (p := f.property) (q := g.property) h.property h'.property,
    c (p := f.action) (q := g.action) h.action h'.action, c (p := f.event) (q := g.event) h.event h'.event,
    c (p := f.form) (q := g.form) h.form h'.form, c (p := f.response) (q := g.response) h.response h'.response,
    c (p := f.dataSchema) (q := g.dataSchema) h.dataSchema h'.dataSchema,
    c (p := f.objectSchema) (q := g.objectSchema) h.objectSchema h'.objectSchema,
    c (p := f.arraySchema) (q := g.arraySchema) h.arraySchema h'.arraySchema⟩

theorem each_comp_onto {g : ExtMap Y Z} (h : f.Each Onto C D) (h' : g.Each Onto D E) : (g.comp f).Each Onto C E :=
  have c : ∀ {A B F : Type} {a : ExtCodec A} {b : ExtCodec B} {c : ExtCodec F} {p : A → B} {q : B → F},
    Onto a b p → Onto b c q → Onto a c (q ∘ p) := @fun _ _ _ _ _ _ _ _ h1 h2 x =>
      let ⟨y, hy⟩ := h2 x; let ⟨z, hz⟩ := h1 y; ⟨z, (congrArg _ hz).trans hy⟩
  ⟨c (p := f.thing) (q := g.thing) h.thing h'.thing,
    c (p := f.interaction) (q := g.interaction) h.interaction h'.interaction,
    c (p := f.property) (q := g.property) h.property h'.property,
    c (p := f.action) (q := g.action) h.action h'.action, c (p := f.event) (q := g.event) h.event h'.event,
    c (p := f.form) (q := g.form) h.form h'.form, c (p := f.response) (q := g.response) h.response h'.response,
    c (p := f.dataSchema) (q := g.dataSchema) h.dataSchema h'.dataSchema,
    c (p := f.objectSchema) (q := g.objectSchema) h.objectSchema h'.objectSchema,
    c (p := f.arraySchema) (q := g.arraySchema) h.arraySchema h'.arraySchema⟩

theorem onto_plain (d : ExtDefaults X) : (ExtMap.plain : ExtMap X _).Each Onto C ExtCodecs.nil :=
  ⟨fun _ => ⟨d.thing, rfl⟩, fun _ => ⟨d.interaction, rfl⟩, fun _ => ⟨d.property, rfl⟩, fun _ => ⟨d.action, rfl⟩,
    fun _ => ⟨d.event, rfl⟩, fun _ => ⟨d.form, rfl⟩, fun _ => ⟨d.response, rfl⟩, fun _ => ⟨d.dataSchema, rfl⟩,
    fun _ => ⟨d.objectSchema, rfl⟩, fun _ => ⟨d.arraySchema, rfl⟩⟩

theorem onto_head (d : ExtDefaults Y) : (ExtMap.head : ExtMap (.cons X Y) X).Each Onto (.cons C D) C :=
  ⟨fun x => ⟨⟨x, d.thing⟩, rfl⟩, fun x => ⟨⟨x, d.interaction⟩, rfl⟩, fun x => ⟨⟨x, d.property⟩, rfl⟩, fun x => ⟨⟨x,
    d.action⟩, rfl⟩, fun x => ⟨⟨x, d.event⟩, rfl⟩, fun x => ⟨⟨x, d.form⟩, rfl⟩, fun x => ⟨⟨x, d.response⟩, rfl⟩,
    fun x => ⟨⟨x, d.dataSchema⟩, rfl⟩, fun x => ⟨⟨x, d.objectSchema⟩, rfl⟩, fun x => ⟨⟨x, d.arraySchema⟩, rfl⟩⟩

theorem onto_tail (d : ExtDefaults X) : (ExtMap.tail : ExtMap (.cons X Y) Y).Each Onto (.cons C D) D :=
  ⟨fun x => ⟨⟨d.thing, x⟩, rfl⟩, fun x => ⟨⟨d.interaction, x⟩, rfl⟩, fun x => ⟨⟨d.property, x⟩, rfl⟩,
    fun x => ⟨⟨d.action, x⟩, rfl⟩, fun x => ⟨⟨d.event, x⟩, rfl⟩, fun x => ⟨⟨d.form, x⟩, rfl⟩, fun x => ⟨⟨d.response,
    x⟩, rfl⟩, fun x => ⟨⟨d.dataSchema, x⟩, rfl⟩, fun x => ⟨⟨d.objectSchema, x⟩, rfl⟩, fun x => ⟨⟨d.arraySchema, x⟩,
    rfl⟩⟩

theorem follows_plain : (ExtMap.plain : ExtMap X _).Each Follows C ExtCodecs.nil :=
  ⟨fun _ _ _ => rfl, fun _ _ _ => rfl, fun _ _ _ => rfl, fun _ _ _ => rfl, fun _ _ _ => rfl, fun _ _ _ => rfl,
    fun _ _ _ => rfl, fun _ _ _ => rfl, fun _ _ _ => rfl, fun _ _ _ => rfl⟩

theorem ignores_codecs (h : C.Ignores E) (h' : D.Ignores E) : (ExtCodecs.cons C D).Ignores E :=
  ⟨ignores_cons h.thing h'.thing, ignores_cons h.interaction h'.interaction, ignores_cons h.property h'.property,
    ignores_cons h.action h'.action, ignores_cons h.event h'.event, ignores_cons h.form h'.form,
    ignores_cons h.response h'.response, ignores_cons h.dataSchema h'.dataSchema,
    ignores_cons h.objectSchema h'.objectSchema, ignores_cons h.arraySchema h'.arraySchema⟩

end Reader

end Wot
