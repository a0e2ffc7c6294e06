import Verif.Spec.Stored
import Verif.Spec.Storable
import Verif.Model.Default
/-
Programs that use the same documents with different extensions.
-/
namespace Wot

/-- What the extension values of one program are for another one. -/
structure ExtMap (X Y : ExtTypes) where
  thing : X.thing → Y.thing
  interaction : X.interaction → Y.interaction
  property : X.property → Y.property
  action : X.action → Y.action
  event : X.event → Y.event
  form : X.form → Y.form
  response : X.response → Y.response
  dataSchema : X.dataSchema → Y.dataSchema
  objectSchema : X.objectSchema → Y.objectSchema
  arraySchema : X.arraySchema → Y.arraySchema

/-! ### The same Thing, with the extension values of the other program -/

variable {X Y : ExtTypes}

/-- The type of a data schema. -/
def SubtypeF.withExt {AS OS AS' OS' S : Type} (g : AS → AS') (h : OS → OS') : SubtypeF AS OS S → SubtypeF AS' OS' S
  | .array a => .array ⟨a.items, a.minItems, a.maxItems, g a.other⟩
  | .boolean => .boolean
  | .number n => .number n
  | .integer n => .integer n
  | .object o => .object ⟨o.properties, o.required, h o.other⟩
  | .string s => .string s
  | .null => .null

/-- The members of a data schema besides those that depend on its type. -/
def SchemaHead.withExt {L D D' : Type} (f : D → D') (h : SchemaHead L D) : SchemaHead L D' where
  attype := h.attype
  title := h.title
  titles := h.titles
  description := h.description
  descriptions := h.descriptions
  constant := h.constant
  default := h.default
  unit := h.unit
  enumeration := h.enumeration
  readOnly := h.readOnly
  writeOnly := h.writeOnly
  format := h.format
  other := f h.other

/-- A data schema, with all those nested in it. -/
def Schema.withExt {L D D' AS AS' OS OS' : Type} (f : D → D') (g : AS → AS') (h : OS → OS') :
    Schema L D AS OS → Schema L D' AS' OS' :=
  Schema.fold fun hd o s => .mk (hd.withExt f) o (s.map (SubtypeF.withExt g h))

/-- A data schema of a Thing. -/
def DS.withExt (f : ExtMap X Y) : DS X → DS Y :=
  Schema.withExt f.dataSchema f.arraySchema f.objectSchema

/-- An expected response. -/
def ExpectedResponse.withExt {R R' : Type} (f : R → R') (r : ExpectedResponse R) : ExpectedResponse R' :=
  ⟨r.contentType, f r.other⟩

/-- A form. -/
def Form.withExt (f : ExtMap X Y) (x : Form X) : Form Y where
  op := x.op
  href := x.href
  contentType := x.contentType
  contentCoding := x.contentCoding
  subprotocol := x.subprotocol
  security := x.security
  scopes := x.scopes
  response := x.response.map (ExpectedResponse.withExt f.response)
  additionalResponses := x.additionalResponses
  other := f.form x.other

/-- The common part of affordances. -/
def Interaction.withExt (f : ExtMap X Y) (i : Interaction X) : Interaction Y where
  attype := i.attype
  title := i.title
  titles := i.titles
  description := i.description
  descriptions := i.descriptions
  forms := i.forms.map (Form.withExt f)
  uriVariables := i.uriVariables.map (HMap.mapVals (DS.withExt f))
  other := f.interaction i.other

/-- A property. -/
def PropertyAffordance.withExt (f : ExtMap X Y) (p : PropertyAffordance X) : PropertyAffordance Y where
  interaction := p.interaction.withExt f
  dataSchema := DS.withExt f p.dataSchema
  observable := p.observable
  other := f.property p.other

/-- An action. -/
def ActionAffordance.withExt (f : ExtMap X Y) (a : ActionAffordance X) : ActionAffordance Y where
  interaction := a.interaction.withExt f
  input := a.input.map (DS.withExt f)
  output := a.output.map (DS.withExt f)
  safe := a.safe
  idempotent := a.idempotent
  synchronous := a.synchronous
  other := f.action a.other

/-- An event. -/
def EventAffordance.withExt (f : ExtMap X Y) (e : EventAffordance X) : EventAffordance Y where
  interaction := e.interaction.withExt f
  subscription := e.subscription.map (DS.withExt f)
  data := e.data.map (DS.withExt f)
  dataResponse := e.dataResponse.map (DS.withExt f)
  cancellation := e.cancellation.map (DS.withExt f)
  other := f.event e.other

/-- A Thing. -/
def Thing.withExt (f : ExtMap X Y) (t : Thing X) : Thing Y where
  context := t.context
  id := t.id
  attype := t.attype
  title := t.title
  titles := t.titles
  description := t.description
  descriptions := t.descriptions
  version := t.version
  created := t.created
  modified := t.modified
  support := t.support
  base := t.base
  properties := t.properties.map (HMap.mapVals (PropertyAffordance.withExt f))
  actions := t.actions.map (HMap.mapVals (ActionAffordance.withExt f))
  events := t.events.map (HMap.mapVals (EventAffordance.withExt f))
  links := t.links
  forms := t.forms.map (List.map (Form.withExt f))
  security := t.security
  securityDefinitions := t.securityDefinitions
  uriVariables := t.uriVariables.map (HMap.mapVals (DS.withExt f))
  profile := t.profile
  schemaDefinitions := t.schemaDefinitions.map (HMap.mapVals (DS.withExt f))
  other := f.thing t.other

/-! ### What is a reader to another one -/

/-- Something about the two codecs and the values at each of the ten places. -/
structure ExtMap.Each (P : {A B : Type} → ExtCodec A → ExtCodec B → (A → B) → Prop) (C : ExtCodecs X) (D : ExtCodecs Y)
    (f : ExtMap X Y) : Prop where
  thing : P C.thing D.thing f.thing
  interaction : P C.interaction D.interaction f.interaction
  property : P C.property D.property f.property
  action : P C.action D.action f.action
  event : P C.event D.event f.event
  form : P C.form D.form f.form
  response : P C.response D.response f.response
  dataSchema : P C.dataSchema D.dataSchema f.dataSchema
  objectSchema : P C.objectSchema D.objectSchema f.objectSchema
  arraySchema : P C.arraySchema D.arraySchema f.arraySchema

/-- The reader `d` makes `f a` of whatever the reader `c` makes `a` of. It may also read what `c` cannot. -/
def Follows {A B : Type} (c : ExtCodec A) (d : ExtCodec B) (f : A → B) : Prop :=
  ∀ es a, c.de es = some a → d.de es = some (f a)

/-- Moreover, it fails wherever `c` does. -/
def FollowsExactly {A B : Type} (c : ExtCodec A) (d : ExtCodec B) (f : A → B) : Prop :=
  ∀ es, d.de es = (c.de es).map f

/-- The writer `d` writes for `f a` what the writer `c` writes for `a`, up to the order of members. -/
def WritesAlike {A B : Type} (c : ExtCodec A) (d : ExtCodec B) (f : A → B) : Prop :=
  ∀ a, (d.ser (f a)).map (fun m => (Json.obj m).norm) = (c.ser a).map fun m => (Json.obj m).norm

/-- Every value of the second program is something to the first. -/
def Onto {A B : Type} (_ : ExtCodec A) (_ : ExtCodec B) (f : A → B) : Prop := ∀ b, ∃ a, f a = b

/-- The extension does not look at members with these names. -/
def ExtCodec.Ignores {A : Type} (c : ExtCodec A) (names : List String) : Prop :=
  ∀ es, c.de (rest names es) = c.de es

/-- At none of the ten places does the first extension look at the members of the second. -/
structure ExtCodecs.Ignores (C : ExtCodecs X) (D : ExtCodecs Y) : Prop where
  thing : C.thing.Ignores D.thing.keys
  interaction : C.interaction.Ignores D.interaction.keys
  property : C.property.Ignores D.property.keys
  action : C.action.Ignores D.action.keys
  event : C.event.Ignores D.event.keys
  form : C.form.Ignores D.form.keys
  response : C.response.Ignores D.response.keys
  dataSchema : C.dataSchema.Ignores D.dataSchema.keys
  objectSchema : C.objectSchema.Ignores D.objectSchema.keys
  arraySchema : C.arraySchema.Ignores D.arraySchema.keys

/-- At none of the ten places have the two extensions a member in common. -/
structure ExtCodecs.NamesApart (C : ExtCodecs X) (D : ExtCodecs Y) : Prop where
  thing : Apart C.thing.keys D.thing.keys
  interaction : Apart C.interaction.keys D.interaction.keys
  property : Apart C.property.keys D.property.keys
  action : Apart C.action.keys D.action.keys
  event : Apart C.event.keys D.event.keys
  form : Apart C.form.keys D.form.keys
  response : Apart C.response.keys D.response.keys
  dataSchema : Apart C.dataSchema.keys D.dataSchema.keys
  objectSchema : Apart C.objectSchema.keys D.objectSchema.keys
  arraySchema : Apart C.arraySchema.keys D.arraySchema.keys

/-! ### Particular programs -/

/-- A program without extensions knows nothing of them. -/
def ExtMap.plain : ExtMap X .nil :=
  ⟨fun _ => (), fun _ => (), fun _ => (), fun _ => (), fun _ => (), fun _ => (), fun _ => (), fun _ => (), fun _ => (),
   fun _ => ()⟩

/-- The Thing without extensions. -/
def Thing.plain (t : Thing X) : Thing .nil := t.withExt .plain

/-- A program with only the extension added last. -/
def ExtMap.head : ExtMap (.cons X Y) X :=
  ⟨Cons.head, Cons.head, Cons.head, Cons.head, Cons.head, Cons.head, Cons.head, Cons.head, Cons.head, Cons.head⟩

/-- A program without the extension added last. -/
def ExtMap.tail : ExtMap (.cons X Y) Y :=
  ⟨Cons.tail, Cons.tail, Cons.tail, Cons.tail, Cons.tail, Cons.tail, Cons.tail, Cons.tail, Cons.tail, Cons.tail⟩

/-- Two extensions in the other order. -/
def Cons.swap {T U : Type} (c : Cons T U) : Cons U T := ⟨c.tail, c.head⟩

/-- A program with the two extensions in the other order. -/
def ExtMap.swap : ExtMap (.cons X Y) (.cons Y X) :=
  ⟨Cons.swap, Cons.swap, Cons.swap, Cons.swap, Cons.swap, Cons.swap, Cons.swap, Cons.swap, Cons.swap, Cons.swap⟩

/-- A program with the last two of several extensions in the other order. -/
def Cons.over {T U V : Type} (c : Cons T (Cons U V)) : Cons U (Cons T V) := ⟨c.tail.head, c.head, c.tail.tail⟩

/-- The same at all places. -/
def ExtMap.over {Z : ExtTypes} : ExtMap (.cons X (.cons Y Z)) (.cons Y (.cons X Z)) :=
  ⟨Cons.over, Cons.over, Cons.over, Cons.over, Cons.over, Cons.over, Cons.over, Cons.over, Cons.over, Cons.over⟩

/-- One after the other. -/
def ExtMap.comp {Z : ExtTypes} (g : ExtMap Y Z) (f : ExtMap X Y) : ExtMap X Z :=
  ⟨g.thing ∘ f.thing, g.interaction ∘ f.interaction, g.property ∘ f.property, g.action ∘ f.action, g.event ∘ f.event,
   g.form ∘ f.form, g.response ∘ f.response, g.dataSchema ∘ f.dataSchema, g.objectSchema ∘ f.objectSchema,
   g.arraySchema ∘ f.arraySchema⟩

end Wot
