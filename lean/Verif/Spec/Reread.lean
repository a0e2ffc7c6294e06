import Verif.Spec.Storable
/-
Vocabulary for statements about Things that have been read from a document, written and read again.
-/
namespace Wot

/-! ### Documents -/

/-- The number is one that JSON documents are made of in serde_json: an unsigned or a negative integer of 64
bits, or a finite floating point number. -/
def JNum.InRange : JNum → Prop
  | .pos n => n < 2^64
  | .neg n => n < 2^63
  | .float f => f.isFinite = true

/-- The number occurs in the document, at any depth. -/
inductive NumberIn (n : JNum) : Json → Prop
  | here : NumberIn n (.num n)
  | element {l : List Json} {j : Json} : j ∈ l → NumberIn n j → NumberIn n (.arr l)
  | member {m : Members} {k : String} {j : Json} : (k, j) ∈ m → NumberIn n j → NumberIn n (.obj m)

/-- All numbers in the document are such numbers. -/
def Json.NumbersInRange (d : Json) : Prop := ∀ n, NumberIn n d → n.InRange

/-! ### External functions -/

/-- Laws of the external functions: a language tag that has been read is read again as itself, and an
instant that has been read has an RFC 3339 form which is read as the same instant. -/
structure SerdeEnv.Stable (env : SerdeEnv) : Prop where
  tags : ∀ s t, env.langRead s = some t → env.langRead t = some t
  times : ∀ s d, env.timeParse s = some d → ∃ s', env.timeFormat d = some s' ∧ env.timeParse s' = some d

/-! ### Extensions -/

/-- The value of an extension type can be written, and survives. -/
def ExtCodec.Keeps {A : Type} (c : ExtCodec A) (a : A) : Prop := (∃ m, c.ser a = some m) ∧ c.Reads a

/-- Whatever the extension reads can be written, and survives. -/
def ExtCodec.Lawful {A : Type} (c : ExtCodec A) : Prop := ∀ es a, c.de es = some a → c.Keeps a

/-- The same for all extensions. -/
structure ExtCodecs.Lawful {X : ExtTypes} (C : ExtCodecs X) : Prop where
  thing : C.thing.Lawful
  interaction : C.interaction.Lawful
  property : C.property.Lawful
  action : C.action.Lawful
  event : C.event.Lawful
  form : C.form.Lawful
  response : C.response.Lawful
  dataSchema : C.dataSchema.Lawful
  objectSchema : C.objectSchema.Lawful
  arraySchema : C.arraySchema.Lawful

/-- All values of extension types in the Thing can be written, and survive. -/
structure ExtensionsKept {X : ExtTypes} (C : ExtCodecs X) (t : Thing X) : Prop where
  schemas : ∀ p s x, t.HasSchema p s → Within x s → C.dataSchema.Keeps x.head.other ∧
    (∀ a, x.subtype = some (.array a) → C.arraySchema.Keeps a.other) ∧
    (∀ o, x.subtype = some (.object o) → C.objectSchema.Keeps o.other)
  forms : ∀ ctx f, t.HasForm ctx f →
    C.form.Keeps f.other ∧ ∀ r, f.response = some r → C.response.Keeps r.other
  interactions : ∀ i, t.HasInteraction i → C.interaction.Keeps i.other
  properties : ∀ m, t.properties = some m → ∀ kv ∈ m, C.property.Keeps kv.2.other
  actions : ∀ m, t.actions = some m → ∀ kv ∈ m, C.action.Keeps kv.2.other
  events : ∀ m, t.events = some m → ∀ kv ∈ m, C.event.Keeps kv.2.other
  other : C.thing.Keeps t.other

/-! ### Things -/

/-- No form of the Thing has an explicitly empty list of operations. -/
def Thing.NoEmptyOps {X : ExtTypes} (t : Thing X) : Prop := ∀ ctx f, t.HasForm ctx f → f.op ≠ .custom []

end Wot
