import Verif.Model.Text
import Verif.Spec.Thing
import Verif.Spec.Members
/-
How deep the schemas of a Thing nest, and the JSON values that it carries as they are.
-/
namespace Wot

section
variable {L DS AS OS : Type}

/-- The schema `c` stands directly in the schema `s`: as an alternative, an array item or an object
property. -/
inductive Schema.Holds (c s : Schema L DS AS OS) : Prop
  | oneOf {l : List (Schema L DS AS OS)} : s.oneOf = some l → c ∈ l → Holds c s
  | item {a : ArrayF AS (Schema L DS AS OS)} :
      s.subtype = some (.array a) → a.items = some (.elem c) → Holds c s
  | items {a : ArrayF AS (Schema L DS AS OS)} {l : List (Schema L DS AS OS)} :
      s.subtype = some (.array a) → a.items = some (.vec l) → c ∈ l → Holds c s
  | property {o : ObjectF OS (Schema L DS AS OS)} {m : List (String × Schema L DS AS OS)} {k : String} :
      s.subtype = some (.object o) → o.properties = some m → (k, c) ∈ m → Holds c s

/-- There are schemas `s = s₁, …, sₙ`, each standing directly in the one before. -/
inductive Schema.Nests : Nat → Schema L DS AS OS → Prop
  | one (s : Schema L DS AS OS) : Nests 1 s
  | more {n : Nat} {c s : Schema L DS AS OS} : c.Holds s → Nests n c → Nests (n + 1) s

end

/-- The members that an extension value is written as nest at most `m` deep. -/
def ExtCodec.Flat {A : Type} (C : ExtCodec A) (m : Nat) (a : A) : Prop :=
  ∀ es, C.ser a = some es → ∀ kv ∈ es, kv.2.nesting ≤ m

/-- No more than `h` schemas of the Thing are nested in each other, and the JSON values that the Thing
carries as they are — the context, the constants, defaults and enumerations of schemas, the data of custom
security schemes and what extensions write — nest at most `m` deep. -/
structure Thing.NestsWithin {X : ExtTypes} (C : ExtCodecs X) (h m : Nat) (t : Thing X) : Prop where
  schemas : ∀ p s, t.HasSchema p s → ∀ n, s.Nests n → n ≤ h
  values : ∀ p s x, t.HasSchema p s → Within x s →
    (∀ v, x.head.constant = some v → v.nesting ≤ m) ∧ (∀ v, x.head.default = some v → v.nesting ≤ m) ∧
    (∀ l, x.head.enumeration = some l → ∀ v ∈ l, v.nesting ≤ m) ∧ C.dataSchema.Flat m x.head.other ∧
    (∀ a, x.subtype = some (.array a) → C.arraySchema.Flat m a.other) ∧
    (∀ o, x.subtype = some (.object o) → C.objectSchema.Flat m o.other)
  forms : ∀ ctx f, t.HasForm ctx f → C.form.Flat m f.other ∧
    ∀ r, f.response = some r → C.response.Flat m r.other
  interactions : ∀ i, t.HasInteraction i → C.interaction.Flat m i.other
  properties : ∀ ps, t.properties = some ps → ∀ kv ∈ ps, C.property.Flat m kv.2.other
  actions : ∀ as, t.actions = some as → ∀ kv ∈ as, C.action.Flat m kv.2.other
  events : ∀ es, t.events = some es → ∀ kv ∈ es, C.event.Flat m kv.2.other
  security : ∀ n s scheme es, (n, s) ∈ t.securityDefinitions → s.subtype = .unknown scheme (.obj es) →
    ∀ kv ∈ es, kv.2.nesting ≤ m
  context : t.context.nesting ≤ m
  other : C.thing.Flat m t.other

end Wot
