import Verif.Spec.Thing
/-
Vocabulary for statements about the order in which hash maps are iterated.
-/
namespace Wot

variable {X : ExtTypes}

/-- What the type `HashMap` guarantees: in all maps of the Thing, at any depth, every key occurs once. (Maps
are represented by lists sorted by key.) -/
structure Thing.Maps (t : Thing X) : Prop where
  translations : ∀ m, t.HasTranslations m → m.map.Sorted
  schemas : ∀ p s x, t.HasSchema p s → Within x s →
    ∀ o m, x.subtype = some (.object o) → o.properties = some m → HMap.Sorted m
  interactions : ∀ i, t.HasInteraction i → ∀ m, i.uriVariables = some m → m.Sorted
  properties : ∀ m, t.properties = some m → m.Sorted
  actions : ∀ m, t.actions = some m → m.Sorted
  events : ∀ m, t.events = some m → m.Sorted
  securityDefinitions : t.securityDefinitions.Sorted
  uriVariables : ∀ m, t.uriVariables = some m → m.Sorted
  schemaDefinitions : ∀ m, t.schemaDefinitions = some m → m.Sorted

end Wot
