import Verif.Spec.Schema
/-
The combinations of members that occur in data schemas made with the builders.
-/
namespace Wot

variable {L DS AS OS : Type}

/-- The members of one data schema fit together. -/
structure SchemaShape (x : Schema L DS AS OS) : Prop where
  /-- not both `readOnly` and `writeOnly` -/
  access : ¬ (x.head.readOnly = true ∧ x.head.writeOnly = true)
  /-- `required`, if present, is a non-empty list of names of `properties` -/
  required : ∀ o r, x.subtype = some (.object o) → o.required = some r →
    r ≠ [] ∧ ∀ n ∈ r, ∃ m s, o.properties = some m ∧ (n, s) ∈ m
  /-- `properties`, if present, is not empty -/
  properties : ∀ o m, x.subtype = some (.object o) → o.properties = some m → m ≠ []
  /-- with `oneOf` there is no type, `enum` or `const`, it is not empty and not restricted in access -/
  oneOf : ∀ l, x.oneOf = some l → l ≠ [] ∧ x.subtype = none ∧ x.head.enumeration = none ∧
    x.head.constant = none ∧ x.head.readOnly = false ∧ x.head.writeOnly = false
  /-- with `enum` there is no type, `oneOf` or `const`, and it is not empty -/
  enumeration : ∀ l, x.head.enumeration = some l → l ≠ [] ∧ x.subtype = none ∧ x.oneOf = none ∧
    x.head.constant = none
  /-- with `const` there is no type, `oneOf` or `enum`, and it is read-only -/
  constant : ∀ v, x.head.constant = some v → x.subtype = none ∧ x.oneOf = none ∧
    x.head.enumeration = none ∧ x.head.readOnly = true
  /-- a list of item schemas comes without length restrictions -/
  tuple : ∀ a l, x.subtype = some (.array a) → a.items = some (.vec l) →
    a.minItems = none ∧ a.maxItems = none

end Wot
