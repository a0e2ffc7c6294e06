import Verif.Model.Schema
import Verif.Spec.Basic
import Verif.Spec.Float
/-
Specification vocabulary for data schemas: what occurs inside a schema, and which rules a schema has
to obey. Nothing here refers to the functions of the crate.
-/
namespace Wot

variable {L DS AS OS : Type}

/-- `Within x s`: the schema `x` is `s` itself or occurs, at any depth, inside it: among the `oneOf`
alternatives, the array items or the object properties. -/
inductive Within : Schema L DS AS OS → Schema L DS AS OS → Prop
  | self (s : Schema L DS AS OS) : Within s s
  | oneOf {x s c : Schema L DS AS OS} {l : List (Schema L DS AS OS)} :
      s.oneOf = some l → c ∈ l → Within x c → Within x s
  | item {x s c : Schema L DS AS OS} {a : ArrayF AS (Schema L DS AS OS)} :
      s.subtype = some (.array a) → a.items = some (.elem c) → Within x c → Within x s
  | items {x s c : Schema L DS AS OS} {a : ArrayF AS (Schema L DS AS OS)}
      {l : List (Schema L DS AS OS)} :
      s.subtype = some (.array a) → a.items = some (.vec l) → c ∈ l → Within x c → Within x s
  | property {x s c : Schema L DS AS OS} {o : ObjectF OS (Schema L DS AS OS)}
      {m : List (String × Schema L DS AS OS)} {k : String} :
      s.subtype = some (.object o) → o.properties = some m → (k, c) ∈ m → Within x c → Within x s

/-- The bound of a minimum, whether inclusive or exclusive. -/
def Minimum.bound {T : Type} : Minimum T → T
  | .inclusive a => a
  | .exclusive a => a

/-- The bound of a maximum, whether inclusive or exclusive. -/
def Maximum.bound {T : Type} : Maximum T → T
  | .inclusive a => a
  | .exclusive a => a

/-- A minimum and a maximum are of the same kind: both inclusive or both exclusive. -/
def SameKind {T : Type} : Minimum T → Maximum T → Prop
  | .inclusive _, .inclusive _ => True
  | .exclusive _, .exclusive _ => True
  | _, _ => False

/-- The rules for array lengths: `minItems ≤ maxItems`. -/
def ArrayRule {S : Type} (a : ArrayF AS S) : Prop :=
  ∀ lo hi, a.minItems = some lo → a.maxItems = some hi → lo.val ≤ hi.val

/-- The rules the crate enforces on integer schemas: two bounds must be of the same kind and in
order. -/
def IntegerRule (n : IntegerSchema) : Prop :=
  ∀ lo hi, n.minimum = some lo → n.maximum = some hi → SameKind lo hi ∧ lo.bound.val ≤ hi.bound.val

/-- The rules the crate enforces on number schemas: bounds are not NaN, two bounds are of the same
kind and in order, and `multipleOf` is not less than or equal to zero. -/
def NumberRule (n : NumberSchema) : Prop :=
  (∀ lo, n.minimum = some lo → lo.bound.isNan = false) ∧
  (∀ hi, n.maximum = some hi → hi.bound.isNan = false) ∧
  (∀ lo hi, n.minimum = some lo → n.maximum = some hi → SameKind lo hi ∧ F64.Le lo.bound hi.bound) ∧
  (∀ x, n.multipleOf = some x → ¬ F64.Le x F64.zero)

/-- The rules of one schema, not looking at the schemas nested in it. -/
def SchemaRule (s : Schema L DS AS OS) : Prop :=
  match s.subtype with
  | some (.array a) => ArrayRule a
  | some (.number n) => NumberRule n
  | some (.integer n) => IntegerRule n
  | _ => True

/-- Every schema within `s` obeys the rules. -/
def AllRules (s : Schema L DS AS OS) : Prop := ∀ x, Within x s → SchemaRule x

/-- `s` with `f` applied to every `titles` and `descriptions` at every depth and nothing else
changed. -/
def Schema.mapLang {L' : Type} (f : L → L') : Schema L DS AS OS → Schema L' DS AS OS :=
  Schema.fold fun h o s =>
    .mk { attype := h.attype, title := h.title, titles := h.titles.map f,
          description := h.description, descriptions := h.descriptions.map f,
          constant := h.constant, default := h.default, unit := h.unit,
          enumeration := h.enumeration, readOnly := h.readOnly, writeOnly := h.writeOnly,
          format := h.format, other := h.other } o s

/-- The language keys supplied in one group of translations. -/
def KeyOf (o : Option MultiLanguageBuilder) (k : String) : Prop :=
  ∃ b, o = some b ∧ k ∈ HMap.keys b.values

/-- The language keys supplied anywhere in a data schema. -/
def SchemaKey (s : UncheckedDataSchema DS AS OS) (k : String) : Prop :=
  ∃ x, Within x s ∧ (KeyOf x.head.titles k ∨ KeyOf x.head.descriptions k)

/-- Representation invariant of the model's maps (not a condition on Rust values: every Rust
`HashMap` has distinct keys): the maps of translations and of object properties are key-sorted. -/
def LangRep (o : Option MultiLanguageBuilder) : Prop := ∀ b, o = some b → HMap.Sorted b.values

/-- Representation invariant of a schema, see `LangRep`. -/
def SchemaRep (s : UncheckedDataSchema DS AS OS) : Prop :=
  ∀ x, Within x s → LangRep x.head.titles ∧ LangRep x.head.descriptions ∧
    ∀ o m, x.subtype = some (.object o) → o.properties = some m → HMap.Sorted m

end Wot
