import Verif.Model.Json
/-
Data schemas: the types of `src/thing.rs:669–1104` and their unchecked counterparts
(`src/builder/data_schema.rs:65–81`, `src/thing.rs:762–771, 820–825, 1046–1050`).

The Rust types `DataSchema` and `UncheckedDataSchema` differ only in the type of
`titles`/`descriptions`; they are one Lean type with that type as parameter `L`.
-/
namespace Wot

/-- The non-recursive members of `DataSchema` (`src/thing.rs:674–727`) resp. `UncheckedDataSchema`
(`src/builder/data_schema.rs:65–81`). Grouping them is a presentational choice of the model. -/
structure SchemaHead (L DS : Type) where
  attype : Option (List String) := none
  title : Option String := none
  titles : Option L := none
  description : Option String := none
  descriptions : Option L := none
  constant : Option Json := none
  default : Option Json := none
  unit : Option String := none
  enumeration : Option (List Json) := none
  readOnly : Bool := false
  writeOnly : Bool := false
  format : Option String := none
  other : DS

/-- `NumberSchema` (`src/thing.rs:999–1010`). -/
structure NumberSchema where
  maximum : Option (Maximum F64) := none
  minimum : Option (Minimum F64) := none
  multipleOf : Option F64 := none
  deriving DecidableEq

/-- `IntegerSchema` (`src/thing.rs:1017–1028`). -/
structure IntegerSchema where
  maximum : Option (Maximum I64) := none
  minimum : Option (Minimum I64) := none
  multipleOf : Option NonZeroU64 := none
  deriving DecidableEq

/-- `StringSchema` (`src/thing.rs:1082–1104`). -/
structure StringSchema where
  minLength : Option U32 := none
  maxLength : Option U32 := none
  pattern : Option String := none
  contentEncoding : Option String := none
  contentMediaType : Option String := none
  deriving DecidableEq

/-- `BoxedElemOrVec<T>` (`src/thing.rs:814–817`). -/
inductive ElemOrVec (S : Type)
  | elem (s : S)
  | vec (l : List S)

/-- `ArraySchema` (`src/thing.rs:786–810`) / `UncheckedArraySchema` (`src/thing.rs:820–825`), with the
type of nested schemas as parameter. -/
structure ArrayF (AS S : Type) where
  items : Option (ElemOrVec S)
  minItems : Option U32
  maxItems : Option U32
  other : AS

/-- `ObjectSchema` (`src/thing.rs:1033–1043`) / `UncheckedObjectSchema` (`src/thing.rs:1046–1050`). -/
structure ObjectF (OS S : Type) where
  /-- a `HashMap<String, S>`, see `HMap` -/
  properties : Option (List (String × S))
  required : Option (List String)
  other : OS

/-- `DataSchemaSubtype` (`src/thing.rs:738–759`) / `UncheckedDataSchemaSubtype`
(`src/thing.rs:762–771`), with the type of nested schemas as parameter. -/
inductive SubtypeF (AS OS S : Type)
  | array (a : ArrayF AS S)
  | boolean
  | number (n : NumberSchema)
  | integer (n : IntegerSchema)
  | object (o : ObjectF OS S)
  | string (s : StringSchema)
  | null

/-- `DataSchema<DS, AS, OS>` (`src/thing.rs:674–727`) for `L = MultiLanguage`,
`UncheckedDataSchema<DS, AS, OS>` (`src/builder/data_schema.rs:65–81`) for
`L = MultiLanguageBuilder`. -/
inductive Schema (L DS AS OS : Type)
  | mk (head : SchemaHead L DS) (oneOf : Option (List (Schema L DS AS OS)))
      (subtype : Option (SubtypeF AS OS (Schema L DS AS OS)))

abbrev UncheckedDataSchema (DS AS OS : Type) := Schema MultiLanguageBuilder DS AS OS
abbrev DataSchema (DS AS OS : Type) := Schema MultiLanguage DS AS OS

variable {L DS AS OS R S S' : Type}

namespace Schema

/-- Field access: the non-recursive members. -/
def head : Schema L DS AS OS → SchemaHead L DS
  | .mk h _ _ => h
/-- Field access: `one_of`. -/
def oneOf : Schema L DS AS OS → Option (List (Schema L DS AS OS))
  | .mk _ o _ => o
/-- Field access: `subtype`. -/
def subtype : Schema L DS AS OS → Option (SubtypeF AS OS (Schema L DS AS OS))
  | .mk _ _ s => s

end Schema

/-- Apply a function to the nested schemas of `items`. -/
def ElemOrVec.map (f : S → S') : ElemOrVec S → ElemOrVec S'
  | .elem s => .elem (f s)
  | .vec l => .vec (l.map f)

/-- Apply a function to the nested schemas of a subtype. -/
def SubtypeF.map (f : S → S') : SubtypeF AS OS S → SubtypeF AS OS S'
  | .array a => .array ⟨a.items.map (ElemOrVec.map f), a.minItems, a.maxItems, a.other⟩
  | .boolean => .boolean
  | .number n => .number n
  | .integer n => .integer n
  | .object o => .object ⟨o.properties.map (HMap.mapVals f), o.required, o.other⟩
  | .string s => .string s
  | .null => .null

/-- What a recursive function over schemas does with a schema whose nested schemas have already
been processed. -/
abbrev SchemaAlg (L DS AS OS R : Type) :=
  SchemaHead L DS → Option (List R) → Option (SubtypeF AS OS R) → R

mutual
/-- Bottom-up recursion over schemas: the common shape of the recursive `try_from`, serialiser
and size functions. See `Schema.fold_mk` for its defining equation. -/
def Schema.fold (f : SchemaAlg L DS AS OS R) : Schema L DS AS OS → R
  | .mk h o s => f h (Schema.foldOpt f o) (Schema.foldSub f s)
termination_by structural x => x
def Schema.foldOpt (f : SchemaAlg L DS AS OS R) : Option (List (Schema L DS AS OS)) → Option (List R)
  | none => none
  | some l => some (Schema.foldList f l)
termination_by structural x => x
def Schema.foldList (f : SchemaAlg L DS AS OS R) : List (Schema L DS AS OS) → List R
  | [] => []
  | x :: l => x.fold f :: Schema.foldList f l
termination_by structural x => x
def Schema.foldSub (f : SchemaAlg L DS AS OS R) :
    Option (SubtypeF AS OS (Schema L DS AS OS)) → Option (SubtypeF AS OS R)
  | none => none
  | some (.array ⟨none, a, b, c⟩) => some (.array ⟨none, a, b, c⟩)
  | some (.array ⟨some (.elem x), a, b, c⟩) => some (.array ⟨some (.elem (x.fold f)), a, b, c⟩)
  | some (.array ⟨some (.vec l), a, b, c⟩) =>
      some (.array ⟨some (.vec (Schema.foldList f l)), a, b, c⟩)
  | some .boolean => some .boolean
  | some (.number n) => some (.number n)
  | some (.integer n) => some (.integer n)
  | some (.object ⟨none, a, b⟩) => some (.object ⟨none, a, b⟩)
  | some (.object ⟨some m, a, b⟩) => some (.object ⟨some (Schema.foldProps f m), a, b⟩)
  | some (.string s) => some (.string s)
  | some .null => some .null
termination_by structural x => x
def Schema.foldProps (f : SchemaAlg L DS AS OS R) :
    List (String × Schema L DS AS OS) → List (String × R)
  | [] => []
  | (k, x) :: l => (k, x.fold f) :: Schema.foldProps f l
termination_by structural x => x
end

theorem Schema.foldList_eq (f : SchemaAlg L DS AS OS R) (l : List (Schema L DS AS OS)) :
    Schema.foldList f l = l.map (Schema.fold f) := by
  induction l <;> simp [Schema.foldList, *]

theorem Schema.foldProps_eq (f : SchemaAlg L DS AS OS R) (l : List (String × Schema L DS AS OS)) :
    Schema.foldProps f l = HMap.mapVals (Schema.fold f) l := by
  induction l <;> simp [Schema.foldProps, HMap.mapVals] at *
  assumption

/-- The defining equation of `Schema.fold`. -/
theorem Schema.fold_mk (f : SchemaAlg L DS AS OS R) (h : SchemaHead L DS)
    (o : Option (List (Schema L DS AS OS))) (s : Option (SubtypeF AS OS (Schema L DS AS OS))) :
    Schema.fold f (.mk h o s) =
      f h (o.map (List.map (Schema.fold f))) (s.map (SubtypeF.map (Schema.fold f))) := by
  rw [Schema.fold]
  congr 1
  · cases o <;> simp [Schema.foldOpt, foldList_eq]
  · rcases s with _ | (⟨_ | (_ | _), _, _, _⟩ | _ | _ | _ | ⟨_ | _, _, _⟩ | _ | _) <;>
      simp [Schema.foldSub, foldList_eq, foldProps_eq, SubtypeF.map, ElemOrVec.map]

/-- The schemas directly nested in `items`, in order. -/
def ElemOrVec.toList : ElemOrVec S → List S
  | .elem s => [s]
  | .vec l => l

/-- The schemas directly nested in a subtype (object properties in representation order). -/
def SubtypeF.children : SubtypeF AS OS S → List S
  | .array a => (a.items.map ElemOrVec.toList).getD []
  | .object o => (o.properties.map HMap.values).getD []
  | _ => []

/-- Structural induction over schemas. -/
theorem Schema.ind {P : Schema L DS AS OS → Prop}
    (h : ∀ (hd : SchemaHead L DS) (o : Option (List (Schema L DS AS OS)))
      (s : Option (SubtypeF AS OS (Schema L DS AS OS))), (∀ l, o = some l → ∀ c ∈ l, P c) →
      (∀ st, s = some st → ∀ c ∈ st.children, P c) → P (.mk hd o s))
    (s : Schema L DS AS OS) : P s := by
  apply Schema.rec (motive_1 := P)
    (motive_2 := fun o => ∀ l, o = some l → ∀ c ∈ l, P c)
    (motive_3 := fun s => ∀ st, s = some st → ∀ c ∈ st.children, P c)
    (motive_4 := fun l => ∀ c ∈ l, P c)
    (motive_5 := fun st => ∀ c ∈ st.children, P c)
    (motive_6 := fun a => ∀ c ∈ (a.items.map ElemOrVec.toList).getD [], P c)
    (motive_7 := fun o => ∀ c ∈ (o.properties.map HMap.values).getD [], P c)
    (motive_8 := fun i => ∀ c ∈ (i.map ElemOrVec.toList).getD [], P c)
    (motive_9 := fun m => ∀ c ∈ (m.map HMap.values).getD [], P c)
    (motive_10 := fun e => ∀ c ∈ e.toList, P c)
    (motive_11 := fun l => ∀ kv ∈ l, P kv.2)
    (motive_12 := fun kv => P kv.2) <;>
    simp_all [SubtypeF.children, ElemOrVec.toList, HMap.values]
  intro val h1 c x hx
  exact h1 x c hx

end Wot
