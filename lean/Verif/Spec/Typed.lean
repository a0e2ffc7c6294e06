import Verif.Spec.Grammar
import Verif.Spec.Float
/-
What the members of a data schema that depend on its type say.
-/
namespace Wot

/-- The name of the type of a data schema. -/
def SubtypeF.typeName {AS OS S : Type} : SubtypeF AS OS S → String
  | .array _ => "array"
  | .boolean => "boolean"
  | .number _ => "number"
  | .integer _ => "integer"
  | .object _ => "object"
  | .string _ => "string"
  | .null => "null"

namespace Doc

/-! ### Numbers -/

/-- The value is the integer `z`. -/
def IsInteger (v : Json) (z : Int) : Prop :=
  (∃ n : Nat, v = .num (.pos n) ∧ z = n) ∨ ∃ n : Nat, v = .num (.neg n) ∧ z = -(n + 1 : Int)

/-- The value as a floating point number: the number itself, or the one that is nearest to an integer. -/
def IsFloat (v : Json) (x : F64) : Prop :=
  v = .num (.float x) ∨ ∃ z, IsInteger v z ∧ x.Nearest z ∧ x.neg = decide (z < 0)

def IsU32 (v : Json) (n : U32) : Prop := v = .num (.pos n.val)
def IsNonZero (v : Json) (n : NonZeroU64) : Prop := v = .num (.pos n.val)
def IsI64 (v : Json) (n : I64) : Prop := IsInteger v n.val
def IsString (v : Json) (s : String) : Prop := v = .str s
def IsStrings (v : Json) (l : List String) : Prop := v = .arr (l.map .str)

/-! ### Which type -/

/-- The types, in the order of their declaration. -/
def types : List String := ["array", "boolean", "number", "integer", "object", "string", "null"]

/-- The member `type` names the type, or is its number. -/
def TypeIs (T : String) (es : Members) : Prop :=
  HasOne "type" es fun v => v = .str T ∨ ∃ n, v = .num (.pos n) ∧ types[n]? = some T

/-- The names of the members that are not passed to the extensions of arrays and objects. -/
def arrayNames (K : List String) : List String := K ++ Names.schemaHead ++ ["type", "items", "min_items", "max_items"]
def objectNames (K : List String) : List String := K ++ Names.schemaHead ++ ["type", "properties", "required"]

/-- The members that depend on the type are as they should be. Numeric bounds are not mentioned: they can be
anything. `K` are names of members that do not belong to the schema. -/
inductive Constraints {DSx AS OS : Type} (env : SerdeEnv) (C : ExtCodec DSx) (CA : ExtCodec AS) (CO : ExtCodec OS)
    (K : List String) (es : Members) : String → Prop
  | boolean : Constraints env C CA CO K es "boolean"
  | null : Constraints env C CA CO K es "null"
  | number : AtMostOne "multipleOf" es (fun v => ∃ n, v = .num n) → Constraints env C CA CO K es "number"
  | integer : AtMostOne "multipleOf" es (fun v => ∃ n, v = .num (.pos n) ∧ 0 < n ∧ n < 2^64) →
      Constraints env C CA CO K es "integer"
  | string : AtMostOne "minLength" es (fun v => ∃ n, v = .num (.pos n) ∧ n < 2^32) →
      AtMostOne "maxLength" es (fun v => ∃ n, v = .num (.pos n) ∧ n < 2^32) → AtMostOne "pattern" es IsText →
      AtMostOne "contentEncoding" es IsText → AtMostOne "contentMediaType" es IsText →
      Constraints env C CA CO K es "string"
  | array : AtMostOne "items" es (OneOrMany (Schema env C)) →
      AtMostOne "min_items" es (fun v => ∃ n, v = .num (.pos n) ∧ n < 2^32) →
      AtMostOne "max_items" es (fun v => ∃ n, v = .num (.pos n) ∧ n < 2^32) → Extra CA (arrayNames K) es →
      Constraints env C CA CO K es "array"
  | object : AtMostOne "properties" es (MapOf (Schema env C)) → AtMostOne "required" es (ArrayOf IsText) →
      Extra CO (objectNames K) es → Constraints env C CA CO K es "object"

/-! ### What the members say -/

/-- The field is what the member `k` says. -/
def Says {T : Type} (k : String) (es : Members) (Is : Json → T → Prop) (o : Option T) : Prop :=
  ∀ x, o = some x ↔ ∃ v, (k, v) ∈ es ∧ Is v x

/-- Of the members `k` and `k'`, the first one is `k` with the value `v`. -/
def First (k k' : String) (es : Members) (v : Json) : Prop :=
  ∃ a b, es = a ++ (k, v) :: b ∧ ∀ kv ∈ a, kv.1 ≠ k ∧ kv.1 ≠ k'

/-- The minimum is what the first of the two members says, if that can be read. -/
def SaysMinimum {T : Type} (es : Members) (Is : Json → T → Prop) (o : Option (Minimum T)) : Prop :=
  ∀ x, (o = some (.inclusive x) ↔ ∃ v, First "minimum" "exclusiveMinimum" es v ∧ Is v x) ∧
    (o = some (.exclusive x) ↔ ∃ v, First "exclusiveMinimum" "minimum" es v ∧ Is v x)

/-- The same for the maximum. -/
def SaysMaximum {T : Type} (es : Members) (Is : Json → T → Prop) (o : Option (Maximum T)) : Prop :=
  ∀ x, (o = some (.inclusive x) ↔ ∃ v, First "maximum" "exclusiveMaximum" es v ∧ Is v x) ∧
    (o = some (.exclusive x) ↔ ∃ v, First "exclusiveMaximum" "maximum" es v ∧ Is v x)

/-- The items of an array: one schema, or an array of schemas. -/
def IsItems {S : Type} (read : Json → Option S) (v : Json) : ElemOrVec S → Prop
  | .elem s => read v = some s
  | .vec ss => ∃ l, v = .arr l ∧ Pointwise (fun w s => read w = some s) l ss

/-- The properties of an object: of members with the same name, the last one counts. -/
def IsMap {S : Type} (read : Json → Option S) (v : Json) (m : List (String × S)) : Prop :=
  ∃ ps, v = .obj ps ∧ ∀ k s, (k, s) ∈ m ↔ ∃ w, lastOf (occ k ps) = some w ∧ read w = some s

/-- The map is what the member `k` says. -/
def SaysMap {S : Type} (k : String) (es : Members) (read : Json → Option S) (o : Option (List (String × S))) : Prop :=
  (o = none ↔ LeftOut k es) ∧ ∀ m, o = some m → ∃ v, (k, v) ∈ es ∧ IsMap read v m

/-- The fields that depend on the type are what the members say; `read` reads a nested schema. -/
inductive TypeSays {AS OS S : Type} (read : Json → Option S) (CA : ExtCodec AS) (CO : ExtCodec OS)
    (K : List String) (es : Members) : SubtypeF AS OS S → Prop
  | boolean : TypeSays read CA CO K es .boolean
  | null : TypeSays read CA CO K es .null
  | number {n : NumberSchema} : SaysMaximum es IsFloat n.maximum → SaysMinimum es IsFloat n.minimum →
      Says "multipleOf" es IsFloat n.multipleOf → TypeSays read CA CO K es (.number n)
  | integer {n : IntegerSchema} : SaysMaximum es IsI64 n.maximum → SaysMinimum es IsI64 n.minimum →
      Says "multipleOf" es IsNonZero n.multipleOf → TypeSays read CA CO K es (.integer n)
  | string {s : StringSchema} : Says "minLength" es IsU32 s.minLength → Says "maxLength" es IsU32 s.maxLength →
      Says "pattern" es IsString s.pattern → Says "contentEncoding" es IsString s.contentEncoding →
      Says "contentMediaType" es IsString s.contentMediaType → TypeSays read CA CO K es (.string s)
  | array {a : ArrayF AS S} : Says "items" es (IsItems read) a.items → Says "min_items" es IsU32 a.minItems →
      Says "max_items" es IsU32 a.maxItems →
      CA.de (es.filter fun kv => !(arrayNames K).contains kv.1) = some a.other → TypeSays read CA CO K es (.array a)
  | object {o : ObjectF OS S} : SaysMap "properties" es read o.properties →
      Says "required" es IsStrings o.required →
      CO.de (es.filter fun kv => !(objectNames K).contains kv.1) = some o.other → TypeSays read CA CO K es (.object o)

end Doc
end Wot
