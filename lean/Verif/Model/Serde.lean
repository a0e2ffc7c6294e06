import Verif.Model.Thing
/-
The parts of serde, serde_json and serde_with that the derived `Serialize`/`Deserialize` impls of
`src/thing.rs`, `src/hlist.rs` and `src/protocol/*.rs` rely on. These crates are external: what is said
here about them is part of the trusted base. A `Deserialize` impl is a function `Json → Option A` on
documents; errors are not told apart. The document is what a deserialiser sees: members in the order of
the text (`serde_json::from_str`) or sorted (`serde_json::from_value`).
-/
namespace Wot

/-- The members of an object in document order. -/
abbrev Members := List (String × Json)

/-! ### Values -/

mutual
/-- `serde_json::to_value` of something whose document is the argument, and equally
`serde_json::from_str::<Value>`: `serde_json::Map` is a `BTreeMap`, so of several members with the same
name the last one stays and members are sorted. -/
def Json.norm : Json → Json
  | .null => .null
  | .bool b => .bool b
  | .num n => .num n
  | .str s => .str s
  | .arr l => .arr (Json.normList l)
  | .obj m => .obj (HMap.collect (Json.normMembers m))
termination_by structural x => x
/-- All elements of an array. -/
def Json.normList : List Json → List Json
  | [] => []
  | j :: l => j.norm :: Json.normList l
termination_by structural x => x
/-- All members of an object. -/
def Json.normMembers : List (String × Json) → List (String × Json)
  | [] => []
  | (k, j) :: m => (k, j.norm) :: Json.normMembers m
termination_by structural x => x
end

mutual
/-- Nesting depth, at least 1. -/
def Json.depth : Json → Nat
  | .arr l => Json.depthList l + 1
  | .obj m => Json.depthMembers m + 1
  | _ => 1
termination_by structural x => x
/-- The largest depth in an array. -/
def Json.depthList : List Json → Nat
  | [] => 0
  | j :: l => max j.depth (Json.depthList l)
termination_by structural x => x
/-- The largest depth among the members. -/
def Json.depthMembers : List (String × Json) → Nat
  | [] => 0
  | (_, j) :: m => max j.depth (Json.depthMembers m)
termination_by structural x => x
end

/-- External functions used by serialisation, besides those of `Env`.
* `langRead`: `Deserialize for LanguageTag<String>` on a string (oxilangtag, `LanguageTag::parse`);
* `timeFormat`, `timeParse`: `time::serde::rfc3339` (`src/thing.rs:89, 95`).
No laws are part of this structure. -/
structure SerdeEnv extends Env where
  langRead : String → Option String
  timeFormat : OffsetDateTime → Option String
  timeParse : String → Option OffsetDateTime

variable {α β : Type}

/-- `iter.map(f).collect::<Result<Vec<_>, _>>()` with the error forgotten. -/
def mapOpt (f : α → Option β) : List α → Option (List β)
  | [] => some []
  | a :: l =>
    match f a with
    | none => none
    | some b =>
      match mapOpt f l with
      | none => none
      | some bs => some (b :: bs)

/-- The same on the values of members. -/
def mapOptVals (f : α → Option β) (m : List (String × α)) : Option (List (String × β)) :=
  mapOpt (fun kv => (f kv.2).map fun b => (kv.1, b)) m

/-- `Option::map(f).transpose()` with the error forgotten. -/
def optOpt (f : α → Option β) : Option α → Option (Option β)
  | none => some none
  | some a => (f a).map some

/-! ### Writing -/

/-- `Serialize for f64` with serde_json: non-finite numbers become `null`. -/
def serF64 (f : F64) : Json := if f.isFinite then .num (.float f) else .null

/-- `Serialize for i64` with serde_json. -/
def serI64 (z : I64) : Json :=
  if 0 ≤ z.val then .num (.pos z.val.toNat) else .num (.neg (-(z.val + 1)).toNat)

/-- `Serialize` for unsigned integers. -/
def serNat (n : Nat) : Json := .num (.pos n)

/-- `SerializeAs for OneOrMany<_>` (serde_with, format `PreferOne`): one element is written without
brackets. -/
def serOneOrMany : List Json → Json
  | [j] => j
  | l => .arr l

/-- A list of strings through `OneOrMany`. -/
def serStrings (l : List String) : Json := serOneOrMany (l.map .str)

/-- `Serialize for HashMap<String, _>`: in iteration order. -/
def serMap (env : Env) (f : α → Option Json) (m : HMap α) : Option Json :=
  (mapOptVals f (env.iter m)).map .obj

/-- `Serialize for HashMap<LanguageTag<String>, String>`. -/
def serLang (env : Env) (m : MultiLanguage) : Json :=
  .obj ((env.iter m.map).map fun kv => (kv.1, .str kv.2))

/-- The fields of a struct in declaration order; `none` marks a field omitted by
`skip_serializing_if`/`skip_serializing_none`. -/
def members (l : List (String × Option Json)) : Members :=
  l.filterMap fun kv => kv.2.map fun v => (kv.1, v)

/-! ### Reading -/

/-- All values of the members with a given name. -/
def occ (k : String) (es : Members) : List Json :=
  es.filterMap fun kv => if kv.1 = k then some kv.2 else none

/-- A field without default: exactly one member (`missing field`, `duplicate field`). -/
def required (k : String) (de : Json → Option α) (es : Members) : Option α :=
  match occ k es with
  | [v] => de v
  | _ => none

/-- `Deserialize for Option<_>`. -/
def deOption (de : Json → Option α) : Json → Option (Option α)
  | .null => some none
  | j => (de j).map some

/-- A field with `default = …`. -/
def defaulted (k : String) (d : α) (de : Json → Option α) (es : Members) : Option α :=
  match occ k es with
  | [] => some d
  | [v] => de v
  | _ => none

/-- A field of type `Option<_>`, with or without `default`. -/
def optional (k : String) (de : Json → Option α) (es : Members) : Option (Option α) :=
  defaulted k none (deOption de) es

/-- The members that are not fields of the struct; they are collected for `flatten`, otherwise ignored. -/
def rest (known : List String) (es : Members) : Members :=
  es.filter fun kv => !known.contains kv.1

/-- `Deserialize for String`. -/
def deStr : Json → Option String
  | .str s => some s
  | _ => none

/-- `Deserialize for bool`. -/
def deBool : Json → Option Bool
  | .bool b => some b
  | _ => none

/-- `Deserialize for Value`: never fails. -/
def deValue (j : Json) : Option Json := some j.norm

/-- `Deserialize` for unsigned integers below `bound`. -/
def deNat (bound : Nat) : Json → Option Nat
  | .num (.pos n) => if n < bound then some n else none
  | _ => none

/-- `Deserialize for u32`. -/
def deU32 : Json → Option U32
  | .num (.pos n) => if h : n < 2^32 then some ⟨n, h⟩ else none
  | _ => none

/-- `Deserialize for NonZeroU64`. -/
def deNonZeroU64 : Json → Option NonZeroU64
  | .num (.pos n) => NonZeroU64.ofNat? n
  | _ => none

/-- `Deserialize for i64`. -/
def deI64 : Json → Option I64
  | .num (.pos n) => I64.ofInt? n
  | .num (.neg n) => I64.ofInt? (-(n + 1 : Int))
  | _ => none

/-- The magnitude bits of `n as f64`: an integer of up to 53 bits is shifted into place, of a longer one the
first 53 bits are kept and rounded with the others, half to even. (A carry out of the fraction increments
the exponent.) -/
def F64.roundMag (n : Nat) : Nat :=
  if n = 0 then 0
  else if n.log2 ≤ 52 then (n.log2 + 1023) * 2^52 + (n * 2^(52 - n.log2) - 2^52)
  else
    let s := n.log2 - 52
    let q := n / 2^s
    let r := n % 2^s
    let q' := if 2^s < 2 * r ∨ (2 * r = 2^s ∧ q % 2 = 1) then q + 1 else q
    (n.log2 + 1023) * 2^52 + (q' - 2^52)

/-- The casts `u64 as f64` and `i64 as f64` of serde's `Deserialize for f64`. (Integers that are too large,
which do not occur, become infinite.) -/
def F64.ofInt (z : Int) : F64 :=
  have h : min (F64.roundMag z.natAbs) F64.infMag < 2^63 := Nat.lt_of_le_of_lt (Nat.min_le_right _ _) (by decide)
  if z < 0 then .ofBits (2^63 + min (F64.roundMag z.natAbs) F64.infMag) (by omega)
  else .ofBits (min (F64.roundMag z.natAbs) F64.infMag) (by omega)

/-- `Deserialize for f64`: integers are cast. -/
def deF64 : Json → Option F64
  | .num (.float f) => some f
  | .num (.pos n) => some (.ofInt n)
  | .num (.neg n) => some (.ofInt (-(n + 1 : Int)))
  | _ => none

/-- `Deserialize for Vec<_>`. -/
def deVec (de : Json → Option α) : Json → Option (List α)
  | .arr l => mapOpt de l
  | _ => none

/-- `DeserializeAs for OneOrMany<_>` (serde_with): first as one element, then as an array. -/
def deOneOrMany (de : Json → Option α) (j : Json) : Option (List α) :=
  match de j with
  | some a => some [a]
  | none => deVec de j

/-- A list of strings through `OneOrMany`. -/
def deStrings : Json → Option (List String) := deOneOrMany deStr

/-- `Deserialize for HashMap<String, _>`: a repeated key replaces the value. -/
def deMap (de : Json → Option α) : Json → Option (HMap α)
  | .obj es => (mapOptVals de es).map HMap.collect
  | _ => none

/-- `Deserialize for HashMap<LanguageTag<String>, String>`. -/
def deLang (env : SerdeEnv) : Json → Option MultiLanguage
  | .obj es =>
    (mapOpt (fun kv => (env.langRead kv.1).bind fun t => (deStr kv.2).map fun s => (t, s)) es).map
      fun l => ⟨HMap.collect l⟩
  | _ => none

/-- The value belonging to a name. -/
def nameOf? (table : List (String × α)) (s : String) : Option α :=
  (table.find? fun e => e.1 = s).map (·.2)

/-- A derived enum of unit variants: the variant's name, or an object `{name: null}`. -/
def deEnum (table : List (String × α)) : Json → Option α
  | .str s => nameOf? table s
  | .obj [(s, .null)] => nameOf? table s
  | _ => none

/-- The same when it is read from buffered content that is consumed (`ContentDeserializer`), as are flattened fields,
the contents of internally tagged enums and the elements of arrays in `OneOrMany`: there a unit can also be an
empty object. -/
def deEnumBuffered (table : List (String × α)) : Json → Option α
  | .str s => nameOf? table s
  | .obj [(s, .null)] => nameOf? table s
  | .obj [(s, .obj [])] => nameOf? table s
  | _ => none

/-- The tag of an internally tagged enum read from buffered content: a variant's name or its index. -/
def deTag (table : List (String × α)) : Json → Option α
  | .str s => nameOf? table s
  | .num (.pos n) => (table[n]?).map (·.2)
  | _ => none

/-- The (de)serialiser of an extension type (`ExtendablePiece`, `src/extend.rs:14–16`), used only
through `#[serde(flatten)]`. `takes` says whether reading removes the recognised members from those offered to
later flattened fields (structs without flattened fields do, structs with flattened fields do not). -/
structure ExtCodec (A : Type) where
  keys : List String
  ser : A → Option Members
  de : Members → Option A
  takes : Bool

/-- The extension codecs of all associated types. -/
structure ExtCodecs (X : ExtTypes) where
  thing : ExtCodec X.thing
  interaction : ExtCodec X.interaction
  property : ExtCodec X.property
  action : ExtCodec X.action
  event : ExtCodec X.event
  form : ExtCodec X.form
  response : ExtCodec X.response
  dataSchema : ExtCodec X.dataSchema
  objectSchema : ExtCodec X.objectSchema
  arraySchema : ExtCodec X.arraySchema

end Wot
