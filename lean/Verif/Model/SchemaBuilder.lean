import Verif.Model.SchemaCheck
/-
The data schema builders (`src/builder/data_schema.rs:100–3800`) and the human readable information
shared by builders (`src/builder/human_readable_info.rs`).

The Rust builders are a family of types (`NumberDataSchemaBuilder<Inner>`, `ReadOnly<Inner>`, …).
The model has one type `KindBuilder Inner` with the kind and the `ReadOnly`/`WriteOnly` wrapper as
data; calls that do not type check in Rust yield `none`.
-/
namespace Wot

variable {DS AS OS DS' : Type}

/-- `HumanReadableInfo` (`src/builder/human_readable_info.rs:10–22`). -/
structure HumanReadableInfo where
  attype : Option (List String) := none
  title : Option String := none
  titles : Option MultiLanguageBuilder := none
  description : Option String := none
  descriptions : Option MultiLanguageBuilder := none
  deriving DecidableEq

/-- A `FnOnce(&mut MultiLanguageBuilder) -> &mut MultiLanguageBuilder` closure run on a default
builder (`src/builder/human_readable_info.rs:81–82`, `src/builder.rs:1189–1190`, `1203–1204`), given
by the `add` calls it makes. -/
def MultiLanguageBuilder.ofCalls (calls : List (String × String)) : MultiLanguageBuilder :=
  calls.foldl (fun b kv => b.add kv.1 kv.2) .empty

/-- The calls of the trait `BuildableHumanReadableInfo`
(`src/builder/human_readable_info.rs:25–62`). -/
inductive InfoOp
  | attype (v : String)
  | title (v : String)
  | titles (calls : List (String × String))
  | description (v : String)
  | descriptions (calls : List (String × String))

/-- `impl BuildableHumanReadableInfo for HumanReadableInfo`
(`src/builder/human_readable_info.rs:64–101`). -/
def HumanReadableInfo.apply (i : HumanReadableInfo) : InfoOp → HumanReadableInfo
  | .attype v => { i with attype := optPush i.attype v }
  | .title v => { i with title := some v }
  | .titles c => { i with titles := some (.ofCalls c) }
  | .description v => { i with description := some v }
  | .descriptions c => { i with descriptions := some (.ofCalls c) }

/-- `PartialDataSchemaBuilder` (`src/builder/data_schema.rs:109–122`). -/
structure PartialDataSchemaBuilder (DS AS OS : Type) where
  constant : Option Json
  default : Option Json
  unit : Option String
  oneOf : List (UncheckedDataSchema DS AS OS)
  enumeration : List Json
  readOnly : Bool
  writeOnly : Bool
  format : Option String
  other : DS

namespace PartialDataSchemaBuilder

/-- `PartialDataSchemaBuilder::empty` / `default` (`src/builder/data_schema.rs:124–142, 216–234`). -/
def empty (other : DS) : PartialDataSchemaBuilder DS AS OS :=
  { constant := none, default := none, unit := none, oneOf := [], enumeration := [],
    readOnly := false, writeOnly := false, format := none, other }

/-- `ext_with` (`src/builder/data_schema.rs:146–177`); `f` is the `Extend` operation of the extension
with its argument applied. -/
def ext (b : PartialDataSchemaBuilder DS AS OS) (f : DS → DS') :
    PartialDataSchemaBuilder DS' AS OS :=
  { constant := b.constant, default := b.default, unit := b.unit, oneOf := [],
    enumeration := b.enumeration, readOnly := b.readOnly, writeOnly := b.writeOnly,
    format := b.format, other := f b.other }

/-- `finish_extend` (`src/builder/data_schema.rs:188–213`). -/
def finishExtend (b : PartialDataSchemaBuilder DS AS OS) : PartialDataSchemaBuilder DS AS OS :=
  { constant := b.constant, default := b.default, unit := b.unit, oneOf := b.oneOf,
    enumeration := b.enumeration, readOnly := b.readOnly, writeOnly := b.writeOnly,
    format := b.format, other := b.other }

/-- `unit` (`src/builder/data_schema.rs:2253`). -/
def setUnit (b : PartialDataSchemaBuilder DS AS OS) (v : String) :
    PartialDataSchemaBuilder DS AS OS := { b with unit := some v }
/-- `format` (`src/builder/data_schema.rs:2253`). -/
def setFormat (b : PartialDataSchemaBuilder DS AS OS) (v : String) :
    PartialDataSchemaBuilder DS AS OS := { b with format := some v }
/-- `default_value` (`src/builder/data_schema.rs:2255–2258`). -/
def setDefault (b : PartialDataSchemaBuilder DS AS OS) (v : Json) :
    PartialDataSchemaBuilder DS AS OS := { b with default := some v }
/-- `self.constant = Some(value)` (`src/builder/data_schema.rs:2413`). -/
def setConstant (b : PartialDataSchemaBuilder DS AS OS) (v : Json) :
    PartialDataSchemaBuilder DS AS OS := { b with constant := some v }
/-- `self.enumeration.push(value)` (`src/builder/data_schema.rs:2435, 2482, 2494`). -/
def pushEnum (b : PartialDataSchemaBuilder DS AS OS) (v : Json) :
    PartialDataSchemaBuilder DS AS OS := { b with enumeration := b.enumeration ++ [v] }
/-- `self.one_of.push(schema)` (`src/builder/data_schema.rs:2512, 2569, 2587`). -/
def pushOneOf (b : PartialDataSchemaBuilder DS AS OS) (s : UncheckedDataSchema DS AS OS) :
    PartialDataSchemaBuilder DS AS OS := { b with oneOf := b.oneOf ++ [s] }
/-- `read_only = true` (`src/builder/data_schema.rs:2606`). -/
def setReadOnly (b : PartialDataSchemaBuilder DS AS OS) :
    PartialDataSchemaBuilder DS AS OS := { b with readOnly := true }
/-- `write_only = true` (`src/builder/data_schema.rs:2614`). -/
def setWriteOnly (b : PartialDataSchemaBuilder DS AS OS) :
    PartialDataSchemaBuilder DS AS OS := { b with writeOnly := true }

end PartialDataSchemaBuilder

/-- `DataSchemaBuilder` (`src/builder/data_schema.rs:366–369`). -/
structure DataSchemaBuilder (DS AS OS : Type) where
  part : PartialDataSchemaBuilder DS AS OS
  info : HumanReadableInfo

namespace DataSchemaBuilder
/-- `DataSchemaBuilder::empty` / `default` (`src/builder/data_schema.rs:400–422`). -/
def empty (other : DS) : DataSchemaBuilder DS AS OS := ⟨.empty other, {}⟩
/-- `DataSchemaBuilder::ext_with` (`src/builder/data_schema.rs:373–382`). -/
def ext (b : DataSchemaBuilder DS AS OS) (f : DS → DS') : DataSchemaBuilder DS' AS OS :=
  ⟨b.part.ext f, b.info⟩
/-- `DataSchemaBuilder::finish_extend` (`src/builder/data_schema.rs:393–397`). -/
def finishExtend (b : DataSchemaBuilder DS AS OS) : DataSchemaBuilder DS AS OS :=
  ⟨b.part.finishExtend, b.info⟩
end DataSchemaBuilder

/-- The two innermost builders a `KindBuilder` can be built on: `PartialDataSchemaBuilder` itself or
`DataSchemaBuilder` through its field `partial` (the `$inner_path` of the macros in
`src/builder/data_schema.rs:2275–2640`). -/
class HasPartial (I : Type) (DS AS OS : outParam Type) where
  modify : (PartialDataSchemaBuilder DS AS OS → PartialDataSchemaBuilder DS AS OS) → I → I
  modifyInfo : (HumanReadableInfo → HumanReadableInfo) → Option (I → I)

instance : HasPartial (PartialDataSchemaBuilder DS AS OS) DS AS OS := ⟨fun f b => f b, fun _ => none⟩
instance : HasPartial (DataSchemaBuilder DS AS OS) DS AS OS :=
  ⟨fun f b => ⟨f b.part, b.info⟩, fun f => some fun b => ⟨b.part, f b.info⟩⟩

/-- `StatelessDataSchemaType` (`src/builder/data_schema.rs:1547–1553`). -/
inductive StatelessType
  | boolean | null
  deriving DecidableEq

/-- The kind-specific state of the specialised builders (`src/builder/data_schema.rs:1478–1559`). -/
inductive Kind (DS AS OS : Type)
  | stateless (ty : Option StatelessType)
  | tuple (items : List (UncheckedDataSchema DS AS OS)) (other : AS)
  | vec (item : Option (UncheckedDataSchema DS AS OS)) (minItems maxItems : Option U32) (other : AS)
  | number (n : NumberSchema)
  | integer (n : IntegerSchema)
  | object (properties : List (String × UncheckedDataSchema DS AS OS)) (required : List String)
      (other : OS)
  | string (s : StringSchema)
  | enum
  | oneOf

/-- The outermost wrapper: none, `ReadOnly<_>` or `WriteOnly<_>`
(`src/builder/data_schema.rs:1562–1569`). -/
inductive Access
  | both | readOnly | writeOnly
  deriving DecidableEq

/-- A specialised builder. -/
structure KindBuilder (I DS AS OS : Type) where
  inner : I
  kind : Kind DS AS OS
  access : Access

/-- The calls that turn a data schema builder into a specialised one: `SpecializableDataSchema`,
`EnumerableDataSchema`, `UnionDataSchema` (`src/builder/data_schema.rs:458–1392`). Closures are
represented by their result. -/
inductive SpecOp (DS AS OS : Type)
  | tuple (other : AS)
  | vec (other : AS)
  | bool
  | number
  | integer
  | object (other : OS)
  | string
  | null
  | constant (v : Json)
  | enumeration (v : Json)
  | oneOf (s : UncheckedDataSchema DS AS OS)

section
variable {I : Type} [HasPartial I DS AS OS]
open HasPartial

/-- `impl_specializable_data_schema!`, `impl_enumerable_data_schema!`, `impl_union_data_schema!`
(`src/builder/data_schema.rs:2275–2443, 2499–2520`). -/
def specialise (b : I) : SpecOp DS AS OS → KindBuilder I DS AS OS
  | .tuple other => ⟨b, .tuple [] other, .both⟩
  | .vec other => ⟨b, .vec none none none other, .both⟩
  | .bool => ⟨b, .stateless (some .boolean), .both⟩
  | .number => ⟨b, .number {}, .both⟩
  | .integer => ⟨b, .integer {}, .both⟩
  | .object other => ⟨b, .object [] [] other, .both⟩
  | .string => ⟨b, .string {}, .both⟩
  | .null => ⟨b, .stateless (some .null), .both⟩
  | .constant v => ⟨modify (·.setConstant v) b, .stateless none, .readOnly⟩
  | .enumeration v => ⟨modify (·.pushEnum v) b, .enum, .both⟩
  | .oneOf s => ⟨modify (·.pushOneOf s) b, .oneOf, .both⟩

/-- The calls available on specialised builders (`src/builder/data_schema.rs:1591–1801` and the
common traits). Closures are represented by their result. -/
inductive KindOp (DS AS OS : Type)
  | unit (v : String)
  | format (v : String)
  | defaultValue (v : Json)
  | info (op : InfoOp)
  | minItems (n : U32)
  | maxItems (n : U32)
  | setItem (s : UncheckedDataSchema DS AS OS)
  | append (s : UncheckedDataSchema DS AS OS)
  | fMinimum (x : F64)
  | fExclusiveMinimum (x : F64)
  | fMaximum (x : F64)
  | fExclusiveMaximum (x : F64)
  | fMultipleOf (x : F64)
  | iMinimum (x : I64)
  | iExclusiveMinimum (x : I64)
  | iMaximum (x : I64)
  | iExclusiveMaximum (x : I64)
  | iMultipleOf (x : NonZeroU64)
  | property (name : String) (required : Bool) (s : UncheckedDataSchema DS AS OS)
  | minLength (n : U32)
  | maxLength (n : U32)
  | pattern (v : String)
  | contentEncoding (v : String)
  | contentMediaType (v : String)
  | enumeration (v : Json)
  | oneOf (s : UncheckedDataSchema DS AS OS)
  | readOnly
  | writeOnly

/-- The kind-specific setters (`src/builder/data_schema.rs:1825–1945`). -/
def Kind.apply : Kind DS AS OS → KindOp DS AS OS → Option (Kind DS AS OS)
  | .vec i _ b o, .minItems n => some (.vec i (some n) b o)
  | .vec i a _ o, .maxItems n => some (.vec i a (some n) o)
  | .vec _ a b o, .setItem s => some (.vec (some s) a b o)
  | .tuple l o, .append s => some (.tuple (l ++ [s]) o)
  | .number n, .fMinimum x => some (.number { n with minimum := some (.inclusive x) })
  | .number n, .fExclusiveMinimum x => some (.number { n with minimum := some (.exclusive x) })
  | .number n, .fMaximum x => some (.number { n with maximum := some (.inclusive x) })
  | .number n, .fExclusiveMaximum x => some (.number { n with maximum := some (.exclusive x) })
  | .number n, .fMultipleOf x => some (.number { n with multipleOf := some x })
  | .integer n, .iMinimum x => some (.integer { n with minimum := some (.inclusive x) })
  | .integer n, .iExclusiveMinimum x => some (.integer { n with minimum := some (.exclusive x) })
  | .integer n, .iMaximum x => some (.integer { n with maximum := some (.inclusive x) })
  | .integer n, .iExclusiveMaximum x => some (.integer { n with maximum := some (.exclusive x) })
  | .integer n, .iMultipleOf x => some (.integer { n with multipleOf := some x })
  | .object ps r o, .property name required s =>
    some (.object (ps ++ [(name, s)]) (if required then r ++ [name] else r) o)
  | .string s, .minLength n => some (.string { s with minLength := some n })
  | .string s, .maxLength n => some (.string { s with maxLength := some n })
  | .string s, .pattern v => some (.string { s with pattern := some v })
  | .string s, .contentEncoding v => some (.string { s with contentEncoding := some v })
  | .string s, .contentMediaType v => some (.string { s with contentMediaType := some v })
  | _, _ => none

/-- The kinds that implement `ReadableWriteableDataSchema` (`src/builder/data_schema.rs:2623–2640`):
all but `OneOfDataSchemaBuilder`. -/
def Kind.hasAccess : Kind DS AS OS → Bool
  | .oneOf => false
  | _ => true

/-- The calls of `StringDataSchemaBuilderLike` (`src/builder/data_schema.rs:1793–1801`), the only ones that
are not delegated through `ReadOnly`/`WriteOnly` (`src/builder/data_schema.rs:2093–2125`). -/
def KindOp.isString : KindOp DS AS OS → Bool
  | .minLength _ => true
  | .maxLength _ => true
  | .pattern _ => true
  | .contentEncoding _ => true
  | .contentMediaType _ => true
  | _ => false

/-- A call on a specialised builder; `none` means that the call does not type check.
Delegation through `ReadOnly`/`WriteOnly` (`src/builder/data_schema.rs:2125, 2198–2210, 2445–2473,
2522–2556`) is the identity on the inner builder. -/
def KindBuilder.apply (k : KindBuilder I DS AS OS) :
    KindOp DS AS OS → Option (KindBuilder I DS AS OS)
  | .unit v => some { k with inner := modify (·.setUnit v) k.inner }
  | .format v => some { k with inner := modify (·.setFormat v) k.inner }
  | .defaultValue v => some { k with inner := modify (·.setDefault v) k.inner }
  | .info op => (modifyInfo (·.apply op)).map fun f => { k with inner := f k.inner }
  | .enumeration v =>
    match k.kind with
    | .enum => some { k with inner := modify (·.pushEnum v) k.inner }
    | _ => none
  | .oneOf s =>
    match k.kind with
    | .oneOf => some { k with inner := modify (·.pushOneOf s) k.inner }
    | _ => none
  | .readOnly =>
    match k.access, k.kind.hasAccess with
    | .both, true => some ⟨modify (·.setReadOnly) k.inner, k.kind, .readOnly⟩
    | _, _ => none
  | .writeOnly =>
    match k.access, k.kind.hasAccess with
    | .both, true => some ⟨modify (·.setWriteOnly) k.inner, k.kind, .writeOnly⟩
    | _, _ => none
  | op =>
    if op.isString = true ∧ k.access ≠ .both then none
    else (k.kind.apply op).map fun kind => { k with kind }

end

/-- `From<StatelessDataSchemaType> for UncheckedDataSchemaSubtype`
(`src/builder/data_schema.rs:2688–2695`). -/
def StatelessType.toSubtype {S : Type} : StatelessType → SubtypeF AS OS S
  | .boolean => .boolean
  | .null => .null

/-- The `subtype` a kind converts to (`src/builder/data_schema.rs:2727, 2829–2835, 2894–2900,
3072–3076, 3190–3194, 3309–3318, 3439–3445, 3648, 3744` and the `PartialDataSchema` twins at `2780,
2975–2981, 3022–3028, 3138–3142, 3256–3260, 3379–3389, 3508–3514, 3698, 3794`). -/
def Kind.toSubtype : Kind DS AS OS → Option (SubtypeF AS OS (UncheckedDataSchema DS AS OS))
  | .stateless ty => ty.map StatelessType.toSubtype
  | .tuple items other =>
    some (.array { items := some (.vec items), minItems := none, maxItems := none, other })
  | .vec item minItems maxItems other =>
    some (.array { items := item.map .elem, minItems, maxItems, other })
  | .number n => some (.number n)
  | .integer n => some (.integer n)
  | .object properties required other =>
    some (.object { properties := (nonEmpty properties).map HMap.collect,
                    required := nonEmpty required, other })
  | .string s => some (.string s)
  | .enum => none
  | .oneOf => none

/-- `constant` survives only in `StatelessDataSchemaBuilder`
(`src/builder/data_schema.rs:2735` against `constant: None` in the other conversions). -/
def Kind.keepConstant : Kind DS AS OS → Option Json → Option Json
  | .stateless _, c => c
  | _, _ => none

/-- `one_of` survives only in `OneOfDataSchemaBuilder` (`src/builder/data_schema.rs:3733`). -/
def Kind.keepOneOf : Kind DS AS OS → List (UncheckedDataSchema DS AS OS) →
    Option (List (UncheckedDataSchema DS AS OS))
  | .oneOf, l => some l
  | _, _ => none

/-- `enumeration` survives only in `EnumDataSchemaBuilder` (`src/builder/data_schema.rs:3637`). -/
def Kind.keepEnum : Kind DS AS OS → List Json → Option (List Json)
  | .enum, l => some l
  | _, _ => none

/-- The effect of the wrapper conversions on `read_only`: `ReadOnly` sets it, `WriteOnly` clears it
(`src/builder/data_schema.rs:3537–3542, 3562–3567, 3587–3592, 3600–3605`). -/
def Access.onReadOnly : Access → Bool → Bool
  | .both, r => r
  | .readOnly, _ => true
  | .writeOnly, _ => false

/-- The conversions into `UncheckedDataSchema` (`src/builder/data_schema.rs:2697–2747, 2797–2921,
3041–3100, 3159–3218, 3277–3341, 3405–3469, 3533–3544, 3558–3569, 3609–3657, 3705–3753`). -/
def KindBuilder.toUnchecked (k : KindBuilder (DataSchemaBuilder DS AS OS) DS AS OS) :
    UncheckedDataSchema DS AS OS :=
  let p := k.inner.part
  let i := k.inner.info
  .mk
    { attype := i.attype, title := i.title, titles := i.titles, description := i.description,
      descriptions := i.descriptions, constant := k.kind.keepConstant p.constant,
      default := p.default, unit := p.unit, enumeration := k.kind.keepEnum p.enumeration,
      readOnly := k.access.onReadOnly p.readOnly, writeOnly := p.writeOnly,
      format := p.format, other := p.other }
    (k.kind.keepOneOf p.oneOf) k.kind.toSubtype

/-- The conversions into `PartialDataSchema` (`src/builder/data_schema.rs:2761–2795, 2947–3039,
3114–3157, 3232–3275, 3355–3403, 3483–3531, 3583–3607, 3671–3703, 3767–3799`). -/
def KindBuilder.toPartial (k : KindBuilder (PartialDataSchemaBuilder DS AS OS) DS AS OS) :
    PartialDataSchema DS AS OS :=
  let p := k.inner
  { constant := k.kind.keepConstant p.constant, default := p.default, unit := p.unit,
    oneOf := k.kind.keepOneOf p.oneOf, enumeration := k.kind.keepEnum p.enumeration,
    readOnly := k.access.onReadOnly p.readOnly, writeOnly := p.writeOnly, format := p.format,
    subtype := k.kind.toSubtype, other := p.other }

/-- `UncheckedDataSchema::default()` (derived, `src/builder/data_schema.rs:64`). -/
def UncheckedDataSchema.default (other : DS) : UncheckedDataSchema DS AS OS :=
  .mk { other } none none

/-- `PartialDataSchema::default()` (derived, `src/builder/data_schema.rs:240`). -/
def PartialDataSchema.emptyDefault (other : DS) : PartialDataSchema DS AS OS :=
  { constant := none, default := none, unit := none, oneOf := none, enumeration := none,
    readOnly := false, writeOnly := false, format := none, subtype := none, other }

/-! ### Reachable builders and schemas -/

/-- The plain (not yet specialised) builders reachable through the public API: `empty`/`default`,
`ext`, `finish_extend`, the common setters and writes to the public field `other`. Reachability is
stated per extension type; `ext` changes it. -/
inductive PlainReach {AS OS : Type} : (DS : Type) → DataSchemaBuilder DS AS OS → Prop
  | empty (DS : Type) (other : DS) : PlainReach DS (.empty other)
  | ext {DS DS' : Type} {b : DataSchemaBuilder DS AS OS} (f : DS → DS') :
      PlainReach DS b → PlainReach DS' (b.ext f)
  | finishExtend {DS : Type} {b : DataSchemaBuilder DS AS OS} :
      PlainReach DS b → PlainReach DS b.finishExtend
  | unit {DS : Type} {b : DataSchemaBuilder DS AS OS} (v : String) :
      PlainReach DS b → PlainReach DS ⟨b.part.setUnit v, b.info⟩
  | format {DS : Type} {b : DataSchemaBuilder DS AS OS} (v : String) :
      PlainReach DS b → PlainReach DS ⟨b.part.setFormat v, b.info⟩
  | default {DS : Type} {b : DataSchemaBuilder DS AS OS} (v : Json) :
      PlainReach DS b → PlainReach DS ⟨b.part.setDefault v, b.info⟩
  | info {DS : Type} {b : DataSchemaBuilder DS AS OS} (op : InfoOp) :
      PlainReach DS b → PlainReach DS ⟨b.part, b.info.apply op⟩
  | other {DS : Type} {b : DataSchemaBuilder DS AS OS} (o : DS) :
      PlainReach DS b → PlainReach DS ⟨{ b.part with other := o }, b.info⟩

/-- The schemas an operation takes as argument. -/
def KindOp.args : KindOp DS AS OS → List (UncheckedDataSchema DS AS OS)
  | .setItem s => [s]
  | .append s => [s]
  | .property _ _ s => [s]
  | .oneOf s => [s]
  | _ => []

/-- The schemas a specialisation takes as argument. -/
def SpecOp.args : SpecOp DS AS OS → List (UncheckedDataSchema DS AS OS)
  | .oneOf s => [s]
  | _ => []

mutual
/-- The specialised builders reachable through the public API, all schema arguments being
themselves built with the API. -/
inductive KindReach {DS AS OS : Type} : KindBuilder (DataSchemaBuilder DS AS OS) DS AS OS → Prop
  | start {b : DataSchemaBuilder DS AS OS} (op : SpecOp DS AS OS) :
      PlainReach DS b → (∀ s ∈ op.args, SchemaBuilt s) → KindReach (specialise b op)
  | step {k k' : KindBuilder (DataSchemaBuilder DS AS OS) DS AS OS} (op : KindOp DS AS OS) :
      KindReach k → (∀ s ∈ op.args, SchemaBuilt s) → k.apply op = some k' → KindReach k'
/-- The unchecked data schemas a user can produce: conversions of reachable builders, and the derived
`Default`. (`UncheckedDataSchema` has only private fields, `src/builder/data_schema.rs:65–81`.) -/
inductive SchemaBuilt {DS AS OS : Type} : UncheckedDataSchema DS AS OS → Prop
  | conv {k : KindBuilder (DataSchemaBuilder DS AS OS) DS AS OS} :
      KindReach k → SchemaBuilt k.toUnchecked
  | default (other : DS) : SchemaBuilt (.default other)
end

/-- The plain partial builders reachable inside a property affordance. -/
inductive PartialReach {AS OS : Type} : (DS : Type) → PartialDataSchemaBuilder DS AS OS → Prop
  | empty (DS : Type) (other : DS) : PartialReach DS (.empty other)
  | ext {DS DS' : Type} {b : PartialDataSchemaBuilder DS AS OS} (f : DS → DS') :
      PartialReach DS b → PartialReach DS' (b.ext f)
  | finishExtend {DS : Type} {b : PartialDataSchemaBuilder DS AS OS} :
      PartialReach DS b → PartialReach DS b.finishExtend
  | unit {DS : Type} {b : PartialDataSchemaBuilder DS AS OS} (v : String) :
      PartialReach DS b → PartialReach DS (b.setUnit v)
  | format {DS : Type} {b : PartialDataSchemaBuilder DS AS OS} (v : String) :
      PartialReach DS b → PartialReach DS (b.setFormat v)
  | default {DS : Type} {b : PartialDataSchemaBuilder DS AS OS} (v : Json) :
      PartialReach DS b → PartialReach DS (b.setDefault v)

/-- The specialised partial builders reachable inside a property affordance. The property builder does not
delegate the calls of `StringDataSchemaBuilderLike` to its data schema builder
(`src/builder/affordance.rs:20–32, 1799–1848`). -/
inductive PartialKindReach {DS AS OS : Type} :
    KindBuilder (PartialDataSchemaBuilder DS AS OS) DS AS OS → Prop
  | start {b : PartialDataSchemaBuilder DS AS OS} (op : SpecOp DS AS OS) :
      PartialReach DS b → (∀ s ∈ op.args, SchemaBuilt s) → PartialKindReach (specialise b op)
  | step {k k' : KindBuilder (PartialDataSchemaBuilder DS AS OS) DS AS OS} (op : KindOp DS AS OS) :
      PartialKindReach k → op.isString = false → (∀ s ∈ op.args, SchemaBuilt s) →
      k.apply op = some k' → PartialKindReach k'

/-- The partial data schemas a property affordance can have. -/
inductive PartialBuilt {DS AS OS : Type} : PartialDataSchema DS AS OS → Prop
  | conv {k : KindBuilder (PartialDataSchemaBuilder DS AS OS) DS AS OS} :
      PartialKindReach k → PartialBuilt k.toPartial
  | default (other : DS) : PartialBuilt (.emptyDefault other)

end Wot
