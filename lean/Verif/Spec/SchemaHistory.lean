import Verif.Model.SchemaBuilder
import Verif.Spec.Basic
/-
The data schema that a sequence of builder calls is supposed to produce, read off the calls.
-/
namespace Wot

variable {DS AS OS : Type}

namespace SchemaCalls

variable (ops : List (KindOp DS AS OS))

/-- The human readable information calls, in order. -/
def infos : List InfoOp := ops.filterMap fun | .info op => some op | _ => none
def attypes (l : List InfoOp) : List String := l.filterMap fun | .attype v => some v | _ => none
def titleTexts (l : List InfoOp) : List String := l.filterMap fun | .title v => some v | _ => none
def titles (l : List InfoOp) : List (List (String × String)) :=
  l.filterMap fun | .titles c => some c | _ => none
def descriptionTexts (l : List InfoOp) : List String :=
  l.filterMap fun | .description v => some v | _ => none
def descriptions (l : List InfoOp) : List (List (String × String)) :=
  l.filterMap fun | .descriptions c => some c | _ => none

/-- The arguments of the calls of each kind, in order. -/
def units : List String := ops.filterMap fun | .unit v => some v | _ => none
def formats : List String := ops.filterMap fun | .format v => some v | _ => none
def defaults : List Json := ops.filterMap fun | .defaultValue v => some v | _ => none
def enumerations : List Json := ops.filterMap fun | .enumeration v => some v | _ => none
def alternatives : List (UncheckedDataSchema DS AS OS) :=
  ops.filterMap fun | .oneOf s => some s | _ => none
def appended : List (UncheckedDataSchema DS AS OS) :=
  ops.filterMap fun | .append s => some s | _ => none
def items : List (UncheckedDataSchema DS AS OS) :=
  ops.filterMap fun | .setItem s => some s | _ => none
def minItems : List U32 := ops.filterMap fun | .minItems n => some n | _ => none
def maxItems : List U32 := ops.filterMap fun | .maxItems n => some n | _ => none
/-- The minima set, each with the kind of the call that set it. -/
def minima : List (Minimum F64) :=
  ops.filterMap fun
    | .fMinimum x => some (.inclusive x) | .fExclusiveMinimum x => some (.exclusive x) | _ => none
/-- The maxima set, each with the kind of the call that set it. -/
def maxima : List (Maximum F64) :=
  ops.filterMap fun
    | .fMaximum x => some (.inclusive x) | .fExclusiveMaximum x => some (.exclusive x) | _ => none
def multiples : List F64 := ops.filterMap fun | .fMultipleOf x => some x | _ => none
/-- The minima set, each with the kind of the call that set it. -/
def iMinima : List (Minimum I64) :=
  ops.filterMap fun
    | .iMinimum x => some (.inclusive x) | .iExclusiveMinimum x => some (.exclusive x) | _ => none
/-- The maxima set, each with the kind of the call that set it. -/
def iMaxima : List (Maximum I64) :=
  ops.filterMap fun
    | .iMaximum x => some (.inclusive x) | .iExclusiveMaximum x => some (.exclusive x) | _ => none
def iMultiples : List NonZeroU64 := ops.filterMap fun | .iMultipleOf x => some x | _ => none
/-- The properties added, with their names. -/
def properties : List (String × UncheckedDataSchema DS AS OS) :=
  ops.filterMap fun | .property n _ s => some (n, s) | _ => none
/-- The names of the properties added as required. -/
def required : List String := ops.filterMap fun | .property n true _ => some n | _ => none
def minLengths : List U32 := ops.filterMap fun | .minLength n => some n | _ => none
def maxLengths : List U32 := ops.filterMap fun | .maxLength n => some n | _ => none
def patterns : List String := ops.filterMap fun | .pattern v => some v | _ => none
def contentEncodings : List String := ops.filterMap fun | .contentEncoding v => some v | _ => none
def contentMediaTypes : List String := ops.filterMap fun | .contentMediaType v => some v | _ => none
def readOnlyCalls : List Unit := ops.filterMap fun | .readOnly => some () | _ => none
def writeOnlyCalls : List Unit := ops.filterMap fun | .writeOnly => some () | _ => none

/-- The type: chosen by the first, specialising call, with the details of the later ones; for every
detail that can be set repeatedly the last call counts, except that tuple items and object properties
accumulate. -/
def subtype : SpecOp DS AS OS → Option (SubtypeF AS OS (UncheckedDataSchema DS AS OS))
  | .tuple other =>
    some (.array { items := some (.vec (appended ops)), minItems := none, maxItems := none, other })
  | .vec other =>
    some (.array { items := (lastOf (items ops)).map .elem, minItems := lastOf (minItems ops),
                   maxItems := lastOf (maxItems ops), other })
  | .bool => some .boolean
  | .null => some .null
  | .number =>
    some (.number { minimum := lastOf (minima ops), maximum := lastOf (maxima ops),
                    multipleOf := lastOf (multiples ops) })
  | .integer =>
    some (.integer { minimum := lastOf (iMinima ops), maximum := lastOf (iMaxima ops),
                     multipleOf := lastOf (iMultiples ops) })
  | .object other =>
    some (.object { properties := (nonEmpty (properties ops)).map HMap.collect,
                    required := nonEmpty (required ops), other })
  | .string =>
    some (.string { minLength := lastOf (minLengths ops), maxLength := lastOf (maxLengths ops),
                    pattern := lastOf (patterns ops),
                    contentEncoding := lastOf (contentEncodings ops),
                    contentMediaType := lastOf (contentMediaTypes ops) })
  | .constant _ | .enumeration _ | .oneOf _ => none

/-- `const`: only set by the specialising call. -/
def constant : SpecOp DS AS OS → Option Json
  | .constant v => some v
  | _ => none

/-- `enum`: the values in call order, if it was the specialising call that gave the first one. -/
def enumeration : SpecOp DS AS OS → Option (List Json)
  | .enumeration v => some (v :: enumerations ops)
  | _ => none

/-- `oneOf`: the alternatives in call order, if it was the specialising call that gave the first
one. -/
def oneOf : SpecOp DS AS OS → Option (List (UncheckedDataSchema DS AS OS))
  | .oneOf s => some (s :: alternatives ops)
  | _ => none

/-- `readOnly`: constants are read-only. -/
def readOnly : SpecOp DS AS OS → Bool
  | .constant _ => true
  | _ => !(readOnlyCalls ops).isEmpty

/-- The data schema. `b` is the builder before the specialising call `op`; values it already has are
kept if they are not set again. -/
def schema (b : DataSchemaBuilder DS AS OS) (op : SpecOp DS AS OS) : UncheckedDataSchema DS AS OS :=
  .mk
    { attype := nonEmpty (b.info.attype.getD [] ++ attypes (infos ops))
      title := (lastOf (titleTexts (infos ops))).or b.info.title
      titles := ((lastOf (titles (infos ops))).map .ofCalls).or b.info.titles
      description := (lastOf (descriptionTexts (infos ops))).or b.info.description
      descriptions := ((lastOf (descriptions (infos ops))).map .ofCalls).or b.info.descriptions
      constant := constant op
      default := (lastOf (defaults ops)).or b.part.default
      unit := (lastOf (units ops)).or b.part.unit
      enumeration := enumeration ops op
      readOnly := readOnly ops op
      writeOnly := !(writeOnlyCalls ops).isEmpty
      format := (lastOf (formats ops)).or b.part.format
      other := b.part.other }
    (oneOf ops op) (subtype ops op)

/-- The data schema of a property, which has no human readable information of its own. -/
def partialSchema (b : PartialDataSchemaBuilder DS AS OS) (op : SpecOp DS AS OS) :
    PartialDataSchema DS AS OS :=
  { constant := constant op
    default := (lastOf (defaults ops)).or b.default
    unit := (lastOf (units ops)).or b.unit
    oneOf := oneOf ops op
    enumeration := enumeration ops op
    readOnly := readOnly ops op
    writeOnly := !(writeOnlyCalls ops).isEmpty
    format := (lastOf (formats ops)).or b.format
    subtype := subtype ops op
    other := b.other }

end SchemaCalls
end Wot
