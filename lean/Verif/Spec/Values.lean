import Verif.Spec.Meaning
import Verif.Spec.Range
/-
Which values a data schema admits, according to the W3C Thing Description 1.1 Recommendation (section 5.3.2) and JSON
Schema, from which it takes the vocabulary: first for a JSON document, then for a schema of the library.
-/
namespace Wot

/-- What the two sides must agree on and what is no matter of this library: when two JSON values are equal, when a
text matches a pattern, and when a value has a format. -/
structure ValueRules where
  same : Json → Json → Prop
  isMatch : String → String → Prop
  hasFormat : String → Json → Prop

/-- Equality of values does not depend on the order of members, and of members with the same name the last counts. -/
def ValueRules.Lawful (V : ValueRules) : Prop := ∀ c v, V.same c.norm v ↔ V.same c v

/-- The names of the members that limit the number of items of an array. -/
structure LimitNames where
  least : String
  most : String

/-- The names that the Recommendation defines. -/
def LimitNames.recommendation : LimitNames := ⟨"minItems", "maxItems"⟩

/-- The names that this library uses. -/
def LimitNames.crate : LimitNames := ⟨"min_items", "max_items"⟩

/-- The number that is denoted by a JSON number. -/
def JNum.value : JNum → Rat
  | .pos n => (n : Rat)
  | .neg n => -((n : Rat) + 1)
  | .float x => x.value

namespace Json

/-- The number of characters or items is within the limits of the document. -/
def SizeWithin (d : Json) (least most : String) (size : Nat) : Prop :=
  (∀ n, d.member least = some (.num n) → n.value ≤ size) ∧ ∀ n, d.member most = some (.num n) → (size : Rat) ≤ n.value

/-- The number is within the bounds of the document. -/
structure NumberWithin (d : Json) (q : Rat) : Prop where
  minimum : ∀ n, d.member "minimum" = some (.num n) → n.value ≤ q
  exclusiveMinimum : ∀ n, d.member "exclusiveMinimum" = some (.num n) → n.value < q
  maximum : ∀ n, d.member "maximum" = some (.num n) → q ≤ n.value
  exclusiveMaximum : ∀ n, d.member "exclusiveMaximum" = some (.num n) → q < n.value
  multipleOf : ∀ n, d.member "multipleOf" = some (.num n) → ∃ k : Int, q = k * n.value

theorem member_sizeOf {d w : Json} {k : String} (h : d.member k = some w) : sizeOf w < sizeOf d := by
  cases d <;> simp [Json.member] at h
  rename_i es
  have hm : (k, w) ∈ es := by
    induction es with
    | nil => simp [HMap.get?] at h
    | cons kv es ih =>
      obtain ⟨k', x⟩ := kv
      unfold HMap.get? at h
      split at h
      · simp_all
      · exact List.mem_cons_of_mem _ (ih h)
  have := List.sizeOf_lt_of_mem hm
  simp at this ⊢
  omega

theorem mem_sizeOf {d s : Json} {k : String} {l : List Json} (h : d.member k = some (.arr l)) (hs : s ∈ l) :
    sizeOf s < sizeOf d := by
  have h1 := List.sizeOf_lt_of_mem hs
  have h2 := member_sizeOf h
  simp at h2
  omega

/-- The document, a data schema, admits the value `v`; `L` are the names of the limits of arrays. Members that belong
to another type are not considered. -/
def Admits (V : ValueRules) (L : LimitNames) (d v : Json) : Prop :=
  (∀ c, d.member "const" = some c → V.same c v) ∧
  (∀ l, d.member "enum" = some (.arr l) → ∃ c ∈ l, V.same c v) ∧
  (∀ f, d.member "format" = some (.str f) → V.hasFormat f v) ∧
  -- exactly one of the schemas
  (∀ l (_ : d.member "oneOf" = some (.arr l)), ∃ a s b, ∃ _ : l = a ++ s :: b,
    s.Admits V L v ∧ ∀ u (_ : u ∈ a ++ b), ¬ u.Admits V L v) ∧
  (d.member "type" = some (.str "boolean") → ∃ b, v = .bool b) ∧
  (d.member "type" = some (.str "null") → v = .null) ∧
  (d.member "type" = some (.str "string") → ∃ t, v = .str t ∧ d.SizeWithin "minLength" "maxLength" t.length ∧
    ∀ p, d.member "pattern" = some (.str p) → V.isMatch p t) ∧
  (d.member "type" = some (.str "number") → ∃ x, v = .num x ∧ d.NumberWithin x.value) ∧
  (d.member "type" = some (.str "integer") → ∃ x, v = .num x ∧ (∃ z : Int, x.value = z) ∧ d.NumberWithin x.value) ∧
  (d.member "type" = some (.str "array") → ∃ l, v = .arr l ∧ d.SizeWithin L.least L.most l.length ∧
    -- one schema for all items, or a schema for each place
    (∀ m (_ : d.member "items" = some (.obj m)), ∀ x ∈ l, (Json.obj m).Admits V L x) ∧
    ∀ ss (_ : d.member "items" = some (.arr ss)) (i : Nat) s (_ : ss[i]? = some s) x, l[i]? = some x →
      s.Admits V L x) ∧
  (d.member "type" = some (.str "object") → v.IsObject ∧
    (∀ p (_ : d.member "properties" = some p) k s (_ : p.member k = some s) x, v.member k = some x →
      s.Admits V L x) ∧
    ∀ l, d.member "required" = some (.arr l) → ∀ k, .str k ∈ l → v.member k ≠ none)
termination_by sizeOf d
decreasing_by
  · rename_i h e
    exact mem_sizeOf h (by simp [e])
  · rename_i h e hu
    exact mem_sizeOf h (by rw [e]; revert hu; simp; exact fun h => h.imp id .inr)
  · exact member_sizeOf ‹_›
  · exact mem_sizeOf ‹_› (List.mem_of_getElem? ‹_›)
  · exact Nat.lt_trans (member_sizeOf ‹_ = some s›) (member_sizeOf ‹_ = some p›)

/-- `u` is the schema `d` or nested in it. -/
inductive HasSchema : Json → Json → Prop
  | self {d : Json} : HasSchema d d
  | oneOf {d s u : Json} {l : List Json} : d.member "oneOf" = some (.arr l) → s ∈ l → HasSchema s u → HasSchema d u
  | item {d u : Json} {m : Members} : d.member "items" = some (.obj m) → HasSchema (.obj m) u → HasSchema d u
  | items {d s u : Json} {l : List Json} : d.member "items" = some (.arr l) → s ∈ l → HasSchema s u → HasSchema d u
  | property {d p s u : Json} {k : String} : d.member "properties" = some p → p.member k = some s →
      HasSchema s u → HasSchema d u

/-- The members that limit the number of items according to the Recommendation do not occur. -/
def LimitsUnsaid (d : Json) : Prop := ∀ u, d.HasSchema u → ∀ k ∈ ["minItems", "maxItems"], u.member k = none

/-- No array is limited in the number of its items, by any of the names. -/
def Unlimited (d : Json) : Prop :=
  ∀ u, d.HasSchema u → ∀ k ∈ ["minItems", "maxItems", "min_items", "max_items"], u.member k = none

end Json

/-! ### Schemas of the library -/

section
variable {T L DSx AS OS : Type}

/-- The number is within the bounds; `val` is the number that is denoted by a bound, `step` by `multiple_of`. -/
structure RangeAdmits {T M : Type} (val : T → Rat) (step : M → Rat) (lo : Option (Minimum T)) (hi : Option (Maximum T))
    (m : Option M) (q : Rat) : Prop where
  minimum : ∀ b, lo = some b → b.Admits val q
  maximum : ∀ b, hi = some b → b.Admits val q
  multipleOf : ∀ x, m = some x → ∃ k : Int, q = k * step x

/-- The number of characters or items is within the limits. -/
def SizeAdmits (least most : Option U32) (size : Nat) : Prop :=
  (∀ n, least = some n → n.val ≤ size) ∧ ∀ n, most = some n → size ≤ n.val

/-- The type of the value is the one of the schema, and the value respects what depends on the type. Nested schemas
are given by what they admit. -/
def SubtypeF.Admits (V : ValueRules) : SubtypeF AS OS (Json → Prop) → Json → Prop
  | .boolean, v => ∃ b, v = .bool b
  | .null, v => v = .null
  | .string s, v => ∃ t, v = .str t ∧ SizeAdmits s.minLength s.maxLength t.length ∧
      ∀ p, s.pattern = some p → V.isMatch p t
  | .number n, v => ∃ x, v = .num x ∧ RangeAdmits F64.value F64.value n.minimum n.maximum n.multipleOf x.value
  | .integer n, v => ∃ x, v = .num x ∧ (∃ z : Int, x.value = z) ∧
      RangeAdmits (fun z : I64 => (z.val : Rat)) (fun k : NonZeroU64 => (k.val : Rat))
        n.minimum n.maximum n.multipleOf x.value
  | .array a, v => ∃ l, v = .arr l ∧ SizeAdmits a.minItems a.maxItems l.length ∧
      (∀ p, a.items = some (.elem p) → ∀ x ∈ l, p x) ∧
      ∀ ps, a.items = some (.vec ps) → ∀ (i : Nat) p x, ps[i]? = some p → l[i]? = some x → p x
  | .object o, v => v.IsObject ∧
      (∀ ps, o.properties = some ps → ∀ k p x, HMap.get? ps k = some p → v.member k = some x → p x) ∧
      ∀ l, o.required = some l → ∀ k ∈ l, v.member k ≠ none

/-- The schema admits the value `v`. -/
def Schema.Admits (V : ValueRules) : Schema L DSx AS OS → Json → Prop :=
  Schema.fold fun head oneOf subtype v =>
    (∀ c, head.constant = some c → V.same c v) ∧
    (∀ l, head.enumeration = some l → ∃ c ∈ l, V.same c v) ∧
    (∀ f, head.format = some f → V.hasFormat f v) ∧
    (∀ l, oneOf = some l → ∃ a p b, l = a ++ p :: b ∧ p v ∧ ∀ q ∈ a ++ b, ¬ q v) ∧
    ∀ st, subtype = some st → SubtypeF.Admits V st v

/-- The same without limits on the number of items, not looking at nested schemas. -/
def SubtypeF.withoutLimits {S : Type} : SubtypeF AS OS S → SubtypeF AS OS S
  | .array a => .array { a with minItems := none, maxItems := none }
  | st => st

/-- The schema without limits on the number of items. -/
def Schema.withoutLimits : Schema L DSx AS OS → Schema L DSx AS OS :=
  Schema.fold fun head oneOf subtype => .mk head oneOf (subtype.map SubtypeF.withoutLimits)

end

/-- The numbers that bound the values of a schema are not infinite or NaN, not looking at nested schemas. -/
structure FiniteBounds {L DSx AS OS : Type} (s : Schema L DSx AS OS) : Prop where
  maximum : ∀ n b, s.subtype = some (.number n) → n.maximum = some b → b.bound.isFinite = true
  minimum : ∀ n b, s.subtype = some (.number n) → n.minimum = some b → b.bound.isFinite = true
  multipleOf : ∀ n f, s.subtype = some (.number n) → n.multipleOf = some f → f.isFinite = true

/-- No array is limited in the number of its items. -/
def Schema.Unlimited {L DSx AS OS : Type} (s : Schema L DSx AS OS) : Prop :=
  ∀ x, Within x s → ∀ a, x.subtype = some (.array a) → a.minItems = none ∧ a.maxItems = none

/-! ### Documents that say what they mean -/

section
variable {DSx AS OS : Type} (env : SerdeEnv) (C : ExtCodec DSx) (CA : ExtCodec AS) (CO : ExtCodec OS)

/-- One data schema, without the nested ones, is such that the library can store all of it: the constant is not
`null`, the type is not given by a number, the members that belong to the type are as they should be, there is one
minimum and one maximum at most, and these are numbers of the kind that the library stores. `K` are names of members
that do not belong to the schema. -/
structure Json.PlainNode (K : List String) (d : Json) : Prop where
  names : ∀ es, d = .obj es → (es.map (·.1)).Nodup
  properties : ∀ ps, d.member "properties" = some (.obj ps) → (ps.map (·.1)).Nodup
  constant : d.member "const" ≠ some .null
  type : ∀ n, d.member "type" ≠ some (.num n)
  constraints : ∀ es T, d = .obj es → T ∈ Doc.types → d.member "type" = some (.str T) →
    Doc.Constraints env C CA CO K es T
  minimum : d.member "minimum" = none ∨ d.member "exclusiveMinimum" = none
  maximum : d.member "maximum" = none ∨ d.member "exclusiveMaximum" = none
  number : d.member "type" = some (.str "number") →
    ∀ k ∈ ["minimum", "exclusiveMinimum", "maximum", "exclusiveMaximum", "multipleOf"],
    ∀ n, d.member k = some (.num n) → ∃ x : F64, x.isFinite = true ∧ x.value = n.value
  integer : d.member "type" = some (.str "integer") →
    ∀ k ∈ ["minimum", "exclusiveMinimum", "maximum", "exclusiveMaximum"],
    ∀ n, d.member k = some (.num n) → ∃ z : I64, Doc.IsI64 (.num n) z

/-- The same for the schema and all schemas nested in it. -/
def Json.Plain (K : List String) (d : Json) : Prop :=
  d.PlainNode env C CA CO K ∧ ∀ u, d.HasSchema u → u = d ∨ u.PlainNode env C CA CO []

end

/-! ### Where the data schemas of a Thing are -/

/-- The value at the end of a path of member names. -/
def Json.at (v : Json) : List String → Option Json
  | [] => some v
  | k :: ks => (v.member k).bind fun w => w.at ks

/-- The names of members of the object at this place that are not passed on to the data schema: a property is an
affordance and a data schema in one. -/
def outerNames : List String → List String
  | ["properties", _] => ["observable"]
  | _ => []

section
variable {X : ExtTypes}

/-- `s` is the data schema of the Thing that belongs to this place in a Thing Description. -/
inductive Thing.SchemaAt (t : Thing X) : List String → DS X → Prop
  | property {m : HMap (PropertyAffordance X)} {n : String} {p : PropertyAffordance X} :
      t.properties = some m → m.get? n = some p → t.SchemaAt ["properties", n] p.dataSchema
  | propertyVariable {m : HMap (PropertyAffordance X)} {n k : String} {p : PropertyAffordance X} {u : HMap (DS X)}
      {s : DS X} : t.properties = some m → m.get? n = some p → p.interaction.uriVariables = some u →
      u.get? k = some s → t.SchemaAt ["properties", n, "uriVariables", k] s
  | input {m : HMap (ActionAffordance X)} {n : String} {a : ActionAffordance X} {s : DS X} :
      t.actions = some m → m.get? n = some a → a.input = some s → t.SchemaAt ["actions", n, "input"] s
  | output {m : HMap (ActionAffordance X)} {n : String} {a : ActionAffordance X} {s : DS X} :
      t.actions = some m → m.get? n = some a → a.output = some s → t.SchemaAt ["actions", n, "output"] s
  | actionVariable {m : HMap (ActionAffordance X)} {n k : String} {a : ActionAffordance X} {u : HMap (DS X)}
      {s : DS X} : t.actions = some m → m.get? n = some a → a.interaction.uriVariables = some u →
      u.get? k = some s → t.SchemaAt ["actions", n, "uriVariables", k] s
  | subscription {m : HMap (EventAffordance X)} {n : String} {e : EventAffordance X} {s : DS X} :
      t.events = some m → m.get? n = some e → e.subscription = some s → t.SchemaAt ["events", n, "subscription"] s
  | data {m : HMap (EventAffordance X)} {n : String} {e : EventAffordance X} {s : DS X} :
      t.events = some m → m.get? n = some e → e.data = some s → t.SchemaAt ["events", n, "data"] s
  | cancellation {m : HMap (EventAffordance X)} {n : String} {e : EventAffordance X} {s : DS X} :
      t.events = some m → m.get? n = some e → e.cancellation = some s → t.SchemaAt ["events", n, "cancellation"] s
  | eventVariable {m : HMap (EventAffordance X)} {n k : String} {e : EventAffordance X} {u : HMap (DS X)}
      {s : DS X} : t.events = some m → m.get? n = some e → e.interaction.uriVariables = some u →
      u.get? k = some s → t.SchemaAt ["events", n, "uriVariables", k] s
  | uriVariable {m : HMap (DS X)} {n : String} {s : DS X} :
      t.uriVariables = some m → m.get? n = some s → t.SchemaAt ["uriVariables", n] s
  | schemaDefinition {m : HMap (DS X)} {n : String} {s : DS X} :
      t.schemaDefinitions = some m → m.get? n = some s → t.SchemaAt ["schemaDefinitions", n] s

end

end Wot
