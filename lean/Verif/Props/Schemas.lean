import Verif.Props.Ranges
import Verif.Lemmas.SchemaShape
/-
C24, C25, C26 and C43: the data schemas that the builders produce.
-/
namespace Wot

variable {X : ExtTypes} {title : String} {h : List (ThingOp X)} {b : ThingBuilder X} {env : Env}
  {t : Thing X}

namespace Demo

/-- A tuple of a write-only string and a constant, used below. -/
def secretSchema : S := .mk { writeOnly := true, other := () } none (some (.string {}))
def constSchema : S := .mk { constant := some (.bool true), readOnly := true, other := () } none none
def enumSchema : S :=
  .mk { enumeration := some [.bool true, .null], readOnly := true, other := () } none none
def tupleSchema : S :=
  .mk { other := () } none (some (.array { items := some (.vec [secretSchema, constSchema, enumSchema]),
                                           minItems := none, maxItems := none, other := () }))

theorem secretSchema_built : SchemaBuilt secretSchema :=
  chain_built (op := .string) (ops := [.writeOnly]) rfl (by simp [SpecOp.args]) (by simp [KindOp.args])
theorem constSchema_built : SchemaBuilt constSchema :=
  chain_built (op := .constant (.bool true)) (ops := []) rfl (by simp [SpecOp.args]) (by simp)
theorem enumSchema_built : SchemaBuilt enumSchema :=
  chain_built (op := .enumeration (.bool true)) (ops := [.enumeration .null, .readOnly]) rfl
    (by simp [SpecOp.args]) (by simp [KindOp.args])
theorem tupleSchema_built : SchemaBuilt tupleSchema :=
  chain_built (op := .tuple ()) (ops := [.append secretSchema, .append constSchema, .append enumSchema])
    rfl (by simp [SpecOp.args])
    (args_built [secretSchema, constSchema, enumSchema]
      (by simp [secretSchema_built, constSchema_built, enumSchema_built]) (by simp [KindOp.args]))

/-- A Thing with an object schema can be built. -/
theorem object_thing : ∃ t, (single objectSchema .schemaDefinition).build Demo.env = .ok t ∧
    t.HasSchema .schemaDefinition (objectSchema.mapLang (langResult Demo.env)) := by
  have hr := single_reachable (p := .schemaDefinition) objectSchema_built nofun
  obtain ⟨t, ht⟩ := (single_accepted (env := Demo.env) (p := .schemaDefinition) objectSchema_built nofun nofun).2
    ⟨fun h => h.elim, nofun, fun k _ => ⟨k, rfl⟩⟩
  exact ⟨t, ht, (hr.hasSchema ht).2 ⟨_, place_hasSchema nofun, rfl⟩⟩

/-- A Thing with a tuple schema can be built. -/
theorem tuple_thing : ∃ t, (single tupleSchema .schemaDefinition).build Demo.env = .ok t ∧
    t.HasSchema .schemaDefinition (tupleSchema.mapLang (langResult Demo.env)) := by
  have hr := single_reachable (p := .schemaDefinition) tupleSchema_built nofun
  obtain ⟨t, ht⟩ := (single_accepted (env := Demo.env) (p := .schemaDefinition) tupleSchema_built nofun nofun).2
    ⟨fun h => h.elim, nofun, fun k _ => ⟨k, rfl⟩⟩
  exact ⟨t, ht, (hr.hasSchema ht).2 ⟨_, place_hasSchema nofun, rfl⟩⟩

end Demo

/-! ### C24 -/

/-- C24: no data schema of a built Thing, wherever and however deep it occurs, is both read-only and
write-only. -/
theorem C24_not_both (hr : Reachable X title h b) (hb : b.build env = .ok t) {p : Position}
    {s x : DS X} (hs : t.HasSchema p s) (hx : Within x s) :
    ¬ (x.head.readOnly = true ∧ x.head.writeOnly = true) := (hr.shape hb hs hx).access

/-- C24: the flags are exactly what was asked for: `readOnly` if `read_only` was called or the schema
is a constant, `writeOnly` if `write_only` was called. -/
theorem C24_flags {DS AS OS : Type} {ops : List (KindOp DS AS OS)} {op : SpecOp DS AS OS}
    {d : DataSchemaBuilder DS AS OS} {k : KindBuilder (DataSchemaBuilder DS AS OS) DS AS OS}
    (hd : PlainReach DS d) (hk : ops.foldlM KindBuilder.apply (specialise d op) = some k) :
    (k.toUnchecked.head.readOnly = true ↔ .readOnly ∈ ops ∨ ∃ v, op = .constant v) ∧
    (k.toUnchecked.head.writeOnly = true ↔ .writeOnly ∈ ops) := by
  have e1 : (!(SchemaCalls.readOnlyCalls ops).isEmpty) = true ↔ KindOp.readOnly ∈ ops := by
    simp only [SchemaCalls.readOnlyCalls, Bool.not_eq_true', List.isEmpty_eq_false_iff_exists_mem,
      List.mem_filterMap]
    constructor
    · rintro ⟨_, o, ho, h⟩; cases o <;> first | (cases h; done) | exact ho
    · exact fun h => ⟨(), _, h, rfl⟩
  have e2 : (!(SchemaCalls.writeOnlyCalls ops).isEmpty) = true ↔ KindOp.writeOnly ∈ ops := by
    simp only [SchemaCalls.writeOnlyCalls, Bool.not_eq_true', List.isEmpty_eq_false_iff_exists_mem,
      List.mem_filterMap]
    constructor
    · rintro ⟨_, o, ho, h⟩; cases o <;> first | (cases h; done) | exact ho
    · exact fun h => ⟨(), _, h, rfl⟩
  rw [toUnchecked_history hd hk]
  refine ⟨?_, e2⟩
  show SchemaCalls.readOnly ops op = true ↔ _
  cases op <;> simp only [SchemaCalls.readOnly, e1, reduceCtorEq, exists_false, or_false, true_iff]
  exact .inr ⟨_, rfl⟩

/-- Read-only and write-only schemas do occur in built Things. -/
example : ∃ t, (Demo.single Demo.tupleSchema .schemaDefinition).build Demo.env = .ok t ∧
    ∃ s, t.HasSchema .schemaDefinition s ∧ (∃ x, Within x s ∧ x.head.readOnly = true) ∧
      ∃ x, Within x s ∧ x.head.writeOnly = true := by
  obtain ⟨t, ht, hs⟩ := Demo.tuple_thing
  exact ⟨t, ht, _, hs,
    ⟨_, within_mapLang.2 ⟨Demo.constSchema, .items rfl rfl (by simp) (.self _), rfl⟩, rfl⟩,
    ⟨_, within_mapLang.2 ⟨Demo.secretSchema, .items rfl rfl (by simp) (.self _), rfl⟩, rfl⟩⟩

/-! ### C25 -/

/-- C25: in every object schema of a built Thing, at any depth, each name in `required` is a key of
`properties`. -/
theorem C25_required (hr : Reachable X title h b) (hb : b.build env = .ok t) {p : Position}
    {s x : DS X} (hs : t.HasSchema p s) (hx : Within x s) {o : ObjectF X.objectSchema (DS X)}
    (ho : x.subtype = some (.object o)) {r : List String} (hreq : o.required = some r) {n : String}
    (hn : n ∈ r) : ∃ m c, o.properties = some m ∧ (n, c) ∈ m :=
  ((hr.shape hb hs hx).required o r ho hreq).2 n hn

/-- C25: an object schema has, for each name, the schema of the last `property` call with this name,
and `required` lists the names of the calls with `required = true`, in the order of the calls and as
often as they were made. -/
theorem C25_properties {DS AS OS : Type} {ops : List (KindOp DS AS OS)} {other : OS}
    {d : DataSchemaBuilder DS AS OS} {k : KindBuilder (DataSchemaBuilder DS AS OS) DS AS OS}
    (hd : PlainReach DS d) (hk : ops.foldlM KindBuilder.apply (specialise d (.object other)) = some k) :
    ∃ o, k.toUnchecked.subtype = some (.object o) ∧ o.other = other ∧
      (∀ n c, (∃ m, o.properties = some m ∧ (n, c) ∈ m) ↔
        lastOf (History.named n (SchemaCalls.properties ops)) = some c) ∧
      o.required = (if SchemaCalls.required ops = [] then none else some (SchemaCalls.required ops)) := by
  refine ⟨_, by rw [toUnchecked_history hd hk]; rfl, rfl, fun n c => ?_, ?_⟩
  · rw [← mem_collect_iff]
    show (∃ m, (nonEmpty (SchemaCalls.properties ops)).map HMap.collect = some m ∧ _) ↔ _
    cases hp : SchemaCalls.properties ops with
    | nil => simp [nonEmpty, HMap.collect]
    | cons a l => simp [nonEmpty]
  · show nonEmpty (SchemaCalls.required ops) = _
    cases SchemaCalls.required ops <;> rfl

/-- An object schema with required properties occurs in a built Thing. -/
example : ∃ t, (Demo.single Demo.objectSchema .schemaDefinition).build Demo.env = .ok t ∧
    ∃ s, t.HasSchema .schemaDefinition s ∧ ∃ o, s.subtype = some (.object o) ∧
      o.required = some ["level"] := by
  obtain ⟨t, ht, hs⟩ := Demo.object_thing
  exact ⟨t, ht, _, hs, _, rfl, rfl⟩

/-- A property added twice: the second schema is kept; both names are listed. -/
example : ∃ k, List.foldlM KindBuilder.apply
      (specialise (.empty () : DataSchemaBuilder Unit Unit Unit) (.object ()))
      [.property "a" true Demo.numberSchema, .property "a" true Demo.stringSchema] = some k ∧
    k.toUnchecked.subtype = some (.object
      { properties := some [("a", Demo.stringSchema)], required := some ["a", "a"], other := () }) := ⟨_, rfl, rfl⟩

/-! ### C26 -/

/-- C26: the members of every data schema of a built Thing, at any depth, fit together (see
`SchemaShape`): `oneOf`, `enum`, `const` and a type exclude each other, the lists are not empty, and
tuples have no length restrictions. -/
theorem C26_shape (hr : Reachable X title h b) (hb : b.build env = .ok t) {p : Position}
    {s x : DS X} (hs : t.HasSchema p s) (hx : Within x s) : SchemaShape x := hr.shape hb hs hx

/-- C26: at most one of `const`, `enum`, `oneOf` and a type is present. -/
theorem C26_exclusive (hr : Reachable X title h b) (hb : b.build env = .ok t) {p : Position}
    {s x : DS X} (hs : t.HasSchema p s) (hx : Within x s) :
    (x.head.constant.isSome.toNat + x.head.enumeration.isSome.toNat + x.oneOf.isSome.toNat +
      x.subtype.isSome.toNat) ≤ 1 := by
  have hsh := hr.shape hb hs hx
  cases hc : x.head.constant with
  | some v => obtain ⟨h1, h2, h3, -⟩ := hsh.constant v hc; simp [h1, h2, h3]
  | none =>
    cases he : x.head.enumeration with
    | some v => obtain ⟨-, h1, h2, -⟩ := hsh.enumeration v he; simp [h1, h2]
    | none =>
      cases ho : x.oneOf with
      | some v => obtain ⟨-, h1, -⟩ := hsh.oneOf v ho; simp [h1]
      | none => cases x.subtype <;> simp

/-- C26: a tuple has the list of the item schemas appended, in order; a vector has the last item
schema set, if any, and the last length limits. -/
theorem C26_arrays {DS AS OS : Type} {ops : List (KindOp DS AS OS)} {other : AS}
    {d : DataSchemaBuilder DS AS OS} {k : KindBuilder (DataSchemaBuilder DS AS OS) DS AS OS}
    (hd : PlainReach DS d) :
    (ops.foldlM KindBuilder.apply (specialise d (.tuple other)) = some k →
      k.toUnchecked.subtype = some (.array
        { items := some (.vec (SchemaCalls.appended ops)), minItems := none, maxItems := none, other })) ∧
    (ops.foldlM KindBuilder.apply (specialise d (.vec other)) = some k →
      k.toUnchecked.subtype = some (.array
        { items := (lastOf (SchemaCalls.items ops)).map .elem,
          minItems := lastOf (SchemaCalls.minItems ops), maxItems := lastOf (SchemaCalls.maxItems ops),
          other })) :=
  ⟨fun hk => by rw [toUnchecked_history hd hk]; rfl, fun hk => by rw [toUnchecked_history hd hk]; rfl⟩

/-- Tuples, constants and enumerations occur in a built Thing. -/
example : ∃ t, (Demo.single Demo.tupleSchema .schemaDefinition).build Demo.env = .ok t ∧
    ∃ s, t.HasSchema .schemaDefinition s ∧
      (∃ a l, s.subtype = some (.array a) ∧ a.items = some (.vec l) ∧ l.length = 3) ∧
      (∃ x, Within x s ∧ x.head.constant = some (.bool true)) ∧
      ∃ x, Within x s ∧ x.head.enumeration = some [.bool true, .null] := by
  obtain ⟨t, ht, hs⟩ := Demo.tuple_thing
  exact ⟨t, ht, _, hs, ⟨_, _, rfl, rfl, rfl⟩,
    ⟨_, within_mapLang.2 ⟨Demo.constSchema, .items rfl rfl (by simp) (.self _), rfl⟩, rfl⟩,
    ⟨_, within_mapLang.2 ⟨Demo.enumSchema, .items rfl rfl (by simp) (.self _), rfl⟩, rfl⟩⟩

/-! ### C43 -/

/-- C43: the data schema a chain of builder calls yields is the one described by the calls: see
`SchemaCalls.schema`. -/
theorem C43_schema {DS AS OS : Type} {ops : List (KindOp DS AS OS)} {op : SpecOp DS AS OS}
    {d : DataSchemaBuilder DS AS OS} {k : KindBuilder (DataSchemaBuilder DS AS OS) DS AS OS}
    (hd : PlainReach DS d) (hk : ops.foldlM KindBuilder.apply (specialise d op) = some k) :
    k.toUnchecked = SchemaCalls.schema ops d op := toUnchecked_history hd hk

/-- C43: the same for the data schema of a property. -/
theorem C43_property_schema {DS AS OS : Type} {ops : List (KindOp DS AS OS)} {op : SpecOp DS AS OS}
    {d : PartialDataSchemaBuilder DS AS OS}
    {k : KindBuilder (PartialDataSchemaBuilder DS AS OS) DS AS OS} (hd : PartialReach DS d)
    (hk : ops.foldlM KindBuilder.apply (specialise d op) = some k) :
    k.toPartial = SchemaCalls.partialSchema ops d op := toPartial_history hd hk

/-- A chain of calls and the schema described by them. -/
example : ∃ k, List.foldlM KindBuilder.apply
      (specialise (.empty () : DataSchemaBuilder Unit Unit Unit) .string)
      [.info (.title "a"), .unit "u", .maxLength 3, .info (.title "b"), .maxLength 4, .readOnly] = some k ∧
    k.toUnchecked = .mk { title := some "b", unit := some "u", readOnly := true, other := () } none
      (some (.string { maxLength := some 4 })) := ⟨_, rfl, rfl⟩

end Wot
