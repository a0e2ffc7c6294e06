import Verif.Lemmas.Values
import Verif.Props.Written
import Verif.Props.Meaning
import Verif.Props.Vocabulary
import Verif.Props.Typed
/-
C75: a data schema admits the same values for this library and for others that go by its JSON form.
-/
namespace Wot

variable {X : ExtTypes} {C : ExtCodecs X} {env : SerdeEnv} {t : Thing X} {V : ValueRules}

/-! ### Writing -/

/-- What is written for a schema admits the values that the schema admits, if the limits of arrays are looked up under
the names that this library uses for them. -/
theorem C75_written (hV : V.Lawful) (hs : C.Separate) (ho : C.Own) {s : DS X} (hm : ∀ x, Within x s → NodeMaps x)
    (hf : ∀ x, Within x s → FiniteBounds x) {e : Env} {j : Json} (hj : serDS C e s = some j) (v : Json) :
    j.norm.Admits V .crate v ↔ s.Admits V v :=
  (shown_admits hV _ (Nat.le_refl _) hf (ds_shown hs ho hm hj) v).symm

/-- According to the Recommendation, it does so if no array is limited in the number of its items. The full statement
would do without this condition; it is false, see below. -/
theorem C75_written_partial (hV : V.Lawful) {s : DS .nil} (hm : ∀ x, Within x s → NodeMaps x)
    (hf : ∀ x, Within x s → FiniteBounds x) (hu : s.Unlimited) {e : Env} {j : Json} (hj : serDS .nil e s = some j)
    (v : Json) :
    j.norm.Admits V .recommendation v ↔ s.Admits V v := by
  have hs : DSShown .nil s j.norm := ds_shown Demo.nil_separate Demo.nil_own hm hj
  rw [unlimited_admits fun u h => unlimited_shown rfl rfl rfl h hs hu]
  exact C75_written hV Demo.nil_separate Demo.nil_own hm hf hj v

/-- In general, it admits what the schema admits apart from these limits. -/
theorem C75_written_limits (hV : V.Lawful) {s : DS .nil} (hm : ∀ x, Within x s → NodeMaps x)
    (hf : ∀ x, Within x s → FiniteBounds x) {e : Env} {j : Json} (hj : serDS .nil e s = some j) (v : Json) :
    j.norm.Admits V .recommendation v ↔ s.withoutLimits.Admits V v := by
  have hs : DSShown .nil s j.norm := ds_shown Demo.nil_separate Demo.nil_own hm hj
  exact (shown_lax hV _ (Nat.le_refl _) hf (unsaid_shown rfl rfl rfl hs) hs v).symm

/-- The same for all schemas of a Thing, at their places in the JSON value that is written for it. -/
theorem C75_thing_written (hV : V.Lawful) (hs : C.Separate) (ho : C.Own) (h : t.Maps)
    (hn : ∀ kv ∈ t.securityDefinitions, kv.2.subtype.OwnNames) {d : Json} (hd : toValue C env t = some d)
    {path : List String} {s : DS X} (hp : t.SchemaAt path s) (hf : ∀ x, Within x s → FiniteBounds x) :
    ∃ w, d.at path = some w ∧ ∀ v, (w.Admits V .crate v ↔ s.Admits V v) ∧
      (w.Unlimited → (w.Admits V .recommendation v ↔ s.Admits V v)) ∧
      (w.LimitsUnsaid → (w.Admits V .recommendation v ↔ s.withoutLimits.Admits V v)) := by
  obtain ⟨w, hw, hsh⟩ := shown_at (C52_value hs ho h hn hd) hp
  refine ⟨w, hw, fun v => ?_⟩
  have := hsh.admits hV hf v
  exact ⟨this, fun hu => (unlimited_admits hu v).trans this, fun hu => hsh.lax hV hf hu v⟩

/-! ### Reading -/

/-- A schema that is read from a document admits the values that the document admits, if the limits of arrays are
looked up under the names that this library uses for them. -/
theorem C75_read (hV : V.Lawful) {d : Json} (hn : d.NumbersInRange)
    (hp : d.Plain env C.dataSchema C.arraySchema C.objectSchema []) {s : DS X} (h : deDS C env d = some s) (v : Json) :
    s.Admits V v ↔ d.Admits V .crate v := by
  obtain ⟨h⟩ := (C58_schema hn).1 h
  exact ReadAs.admits hV ⟨_, rfl, h⟩ hn hp v

/-- According to the Recommendation, it does so if no array is limited in the number of its items. The full statement
would do without this condition and would only ask that the document is valid; it is false, see below. -/
theorem C75_read_partial (hV : V.Lawful) {d : Json} (hn : d.NumbersInRange)
    (hp : d.Plain env C.dataSchema C.arraySchema C.objectSchema []) (hu : d.Unlimited) {s : DS X}
    (h : deDS C env d = some s) (v : Json) : s.Admits V v ↔ d.Admits V .recommendation v :=
  (C75_read hV hn hp h v).trans (unlimited_admits hu v).symm

/-- The same for all schemas of a Thing, at their places in the document. -/
theorem C75_thing_read (hV : V.Lawful) {d : Json} (hn : d.NumbersInRange) (hd : d.NoDup)
    (h : fromText C env d = some t) {path : List String} {s : DS X} (hs : t.SchemaAt path s) :
    ∃ w, d.at path = some w ∧ (w.Plain env C.dataSchema C.arraySchema C.objectSchema (outerNames path) →
      ∀ v, (s.Admits V v ↔ w.Admits V .crate v) ∧ (w.Unlimited → (s.Admits V v ↔ w.Admits V .recommendation v))) := by
  obtain ⟨w, hw, hr⟩ := read_at hd ((C58_read hn).1 h) hs
  refine ⟨w, hw, fun hp v => ?_⟩
  have := hr.admits hV (at_inRange hn hw) hp v
  exact ⟨this, fun hu => this.trans (unlimited_admits hu v).symm⟩

/-! ### Where the two differ -/

namespace Demo

/-- A schema with nothing but a type. -/
def ofType (st : Option (SubtypeF Unit Unit (DS .nil))) : DS .nil := .mk { other := () } none st

theorem ofType_admits {st : Option (SubtypeF Unit Unit (DS .nil))} {v : Json} : (ofType st).Admits V v ↔
    ∀ x, st = some x → (x.map (Schema.Admits V)).Admits V v := by
  rw [Schema.admits_iff]
  simp [ofType, Schema.head, Schema.oneOf, Schema.subtype]

theorem absent {α : Type} {P : α → Prop} {o : Option α} (h : o = none) (x : α) (hx : o = some x) : P x :=
  absurd (h.symm.trans hx) (by simp)

theorem not_type {d : Json} {T U : String} {P : Prop} (h : d.member "type" = some (.str T)) (hn : T ≠ U)
    (hu : d.member "type" = some (.str U)) : P :=
  absurd (by simpa using h.symm.trans hu) hn

/-- An array of one item at least. -/
def oneItem : Json := .obj [("type", .str "array"), ("minItems", .num (.pos 1))]

/-- Bounds of which the library keeps the first only. -/
def twoBounds : Json := .obj [("type", .str "integer"), ("minimum", .num (.pos 0)), ("exclusiveMinimum", .num (.pos 1))]

/-- 1.5 -/
def oneAndHalf : F64 := .ofBits 0x3ff8000000000000

/-- A float that is no number. -/
def minusInfinity : F64 := .ofBits 0xfff0000000000000

/-- A bound of an integer that is no integer. -/
def oddBound : Json := .obj [("type", .str "integer"), ("minimum", .num (.float oneAndHalf))]

/-- A member that does not fit. -/
def badLength : Json := .obj [("type", .str "string"), ("minLength", .num (.neg 0))]

/-- A bound that has no exact floating point number. -/
def inexactBound : Json := .obj [("type", .str "number"), ("maximum", .num (.pos (2 ^ 53 + 1)))]

end Demo

/-- A limit of the length of an array in the words of the Recommendation is not seen. -/
theorem C75_limit_read : ∃ s, deDS .nil env Demo.oneItem = some s ∧ s.Admits V (.arr []) ∧
    ¬ Demo.oneItem.Admits V .recommendation (.arr []) := by
  refine ⟨Demo.ofType (some (.array ⟨none, none, none, ()⟩)), rfl, ?_, ?_⟩
  · refine Demo.ofType_admits.2 fun x e => ?_
    cases e
    exact ⟨_, rfl, ⟨nofun, nofun⟩, nofun, nofun⟩
  · rw [Json.admits_iff]
    rintro ⟨-, -, -, -, -, -, -, -, -, h, -⟩
    obtain ⟨l, e, h, -⟩ := h rfl
    cases e
    have := h.1 (.pos 1) rfl
    revert this
    decide

/-- A limit of the length of an array is not written in the words of the Recommendation. -/
theorem C75_limit_written : ∃ s : DS .nil, ∃ j, (∀ e : Env, serDS .nil e s = some j) ∧
    j.norm.Admits V .recommendation (.arr []) ∧ ¬ s.Admits V (.arr []) := by
  refine ⟨Demo.ofType (some (.array ⟨none, some ⟨1, by decide⟩, none, ()⟩)),
    .obj [("readOnly", .bool false), ("writeOnly", .bool false), ("type", .str "array"), ("min_items", .num (.pos 1))],
    fun e => rfl, ?_, ?_⟩
  · rw [Json.admits_iff]
    have ht : Json.member (.norm (.obj [("readOnly", .bool false), ("writeOnly", .bool false), ("type", .str "array"),
      ("min_items", .num (.pos 1))])) "type" = some (.str "array") := rfl
    refine ⟨Demo.absent rfl, fun l h => absurd h nofun, fun l h => absurd h nofun, fun l h => absurd h nofun,
      Demo.not_type ht (by decide), Demo.not_type ht (by decide), Demo.not_type ht (by decide),
      Demo.not_type ht (by decide), Demo.not_type ht (by decide), fun _ => ?_, Demo.not_type ht (by decide)⟩
    exact ⟨[], rfl, ⟨fun n h => absurd h nofun, fun n h => absurd h nofun⟩, fun m h => absurd h nofun,
      fun m h => absurd h nofun⟩
  · intro h
    obtain ⟨l, e, h, -⟩ := Demo.ofType_admits.1 h _ rfl
    cases e
    exact absurd (h.1 _ rfl) (by decide)

/-- An infinite bound is not written. -/
theorem C75_infinite : ∃ s : DS .nil, ∃ j, (∀ e : Env, serDS .nil e s = some j) ∧
    j.norm.Admits V .recommendation (.num (.pos 0)) ∧ ¬ s.Admits V (.num (.pos 0)) := by
  refine ⟨Demo.ofType (some (.number { maximum := some (.inclusive Demo.minusInfinity) })),
    .obj [("readOnly", .bool false), ("writeOnly", .bool false), ("type", .str "number"), ("maximum", .null)],
    fun e => rfl, ?_, ?_⟩
  · rw [Json.admits_iff]
    have ht : Json.member (.norm (.obj [("readOnly", .bool false), ("writeOnly", .bool false), ("type", .str "number"),
      ("maximum", .null)])) "type" = some (.str "number") := rfl
    refine ⟨Demo.absent rfl, fun l h => absurd h nofun, fun l h => absurd h nofun, fun l h => absurd h nofun,
      Demo.not_type ht (by decide), Demo.not_type ht (by decide), Demo.not_type ht (by decide), fun _ => ?_,
      Demo.not_type ht (by decide), Demo.not_type ht (by decide), Demo.not_type ht (by decide)⟩
    exact ⟨_, rfl, fun n h => absurd h nofun, fun n h => absurd h nofun, fun n h => absurd h nofun,
      fun n h => absurd h nofun, fun n h => absurd h nofun⟩
  · intro h
    obtain ⟨x, e, h⟩ := Demo.ofType_admits.1 h _ rfl
    cases e
    have := h.maximum _ rfl
    revert this
    show ¬ ((0 : Nat) : Rat) ≤ Demo.minusInfinity.value
    decide +kernel

/-- A constant `null` is not seen. -/
theorem C75_null {v : Json} (h : ¬ V.same .null v) : ∃ s, deDS .nil env (.obj [("const", .null)]) = some s ∧
    s.Admits V v ∧ ¬ (Json.obj [("const", .null)]).Admits V .recommendation v := by
  refine ⟨Demo.ofType none, rfl, ?_, ?_⟩
  · exact Demo.ofType_admits.2 (Demo.absent rfl)
  · rw [Json.admits_iff]
    exact fun hc => h (hc.1 _ rfl)

/-- Of two minimums, the second one is not seen. -/
theorem C75_two_bounds : ∃ s, deDS .nil env Demo.twoBounds = some s ∧ s.Admits V (.num (.pos 1)) ∧
    ¬ Demo.twoBounds.Admits V .recommendation (.num (.pos 1)) := by
  refine ⟨Demo.ofType (some (.integer { minimum := some (.inclusive ⟨0, by decide⟩) })), rfl, ?_, ?_⟩
  · refine Demo.ofType_admits.2 fun x e => ?_
    cases e
    refine ⟨_, rfl, ⟨1, rfl⟩, ?_, Demo.absent rfl, Demo.absent rfl⟩
    intro b e
    cases e
    show (0 : Rat) ≤ 1
    decide
  · rw [Json.admits_iff]
    rintro ⟨-, -, -, -, -, -, -, -, h, -⟩
    obtain ⟨x, e, -, h⟩ := h rfl
    cases e
    exact absurd (h.exclusiveMinimum (.pos 1) rfl) (by decide)

/-- A bound of an integer that is not an integer is not seen. -/
theorem C75_odd_bound : ∃ s, deDS .nil env Demo.oddBound = some s ∧ s.Admits V (.num (.pos 1)) ∧
    ¬ Demo.oddBound.Admits V .recommendation (.num (.pos 1)) := by
  refine ⟨Demo.ofType (some (.integer {})), rfl, ?_, ?_⟩
  · refine Demo.ofType_admits.2 fun x e => ?_
    cases e
    exact ⟨_, rfl, ⟨1, rfl⟩, Demo.absent rfl, Demo.absent rfl, Demo.absent rfl⟩
  · rw [Json.admits_iff]
    rintro ⟨-, -, -, -, -, -, -, -, h, -⟩
    obtain ⟨x, e, -, h⟩ := h rfl
    cases e
    exact absurd (h.minimum (.float Demo.oneAndHalf) rfl) (by decide +kernel)

/-- If a member does not fit, the type is not seen. -/
theorem C75_bad_length : ∃ s, deDS .nil env Demo.badLength = some s ∧ s.Admits V .null ∧
    ¬ Demo.badLength.Admits V .recommendation .null := by
  refine ⟨Demo.ofType none, rfl, ?_, ?_⟩
  · exact Demo.ofType_admits.2 (Demo.absent rfl)
  · rw [Json.admits_iff]
    rintro ⟨-, -, -, -, -, -, h, -⟩
    obtain ⟨x, e, -⟩ := h rfl
    cases e

/-- A bound is rounded: the document admits the bound itself, the schema that is read does not. -/
theorem C75_inexact_bound : ∃ s, deDS .nil env Demo.inexactBound = some s ∧
    ¬ s.Admits V (.num (.pos (2 ^ 53 + 1))) ∧ Demo.inexactBound.Admits V .recommendation (.num (.pos (2 ^ 53 + 1))) := by
  refine ⟨Demo.ofType (some (.number { maximum := some (.inclusive (F64.ofInt (2 ^ 53 + 1))) })), rfl, ?_, ?_⟩
  · intro h
    obtain ⟨x, e, h⟩ := Demo.ofType_admits.1 h _ rfl
    cases e
    have := h.maximum _ rfl
    revert this
    show ¬ ((2 ^ 53 + 1 : Nat) : Rat) ≤ (F64.ofInt (2 ^ 53 + 1)).value
    decide +kernel
  · rw [Json.admits_iff]
    have ht : Demo.inexactBound.member "type" = some (.str "number") := rfl
    refine ⟨Demo.absent rfl, fun l h => absurd h nofun, fun l h => absurd h nofun, fun l h => absurd h nofun,
      Demo.not_type ht (by decide), Demo.not_type ht (by decide), Demo.not_type ht (by decide), fun _ => ?_,
      Demo.not_type ht (by decide), Demo.not_type ht (by decide), Demo.not_type ht (by decide)⟩
    refine ⟨_, rfl, fun n h => absurd h nofun, fun n h => absurd h nofun, fun n h => ?_, fun n h => absurd h nofun,
      fun n h => absurd h nofun⟩
    have : n = .pos (2 ^ 53 + 1) := by
      have h' : (some (Json.num (.pos (2 ^ 53 + 1)))) = some (.num n) := h
      simpa using h'.symm
    rw [this]
    exact Rat.le_refl

/-! ### Examples -/

namespace Demo

/-- Rules by which values are equal if they have the same members, and nothing is known about patterns and formats. -/
def rules : ValueRules := ⟨fun a b => a.norm = b.norm, fun _ _ => True, fun _ _ => True⟩

theorem rules_lawful : rules.Lawful := fun c v => by simp [rules, norm_norm]

/-- A small positive integer. -/
def item : Json := .obj [("type", .str "integer"), ("minimum", .num (.pos 1)), ("exclusiveMaximum", .num (.pos 9))]

/-- An array of them. -/
def itemsDoc : Json := .obj [("type", .str "array"), ("items", item)]

theorem itemsDoc_nested {u : Json} (h : itemsDoc.HasSchema u) : u = itemsDoc ∨ u = item := by
  have inner : ∀ {u}, item.HasSchema u → u = item := by
    intro u h
    cases h with
    | self => rfl
    | oneOf h | item h | items h | property h => exact absurd h nofun
  cases h with
  | self => exact .inl rfl
  | oneOf h | items h | property h => exact absurd h nofun
  | item h h' =>
    cases (show some Demo.item = some (Json.obj _) from h)
    exact .inr (inner h')

/-- The schema that is read. -/
def items : DS .nil := ofType (some (.array ⟨some (.elem (ofType (some (.integer
  { minimum := some (.inclusive ⟨1, by decide⟩), maximum := some (.exclusive ⟨9, by decide⟩) })))), none, none, ()⟩))

theorem itemsDoc_read : deDS .nil senv itemsDoc = some items := rfl

theorem item_read : ∃ s, deDS .nil senv item = some s ∧ s.typeName = some "integer" := ⟨_, rfl, rfl⟩

/-- The constraints of a type are as they should be if the type is read. -/
theorem constraints_of_read {es : Members} {s : DS .nil} {T U : String} (h : deDS .nil senv (.obj es) = some s)
    (hs : s.typeName = some U) (hm : (Json.obj es).member "type" = some (.str U))
    (ht : (Json.obj es).member "type" = some (.str T)) : Doc.Constraints senv ExtCodecs.nil.dataSchema
      ExtCodecs.nil.arraySchema ExtCodecs.nil.objectSchema [] es T := by
  have : U = T := by simpa using hm.symm.trans ht
  exact this ▸ ((C55_type h U).1 hs).2

theorem item_plain : item.PlainNode senv ExtCodecs.nil.dataSchema ExtCodecs.nil.arraySchema
    ExtCodecs.nil.objectSchema [] where
  names := by
    intro es e
    cases e
    decide
  properties := fun _ h => absurd h nofun
  constant := nofun
  type := nofun
  constraints := by
    intro es T e _ h
    cases e
    exact constraints_of_read (s := ofType (some (.integer
      { minimum := some (.inclusive ⟨1, by decide⟩), maximum := some (.exclusive ⟨9, by decide⟩) }))) rfl rfl rfl h
  minimum := .inr rfl
  maximum := .inl rfl
  number h := not_type (d := item) rfl (by decide) h
  integer _ k hk n h := by
    simp only [List.mem_cons, List.not_mem_nil, or_false] at hk
    rcases hk with rfl | rfl | rfl | rfl
    · have e : some (Json.num (.pos 1)) = some (.num n) := h
      cases e
      exact ⟨⟨1, by decide⟩, .inl ⟨_, rfl, rfl⟩⟩
    · exact absurd h nofun
    · exact absurd h nofun
    · have e : some (Json.num (.pos 9)) = some (.num n) := h
      cases e
      exact ⟨⟨9, by decide⟩, .inl ⟨_, rfl, rfl⟩⟩

theorem itemsDoc_plain : itemsDoc.Plain senv ExtCodecs.nil.dataSchema ExtCodecs.nil.arraySchema
    ExtCodecs.nil.objectSchema [] := by
  refine ⟨⟨?_, fun _ h => absurd h nofun, nofun, nofun, ?_, .inl rfl, .inl rfl, fun h => ?_, fun h => ?_⟩,
    fun u h => (itemsDoc_nested h).imp id fun e => by rw [e]; exact item_plain⟩
  · intro es e
    cases e
    decide
  · intro es T e _ h
    cases e
    exact constraints_of_read itemsDoc_read rfl rfl h
  · exact not_type (d := itemsDoc) rfl (by decide) h
  · exact not_type (d := itemsDoc) rfl (by decide) h

theorem itemsDoc_unlimited : itemsDoc.Unlimited := by
  intro u h
  rcases itemsDoc_nested h with rfl | rfl <;> decide

end Demo

/-- The hypotheses about a document that is read can be met. -/
example (v : Json) : Demo.items.Admits Demo.rules v ↔ Demo.itemsDoc.Admits Demo.rules .recommendation v :=
  C75_read_partial Demo.rules_lawful (numbersInRange_of (by decide)) Demo.itemsDoc_plain Demo.itemsDoc_unlimited
    Demo.itemsDoc_read v

/-- Such a schema tells values apart. -/
example : Demo.items.Admits V (.arr [.num (.pos 1), .num (.pos 8)]) ∧
    ¬ Demo.items.Admits V (.arr [.num (.pos 1), .num (.pos 9)]) ∧ ¬ Demo.items.Admits V .null := by
  refine ⟨Demo.ofType_admits.2 fun x e => ?_, fun h => ?_, fun h => ?_⟩
  · cases e
    refine ⟨_, rfl, ⟨nofun, nofun⟩, fun p e x hx => ?_, nofun⟩
    cases e
    refine Demo.ofType_admits.2 fun y e => ?_
    cases e
    simp only [List.mem_cons, List.not_mem_nil, or_false] at hx
    rcases hx with rfl | rfl
    · refine ⟨_, rfl, ⟨1, rfl⟩, fun b e => ?_, fun b e => ?_, Demo.absent rfl⟩ <;> cases e
      · exact (by decide : (1 : Rat) ≤ 1)
      · exact (by decide : (1 : Rat) < 9)
    · refine ⟨_, rfl, ⟨8, rfl⟩, fun b e => ?_, fun b e => ?_, Demo.absent rfl⟩ <;> cases e
      · exact (by decide : (1 : Rat) ≤ 8)
      · exact (by decide : (8 : Rat) < 9)
  · obtain ⟨l, e, -, h, -⟩ := Demo.ofType_admits.1 h _ rfl
    cases e
    obtain ⟨x, e, -, h⟩ := Demo.ofType_admits.1 (h _ rfl (.num (.pos 9)) (by simp)) _ rfl
    cases e
    exact absurd (h.maximum _ rfl) (by decide : ¬ (9 : Rat) < 9)
  · obtain ⟨l, e, -⟩ := Demo.ofType_admits.1 h _ rfl
    cases e

namespace Demo

theorem items_nested {x : DS .nil} (h : Within x items) : x = items ∨ x = ofType (some (.integer
    { minimum := some (.inclusive ⟨1, by decide⟩), maximum := some (.exclusive ⟨9, by decide⟩) })) := by
  cases h with
  | self => exact .inl rfl
  | oneOf h => cases h
  | items h h' => cases h; cases h'
  | property h => cases h
  | item h h' hx =>
    cases h
    cases h'
    cases hx with
    | self => exact .inr rfl
    | oneOf h => cases h
    | item h | items h | property h => cases h

theorem items_finite {x : DS .nil} (h : Within x items) : FiniteBounds x := by
  rcases items_nested h with rfl | rfl <;> exact ⟨nofun, nofun, nofun⟩

theorem items_maps {x : DS .nil} (h : Within x items) : NodeMaps x := by
  rcases items_nested h with rfl | rfl <;> exact ⟨nofun, nofun, nofun⟩

theorem items_unlimited : items.Unlimited := by
  intro x h a e
  rcases items_nested h with rfl | rfl <;> cases e
  exact ⟨rfl, rfl⟩

/-- A Thing Description with a named schema. -/
def schemaDocument : Members := document (.str "none") ++ [("schemaDefinitions", .obj [("small", itemsDoc)])]

theorem schemaDocument_read : ∃ t, fromText .nil senv (.obj schemaDocument) = some t ∧
    t.SchemaAt ["schemaDefinitions", "small"] items := ⟨_, rfl, .schemaDefinition rfl rfl⟩

end Demo

/-- The hypotheses about a schema that is written can be met. -/
example : ∃ j, serDS .nil Demo.env Demo.items = some j ∧
    ∀ v, j.norm.Admits Demo.rules .recommendation v ↔ Demo.items.Admits Demo.rules v :=
  ⟨_, rfl, C75_written_partial Demo.rules_lawful (fun _ => Demo.items_maps) (fun _ => Demo.items_finite)
    Demo.items_unlimited rfl⟩

/-- A schema with a limit. -/
def Demo.limited : DS .nil := Demo.ofType (some (.array ⟨some (.elem Demo.items), some ⟨1, by decide⟩, none, ()⟩))

theorem Demo.limited_nested {x : DS .nil} (h : Within x Demo.limited) : x = Demo.limited ∨ Within x Demo.items := by
  cases h with
  | self => exact .inl rfl
  | oneOf h => cases h
  | items h h' => cases h; cases h'
  | property h => cases h
  | item h h' hx => cases h; cases h'; exact .inr hx

/-- Others see nothing of the limit. -/
example : Demo.limited.withoutLimits = Demo.ofType (some (.array ⟨some (.elem Demo.items), none, none, ()⟩)) ∧
    ∃ j, serDS .nil Demo.env Demo.limited = some j ∧
      ∀ v, j.norm.Admits Demo.rules .recommendation v ↔ Demo.limited.withoutLimits.Admits Demo.rules v := by
  refine ⟨rfl, _, rfl, C75_written_limits Demo.rules_lawful (fun x hx => ?_) (fun x hx => ?_) rfl⟩
  · rcases Demo.limited_nested hx with rfl | hx
    · exact ⟨nofun, nofun, nofun⟩
    · exact Demo.items_maps hx
  · rcases Demo.limited_nested hx with rfl | hx
    · exact ⟨nofun, nofun, nofun⟩
    · exact Demo.items_finite hx

/-- A Thing Description is read: the named schema admits what is said at its place. -/
example : ∃ t w, fromText .nil Demo.senv (.obj Demo.schemaDocument) = some t ∧
    t.SchemaAt ["schemaDefinitions", "small"] Demo.items ∧
    (Json.obj Demo.schemaDocument).at ["schemaDefinitions", "small"] = some w ∧
    ∀ v, Demo.items.Admits Demo.rules v ↔ w.Admits Demo.rules .recommendation v := by
  obtain ⟨t, ht, hs⟩ := Demo.schemaDocument_read
  obtain ⟨w, hw, h⟩ := C75_thing_read Demo.rules_lawful (numbersInRange_of (by decide)) (by
    simp [Json.NoDup, Json.NoDupMembers, Demo.schemaDocument, Demo.document, Demo.itemsDoc, Demo.item]) ht hs
  cases (show some Demo.itemsDoc = some w from hw)
  exact ⟨t, _, ht, hs, hw, fun v => (h Demo.itemsDoc_plain v).2 Demo.itemsDoc_unlimited⟩

/-- It is written again, with a schema for the same values at the same place. -/
example : ∃ t d w, fromText .nil Demo.senv (.obj Demo.schemaDocument) = some t ∧ toValue .nil Demo.senv t = some d ∧
    d.at ["schemaDefinitions", "small"] = some w ∧
    ∀ v, w.Admits Demo.rules .crate v ↔ Demo.items.Admits Demo.rules v := by
  obtain ⟨t, ht, hs⟩ := Demo.schemaDocument_read
  obtain ⟨d, hd⟩ : ∃ d, toValue .nil Demo.senv t = some d := by cases ht; exact ⟨_, rfl⟩
  have ho : ∀ kv ∈ t.securityDefinitions, kv.2.subtype.OwnNames := by
    cases ht
    intro kv hkv scheme m hm
    rcases List.mem_singleton.1 hkv with rfl
    cases hm
  obtain ⟨w, hw, h⟩ := C75_thing_written Demo.rules_lawful Demo.nil_separate Demo.nil_own
    (C49_read (C := .nil) (env := Demo.senv) (d := .obj Demo.schemaDocument) Demo.stable ht) ho hd hs
    fun _ => Demo.items_finite
  exact ⟨t, d, w, ht, hd, hw, fun v => (h v).1⟩

end Wot
