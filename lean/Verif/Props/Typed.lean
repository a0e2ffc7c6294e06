import Verif.Lemmas.Typed
import Verif.Props.DemoStore
/-
C55: the type and the constraints of a data schema that is read.
-/
namespace Wot

variable {X : ExtTypes} {C : ExtCodecs X} {env : SerdeEnv} {es : Members}

/-- The type of a data schema. -/
def DataSchema.typeName {DSx AS OS : Type} (s : DataSchema DSx AS OS) : Option String :=
  s.subtype.map SubtypeF.typeName

/-- A data schema has the type that `type` names iff the members that depend on this type are as they should be. -/
theorem C55_type {s : DS X} (h : deDS C env (.obj es) = some s) (T : String) :
    s.typeName = some T ↔
      Doc.TypeIs T es ∧ Doc.Constraints env C.dataSchema C.arraySchema C.objectSchema [] es T := by
  rw [deDS, deSchema_obj] at h
  have := (deSchemaMembers_iff.1 h).subtype
  rw [DataSchema.typeName, ← this, ← subtype_name (K := []) (fun k _ => List.not_mem_nil)]
  rw [show rest [] es = es by simp [rest]]

/-- The same for the data schema of a property. -/
theorem C55_property_type {p : PropertyAffordance X} (h : deProperty C env (.obj es) = some p) (T : String) :
    p.dataSchema.typeName = some T ↔
      Doc.TypeIs T es ∧ Doc.Constraints env C.dataSchema C.arraySchema C.objectSchema ["observable"] es T := by
  have := (deSchemaMembers_iff.1 (deProperty_iff.1 h).dataSchema).subtype
  rw [DataSchema.typeName, ← this]
  exact subtype_name (by decide)

/-- One constraint that cannot be read, and the data schema has no type at all. -/
theorem C55_untyped {s : DS X} (h : deDS C env (.obj es) = some s) {T : String} (hT : Doc.TypeIs T es)
    (hc : ¬ Doc.Constraints env C.dataSchema C.arraySchema C.objectSchema [] es T) : s.subtype = none := by
  have key : ∀ T', s.typeName ≠ some T' := by
    intro T' e
    obtain ⟨⟨v, hv, h1⟩, h2⟩ := (C55_type h T').1 e
    obtain ⟨w, hw, h3⟩ := hT
    rw [hv] at hw
    cases hw
    have : T' = T := by
      rcases h1 with rfl | ⟨n, rfl, hn⟩ <;> rcases h3 with e | ⟨m, e, hm⟩ <;> cases e
      · rfl
      · exact Option.some.inj (hn.symm.trans hm)
    exact hc (this ▸ h2)
  cases e : s.subtype with
  | none => rfl
  | some st => exact absurd (by rw [DataSchema.typeName, e]; rfl) (key st.typeName)

/-- The constraints are what the members say. -/
theorem C55_says (hd : (Json.obj es).NumbersInRange) {s : DS X} (h : deDS C env (.obj es) = some s)
    {st : SubtypeF X.arraySchema X.objectSchema (DS X)} (hst : s.subtype = some st) :
    Doc.TypeSays (deDS C env) C.arraySchema C.objectSchema [] es st := by
  rw [deDS, deSchema_obj] at h
  have := (deSchemaMembers_iff.1 h).subtype
  refine subtype_says (K := []) (fun k _ => List.not_mem_nil) hd ?_
  rw [show rest [] es = es by simp [rest], ← hst]
  exact this

/-- The same for the data schema of a property. -/
theorem C55_property_says (hd : (Json.obj es).NumbersInRange) {p : PropertyAffordance X}
    (h : deProperty C env (.obj es) = some p) {st : SubtypeF X.arraySchema X.objectSchema (DS X)}
    (hst : p.dataSchema.subtype = some st) :
    Doc.TypeSays (deDS C env) C.arraySchema C.objectSchema ["observable"] es st :=
  subtype_says (by decide) hd (((deSchemaMembers_iff.1 (deProperty_iff.1 h).dataSchema).subtype).trans hst)

/-- If the first of two bounds cannot be read, there is no bound. -/
theorem C55_bad_bound {T : Type} {Is : Json → T → Prop} {v : Json} (hv : ∀ x, ¬ Is v x) :
    (∀ o, Doc.SaysMinimum es Is o → Doc.First "minimum" "exclusiveMinimum" es v ∨
      Doc.First "exclusiveMinimum" "minimum" es v → o = none) ∧
    ∀ o, Doc.SaysMaximum es Is o → Doc.First "maximum" "exclusiveMaximum" es v ∨
      Doc.First "exclusiveMaximum" "maximum" es v → o = none := by
  have un : ∀ {k k' : String} {w : Json}, Doc.First k k' es v → ¬ (Doc.First k' k es w ∧ k ≠ k') ∧
      (Doc.First k k' es w → w = v) := by
    intro k k' w h1
    refine ⟨?_, fun h2 => ?_⟩
    · rintro ⟨h2, hk⟩
      have := (find_first.2 h1).symm.trans (find_first'.2 h2)
      cases this; exact hk rfl
    · have := (find_first.2 h1).symm.trans (find_first.2 h2)
      cases this; rfl
  have aux : ∀ {k k' : String} {w : Json} {x : T}, k ≠ k' → Doc.First k k' es v ∨ Doc.First k' k es v →
      Doc.First k k' es w → Is w x → False := by
    intro k k' w x hk h1 h2 hx
    rcases h1 with h1 | h1
    · exact hv x ((un h1).2 h2 ▸ hx)
    · exact (un h1).1 ⟨h2, Ne.symm hk⟩
  refine ⟨fun o ho hf => ?_, fun o ho hf => ?_⟩
  · match o with
    | none => rfl
    | some (.inclusive x) =>
      obtain ⟨w, hw, hx⟩ := (ho x).1.1 rfl
      exact (aux (by decide) hf hw hx).elim
    | some (.exclusive x) =>
      obtain ⟨w, hw, hx⟩ := (ho x).2.1 rfl
      exact (aux (by decide) hf.symm hw hx).elim
  · match o with
    | none => rfl
    | some (.inclusive x) =>
      obtain ⟨w, hw, hx⟩ := (ho x).1.1 rfl
      exact (aux (by decide) hf hw hx).elim
    | some (.exclusive x) =>
      obtain ⟨w, hw, hx⟩ := (ho x).2.1 rfl
      exact (aux (by decide) hf.symm hw hx).elim

/-- Every integer of 64 bits is read as one floating point number, and as itself if it has less than 54 bits. -/
theorem C55_integers {v : Json} {z : Int} (hv : Doc.IsInteger v z) (h1 : -2^63 ≤ z) (h2 : z < 2^64) :
    (∃ x, Doc.IsFloat v x ∧ ∀ y, Doc.IsFloat v y → y = x) ∧
    (z.natAbs < 2^53 → ∀ x, Doc.IsFloat v x → x.units = z * 2^1074) := by
  have one : ∀ z', Doc.IsInteger v z' → z' = z := by
    rintro z' (⟨n, rfl, rfl⟩ | ⟨n, rfl, rfl⟩) <;> rcases hv with ⟨m, e, rfl⟩ | ⟨m, e, rfl⟩ <;> cases e <;> rfl
  have nofloat : ∀ y, v ≠ .num (.float y) := by
    rintro y rfl; rcases hv with ⟨m, e, _⟩ | ⟨m, e, _⟩ <;> cases e
  have uniq : ∀ y, Doc.IsFloat v y → y = F64.ofInt z := by
    rintro y (h | ⟨z', hz, hn, hs⟩)
    · exact absurd h (nofloat y)
    · cases one z' hz
      exact hn.unique (ofInt_nearest h1 h2) hs (ofInt_mag h1 h2).2
  refine ⟨⟨F64.ofInt z, .inr ⟨z, hv, ofInt_nearest h1 h2, (ofInt_mag h1 h2).2⟩, uniq⟩, fun h x hx => ?_⟩
  rw [uniq x hx]
  exact ofInt_exact h

/-! ### Examples -/

/-- A document whose types and constraints can all be read. -/
def Demo.typedMembers : Members :=
  [("type", .str "object"), ("required", .arr [.str "a"]), ("properties", .obj [
    ("a", .obj [("type", .str "integer"), ("exclusiveMinimum", .num (.neg 4)), ("multipleOf", .num (.pos 3))]),
    ("b", .obj [("type", .num (.pos 0)), ("min_items", .num (.pos 2)),
      ("items", .arr [.obj [("type", .str "number"), ("maximum", .num (.pos (2^53 + 1)))]])])])]

theorem Demo.typedMembers_read : ∃ s, deDS .nil Demo.senv (.obj Demo.typedMembers) = some s ∧
    s.typeName = some "object" := ⟨_, rfl, rfl⟩

example : Doc.TypeIs "object" Demo.typedMembers ∧
    Doc.Constraints Demo.senv ExtCodecs.nil.dataSchema ExtCodecs.nil.arraySchema ExtCodecs.nil.objectSchema []
      Demo.typedMembers "object" := by
  obtain ⟨s, h, ht⟩ := Demo.typedMembers_read
  exact (C55_type h _).1 ht

/-- `multipleOf` must not be zero: the whole type is dropped, together with the bound. -/
example : ∃ s, deDS .nil Demo.senv (.obj [("type", .str "integer"), ("minimum", .num (.pos 1)),
    ("multipleOf", .num (.pos 0))]) = some s ∧ s.subtype = none := ⟨_, rfl, rfl⟩

/-- A bound of an integer schema that is no integer is dropped, and hides the other one. -/
example : ∃ s, deDS .nil Demo.senv (.obj [("type", .str "integer"), ("minimum", .num (.pos (2^63))),
    ("exclusiveMinimum", .num (.pos 1))]) = some s ∧ s.subtype = some (.integer {}) := ⟨_, rfl, rfl⟩

/-- The integer after `2^53` is rounded to it. -/
example : F64.ofInt (2^53 + 1) = F64.ofInt (2^53) ∧ (F64.ofInt (2^53 + 1)).bits.val = 0x4340000000000000 ∧
    (F64.ofInt (-3)).bits.val = 0xC008000000000000 := by decide

end Wot
