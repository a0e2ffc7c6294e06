import Verif.Lemmas.Buildable
/-
Exactly the data schemas of the right shape are made with the builders.
-/
namespace Wot

variable {DS AS OS : Type}

/-- What one data schema handed over to a builder is like, not looking at the nested ones. -/
structure UncheckedMade (x : UncheckedDataSchema DS AS OS) : Prop extends SchemaShape x where
  attype : x.head.attype ≠ some []
  titles : LangRep x.head.titles
  descriptions : LangRep x.head.descriptions
  sorted : ∀ o m, x.subtype = some (.object o) → o.properties = some m → HMap.Sorted m
  unspecified : x.Open → x = .default x.head.other

theorem SchemaShape.partial {x : UncheckedDataSchema DS AS OS} (h : SchemaShape x) :
    PartialShape
      { constant := x.head.constant, default := x.head.default, unit := x.head.unit, oneOf := x.oneOf,
        enumeration := x.head.enumeration, readOnly := x.head.readOnly, writeOnly := x.head.writeOnly,
        format := x.head.format, subtype := x.subtype, other := x.head.other } :=
  ⟨h.access, h.required, h.properties, h.oneOf, h.enumeration, h.constant, h.tuple⟩

theorem callClosed_kindReach : CallClosed (KindReach (DS := DS) (AS := AS) (OS := OS)) :=
  fun _ _ op _ ha hk h => .step op hk ha h

theorem callClosed_partialKindReach : CallClosed (PartialKindReach (DS := DS) (AS := AS) (OS := OS)) :=
  fun _ _ op hs ha hk h => .step op hk hs ha h

theorem kindReach_string {b : DataSchemaBuilder DS AS OS} (s : StringSchema)
    (h : KindReach ⟨b, .string {}, .both⟩) : KindReach ⟨b, .string s, .both⟩ := by
  obtain ⟨lo, hi, p, e, m⟩ := s
  have h1 : KindReach ⟨b, .string { minLength := lo }, .both⟩ := by
    cases lo with
    | none => exact h
    | some x => exact .step (.minLength x) h nofun rfl
  have h2 : KindReach ⟨b, .string { minLength := lo, maxLength := hi }, .both⟩ := by
    cases hi with
    | none => exact h1
    | some x => exact .step (.maxLength x) h1 nofun rfl
  have h3 : KindReach ⟨b, .string { minLength := lo, maxLength := hi, pattern := p }, .both⟩ := by
    cases p with
    | none => exact h2
    | some x => exact .step (.pattern x) h2 nofun rfl
  have h4 : KindReach ⟨b, .string ⟨lo, hi, p, e, none⟩, .both⟩ := by
    cases e with
    | none => exact h3
    | some x => exact .step (.contentEncoding x) h3 nofun rfl
  cases m with
  | none => exact h4
  | some x => exact .step (.contentMediaType x) h4 nofun rfl

theorem schemaBuilt_mk {u : UncheckedDataSchema DS AS OS} (h : UncheckedMade u)
    (ho : ∀ l, u.oneOf = some l → ∀ c ∈ l, SchemaBuilt c)
    (hs : ∀ st, u.subtype = some st → ∀ c ∈ st.children, SchemaBuilt c) : SchemaBuilt u := by
  by_cases hopen : u.Open
  · rw [h.unspecified hopen]; exact .default _
  · have hi : InfoMade ⟨u.head.attype, u.head.title, u.head.titles, u.head.description,
        u.head.descriptions⟩ :=
      ⟨h.attype, h.titles, h.descriptions⟩
    obtain ⟨p0, hp0⟩ : ∃ p0 : PartialDataSchemaBuilder DS AS OS,
        p0 = ⟨none, u.head.default, u.head.unit, [], [], false, false, u.head.format, u.head.other⟩ :=
      ⟨_, rfl⟩
    have hp : PlainReach DS ⟨p0, _⟩ := plainReach_of hi (by rw [hp0]; rfl)
    obtain ⟨k, g, hk, hy⟩ := callClosed_kindReach.made (fun _ => rfl) (fun op hop => .start op hp hop)
      h.toSchemaShape.partial h.sorted ho hs
      (fun st _ => kindReach_string st (.start .string hp nofun)) hopen
    obtain ⟨h1, h2, h3, h4, h5, h6, h7, h8, h9⟩ := hy.keep p0 ⟨_, _, _, _, hp0⟩
    have e : k.toUnchecked = u := by
      unfold KindBuilder.toUnchecked
      rw [hy.inner]
      simp only [HasPartial.modify]
      rw [h1, h2, h3, h4, h5, h6, h7, h8, h9, hy.subtype, hp0]
      cases u; rfl
    rw [← e]
    exact .conv hk

theorem schemaBuilt_of {u : UncheckedDataSchema DS AS OS} (h : ∀ x, Within x u → UncheckedMade x) :
    SchemaBuilt u := by
  induction u using Schema.ind with
  | h hd o s ih1 ih2 =>
    refine schemaBuilt_mk (h _ (.self _)) (fun l hl c hc => ih1 l hl c hc fun x hx => ?_)
      (fun st hst c hc => ih2 st hst c hc fun x hx => ?_)
    · exact h x (within_iff.2 (.inr (.inl ⟨l, hl, c, hc, hx⟩)))
    · exact h x (within_iff.2 (.inr (.inr ⟨st, hst, c, hc, hx⟩)))

theorem partialBuilt_of {d : PartialDataSchema DS AS OS} (h : PartialShape d)
    (hso : ∀ o m, d.subtype = some (.object o) → o.properties = some m → HMap.Sorted m)
    (ho : ∀ l, d.oneOf = some l → ∀ c ∈ l, SchemaBuilt c)
    (hs : ∀ st, d.subtype = some st → ∀ c ∈ st.children, SchemaBuilt c)
    (hstr : ∀ st, d.subtype = some (.string st) → st = {})
    (hopen : d.subtype = none ∧ d.oneOf = none ∧ d.enumeration = none ∧ d.constant = none →
      d = .emptyDefault d.other) : PartialBuilt d := by
  by_cases hc : d.subtype = none ∧ d.oneOf = none ∧ d.enumeration = none ∧ d.constant = none
  · rw [hopen hc]; exact .default _
  · obtain ⟨p0, hp0⟩ : ∃ p0 : PartialDataSchemaBuilder DS AS OS,
        p0 = ⟨none, d.default, d.unit, [], [], false, false, d.format, d.other⟩ := ⟨_, rfl⟩
    have hp : PartialReach DS p0 := partialReach_of (by rw [hp0]; rfl)
    obtain ⟨k, g, hk, hy⟩ := callClosed_partialKindReach.made (fun _ => rfl) (fun op hop => .start op hp hop)
      h hso ho hs (fun st e => by rw [hstr st e]; exact .start .string hp nofun) hc
    obtain ⟨h1, h2, h3, h4, h5, h6, h7, h8, h9⟩ := hy.keep p0 ⟨_, _, _, _, hp0⟩
    have e : k.toPartial = d := by
      unfold KindBuilder.toPartial
      rw [hy.inner]
      simp only [HasPartial.modify]
      rw [h1, h2, h3, h4, h5, h6, h7, h8, h9, hy.subtype, hp0]
    rw [← e]
    exact .conv hk

/-! ### Everything built is of this shape -/

theorem nonEmpty_ne {α : Type} (l : List α) : nonEmpty l ≠ some [] := by
  cases l <;> simp [nonEmpty]

theorem spec_closed (op : SpecOp DS AS OS) (ops : List (KindOp DS AS OS)) :
    ¬ (SchemaCalls.subtype ops op = none ∧ SchemaCalls.oneOf ops op = none ∧
      SchemaCalls.enumeration ops op = none ∧ SchemaCalls.constant op = none) := by
  cases op <;> simp [SchemaCalls.subtype, SchemaCalls.oneOf, SchemaCalls.enumeration, SchemaCalls.constant]

theorem SchemaBuilt.made {u : UncheckedDataSchema DS AS OS} (h : SchemaBuilt u) : UncheckedMade u := by
  obtain ⟨h1, h2, h3⟩ := h.rep u (.self _)
  refine { h.shape with attype := ?_, titles := h1, descriptions := h2, sorted := h3, unspecified := ?_ }
  · cases h with
    | conv hk =>
      obtain ⟨b, op, ops, hb, h⟩ := hk.history
      rw [toUnchecked_history hb h]
      exact nonEmpty_ne _
    | default o => exact nofun
  · cases h with
    | conv hk =>
      obtain ⟨b, op, ops, hb, h⟩ := hk.history
      rw [toUnchecked_history hb h]
      exact fun ho => absurd ho (spec_closed op ops)
    | default o => exact fun _ => rfl

theorem schemaBuilt_iff {u : UncheckedDataSchema DS AS OS} :
    SchemaBuilt u ↔ ∀ x, Within x u → UncheckedMade x :=
  ⟨fun h _ hx => (h.within hx).made, schemaBuilt_of⟩

theorem string_kind_apply {DS AS OS : Type} {k k' : Kind DS AS OS} {op : KindOp DS AS OS}
    (hn : op.isString = false) (ha : k.apply op = some k') {st : StringSchema} (hk : k' = .string st) :
    k = .string st := by
  subst hk
  cases k <;> cases op <;> first | (cases ha; done) | (cases hn; done)

theorem PartialKindReach.string {DS AS OS : Type}
    {k : KindBuilder (PartialDataSchemaBuilder DS AS OS) DS AS OS} (hk : PartialKindReach k) :
    ∀ st, k.kind = .string st → st = {} := by
  induction hk with
  | start op _ _ =>
    intro st h
    cases op <;> cases h
    rfl
  | @step k k' op _ hn _ ha ih =>
    intro st h
    refine ih st ?_
    cases op <;> simp only [KindBuilder.apply] at ha <;> try (cases hn; done)
    case unit => cases ha; exact h
    case format => cases ha; exact h
    case defaultValue => cases ha; exact h
    case info => simp [HasPartial.modifyInfo] at ha
    case enumeration => split at ha <;> cases ha; exact h
    case oneOf => split at ha <;> cases ha; exact h
    case readOnly => split at ha <;> cases ha; exact h
    case writeOnly => split at ha <;> cases ha; exact h
    all_goals
      simp only [KindOp.isString, Bool.false_eq_true, false_and, if_false] at ha
      obtain ⟨kd, h1, rfl⟩ := Option.map_eq_some_iff.1 ha
      exact string_kind_apply hn h1 h

theorem PartialBuilt.noString {d : PartialDataSchema DS AS OS} (h : PartialBuilt d) :
    ∀ st, d.subtype = some (.string st) → st = {} := by
  cases h with
  | @conv k hk =>
    intro st e
    refine hk.string st ?_
    have e : k.kind.toSubtype = some (.string st) := e
    generalize k.kind = kd at e
    cases kd <;> try (cases e; done)
    · rename_i ty
      cases ty with
      | none => cases e
      | some ty => cases ty <;> cases e
    · cases e; rfl
  | default o => exact nofun

theorem PartialBuilt.unspecified {d : PartialDataSchema DS AS OS} (h : PartialBuilt d) :
    d.subtype = none ∧ d.oneOf = none ∧ d.enumeration = none ∧ d.constant = none →
      d = .emptyDefault d.other := by
  cases h with
  | conv hk =>
    obtain ⟨b, op, ops, hb, h⟩ := hk.history
    rw [toPartial_history hb h]
    exact fun ho => absurd ho (spec_closed op ops)
  | default o => exact fun _ => rfl

end Wot
