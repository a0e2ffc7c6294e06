import Verif.Lemmas.SchemaHistory
import Verif.Lemmas.Valid
import Verif.Spec.SchemaShape
/-
Data schemas made with the builders are well shaped.
-/
namespace Wot

variable {DS AS OS : Type} {X : ExtTypes} {title : String} {h : List (ThingOp X)} {b : ThingBuilder X}

open SchemaCalls

theorem foldlM_snoc_some {A B : Type} {f : A → B → Option A} {a c d : A} {l : List B} {x : B}
    (h : l.foldlM f a = some c) (h2 : f c x = some d) : (l ++ [x]).foldlM f a = some d := by
  rw [List.foldlM_append, h]
  show List.foldlM f c [x] = some d
  rw [List.foldlM_cons, h2]; rfl

theorem KindReach.history {k : KindBuilder (DataSchemaBuilder DS AS OS) DS AS OS} (h : KindReach k) :
    ∃ b op, ∃ ops : List (KindOp DS AS OS), PlainReach DS b ∧
      ops.foldlM KindBuilder.apply (specialise b op) = some k := by
  refine KindReach.rec (motive_1 := fun k _ => ∃ b op ops, PlainReach DS b ∧
      List.foldlM KindBuilder.apply (specialise b op) ops = some k) (motive_2 := fun _ _ => True) ?_ ?_ ?_ ?_ h
  · intro b op hb _ _; exact ⟨b, op, [], hb, rfl⟩
  · rintro k k' o _ _ hap ⟨b, op, ops, hb, h⟩ _
    exact ⟨b, op, ops ++ [o], hb, foldlM_snoc_some h hap⟩
  · intros; trivial
  · intros; trivial

theorem PartialKindReach.history {k : KindBuilder (PartialDataSchemaBuilder DS AS OS) DS AS OS}
    (h : PartialKindReach k) :
    ∃ b op, ∃ ops : List (KindOp DS AS OS), PartialReach DS b ∧
      ops.foldlM KindBuilder.apply (specialise b op) = some k := by
  induction h with
  | start op hb hargs => exact ⟨_, op, [], hb, rfl⟩
  | step o hk _ hargs hap ih =>
    obtain ⟨b, op, ops, hb, h⟩ := ih
    exact ⟨b, op, ops ++ [o], hb, foldlM_snoc_some h hap⟩

/-- `SchemaShape` for the members that the partial builder keeps. -/
structure PartialShape (d : PartialDataSchema DS AS OS) : Prop where
  access : ¬ (d.readOnly = true ∧ d.writeOnly = true)
  required : ∀ o r, d.subtype = some (.object o) → o.required = some r →
    r ≠ [] ∧ ∀ n ∈ r, ∃ m s, o.properties = some m ∧ (n, s) ∈ m
  properties : ∀ o m, d.subtype = some (.object o) → o.properties = some m → m ≠ []
  oneOf : ∀ l, d.oneOf = some l → l ≠ [] ∧ d.subtype = none ∧ d.enumeration = none ∧
    d.constant = none ∧ d.readOnly = false ∧ d.writeOnly = false
  enumeration : ∀ l, d.enumeration = some l → l ≠ [] ∧ d.subtype = none ∧ d.oneOf = none ∧
    d.constant = none
  constant : ∀ v, d.constant = some v → d.subtype = none ∧ d.oneOf = none ∧
    d.enumeration = none ∧ d.readOnly = true
  tuple : ∀ a l, d.subtype = some (.array a) → a.items = some (.vec l) →
    a.minItems = none ∧ a.maxItems = none

theorem collect_ne_nil {V : Type} {l : List (String × V)} (h : l ≠ []) : HMap.collect l ≠ [] := by
  obtain ⟨kv, l', rfl⟩ := List.exists_cons_of_ne_nil h
  intro hc
  have : kv.1 ∈ HMap.keys (HMap.collect (kv :: l')) := (HMap.mem_keys_collect _ _).2 (by simp)
  rw [hc] at this
  cases this

theorem required_properties {ops : List (KindOp DS AS OS)} {n : String} (h : n ∈ required ops) :
    n ∈ (properties ops).map (·.1) := by
  simp only [required, List.mem_filterMap] at h
  obtain ⟨o, ho, h⟩ := h
  cases o <;> try (cases h; done)
  rename_i m r s
  cases r <;> cases h
  exact List.mem_map.2 ⟨(n, s), List.mem_filterMap.2 ⟨_, ho, rfl⟩, rfl⟩

/-- Which of the two access calls can have been made. -/
theorem access_calls {b : PartialDataSchemaBuilder DS AS OS} (hb : PlainInv b) {op : SpecOp DS AS OS}
    {ops : List (KindOp DS AS OS)} {kd : Kind DS AS OS} {a : Access}
    (h : KindInv (SchemaCalls.part ops b op) kd a) (hk : kd = kind ops op) (ha : a = access ops op) :
    ¬ (SchemaCalls.readOnly ops op = true ∧ (!(writeOnlyCalls ops).isEmpty) = true) ∧
    (∀ s, op = .oneOf s → SchemaCalls.readOnly ops op = false ∧ (!(writeOnlyCalls ops).isEmpty) = false) := by
  subst hk ha
  have e : (SchemaCalls.part ops b op).writeOnly = (!(writeOnlyCalls ops).isEmpty) := by
    simp [SchemaCalls.part, hb.writeOnly]
  have e' : (SchemaCalls.part ops b op).readOnly = (!(readOnlyCalls ops).isEmpty) := by
    simp [SchemaCalls.part, hb.readOnly]
  constructor
  · rintro ⟨h1, h2⟩
    rw [← access_onReadOnly] at h1
    rw [← e] at h2
    cases hacc : access ops op with
    | both => rw [(h.both hacc).2] at h2; cases h2
    | readOnly => rw [h.readOnly hacc] at h2; cases h2
    | writeOnly => rw [hacc] at h1; cases h1
  · rintro s rfl
    have hacc := (h.oneOf rfl).2
    obtain ⟨h1, h2⟩ := h.both hacc
    rw [e] at h2
    rw [e'] at h1
    exact ⟨h1, h2⟩

theorem partialSchema_shape {b : PartialDataSchemaBuilder DS AS OS} {op : SpecOp DS AS OS}
    {ops : List (KindOp DS AS OS)}
    (ha : ¬ (SchemaCalls.readOnly ops op = true ∧ (!(writeOnlyCalls ops).isEmpty) = true))
    (ho : ∀ s, op = .oneOf s → SchemaCalls.readOnly ops op = false ∧ (!(writeOnlyCalls ops).isEmpty) = false) :
    PartialShape (partialSchema ops b op) := by
  refine ⟨ha, ?_, ?_, ?_, ?_, ?_, ?_⟩
  · intro o r hs hr
    cases op <;> simp only [partialSchema, subtype, reduceCtorEq, Option.some.injEq, SubtypeF.object.injEq] at hs
    subst hs
    obtain ⟨rfl, hne⟩ := nonEmpty_eq_some.1 hr
    refine ⟨hne, fun n hn => ?_⟩
    have hp := required_properties hn
    have hne : properties ops ≠ [] := by intro h; rw [h] at hp; cases hp
    rw [← HMap.mem_keys_collect] at hp
    obtain ⟨⟨n', s⟩, hm, rfl⟩ := List.mem_map.1 hp
    exact ⟨_, s, by rw [nonEmpty_eq_some.2 ⟨rfl, hne⟩]; rfl, hm⟩
  · intro o m hs hm
    cases op <;> simp only [partialSchema, subtype, reduceCtorEq, Option.some.injEq, SubtypeF.object.injEq] at hs
    subst hs
    obtain ⟨l, h1, rfl⟩ := Option.map_eq_some_iff.1 hm
    obtain ⟨rfl, hne⟩ := nonEmpty_eq_some.1 h1
    exact collect_ne_nil hne
  · intro l hl
    cases op <;> cases hl
    exact ⟨by simp, rfl, rfl, rfl, (ho _ rfl).1, (ho _ rfl).2⟩
  · intro l hl
    cases op <;> cases hl
    exact ⟨by simp, rfl, rfl, rfl⟩
  · intro v hv
    cases op <;> cases hv
    exact ⟨rfl, rfl, rfl, rfl⟩
  · intro a l hs hi
    cases op <;> simp only [partialSchema, subtype, reduceCtorEq, Option.some.injEq, SubtypeF.array.injEq] at hs
    · subst hs; exact ⟨rfl, rfl⟩
    · subst hs
      obtain ⟨_, -, h⟩ := Option.map_eq_some_iff.1 hi
      cases h

theorem PartialShape.schema {d : PartialDataSchema DS AS OS} (h : PartialShape d)
    {s : UncheckedDataSchema DS AS OS} (h1 : s.subtype = d.subtype) (h2 : s.oneOf = d.oneOf)
    (h3 : s.head.enumeration = d.enumeration) (h4 : s.head.constant = d.constant)
    (h5 : s.head.readOnly = d.readOnly) (h6 : s.head.writeOnly = d.writeOnly) : SchemaShape s := by
  constructor
  · rw [h5, h6]; exact h.access
  · rw [h1]; exact h.required
  · rw [h1]; exact h.properties
  · rw [h1, h2, h3, h4, h5, h6]; exact h.oneOf
  · rw [h1, h2, h3, h4]; exact h.enumeration
  · rw [h1, h2, h3, h4, h5]; exact h.constant
  · rw [h1]; exact h.tuple

theorem PartialBuilt.shape {d : PartialDataSchema DS AS OS} (h : PartialBuilt d) : PartialShape d := by
  cases h with
  | conv hk =>
    obtain ⟨b, op, ops, hb, h⟩ := hk.history
    rw [toPartial_history hb h]
    obtain ⟨h1, h2, h3⟩ := kind_history h
    have h3 : _ = SchemaCalls.part ops b op := h3
    obtain ⟨ha, ho⟩ := access_calls (PlainInv.partialReach hb) (h3 ▸ hk.facts.1) h1 h2
    exact partialSchema_shape ha ho
  | default o =>
    exact ⟨by simp [PartialDataSchema.emptyDefault], nofun, nofun, nofun, nofun, nofun, nofun⟩

theorem SchemaBuilt.shape {s : UncheckedDataSchema DS AS OS} (h : SchemaBuilt s) : SchemaShape s := by
  cases h with
  | conv hk =>
    obtain ⟨b, op, ops, hb, h⟩ := hk.history
    rw [toUnchecked_history hb h]
    obtain ⟨h1, h2, h3⟩ := kind_history h
    have h3 : _ = SchemaCalls.part ops b.part op := h3
    obtain ⟨ha, ho⟩ := access_calls (PlainInv.plain hb).1 (h3 ▸ hk.facts.inv) h1 h2
    exact (partialSchema_shape (b := b.part) ha ho).schema rfl rfl rfl rfl rfl rfl
  | default o => exact ⟨by simp [UncheckedDataSchema.default, Schema.head], nofun, nofun, nofun, nofun, nofun, nofun⟩

/-- The supplied data schemas other than those of properties are built with the API; that of a
property has its own members from the partial builder. -/
theorem Reachable.schemaBuilt (hr : Reachable X title h b) {p : Position} {s : UDS X}
    (hs : History.HasSchema h p s) :
    SchemaBuilt s ∨ ∃ n, ∃ q : PropertyBuilder X, .property n q ∈ h ∧ s = q.schema ∧ PartialBuilt q.dataSchema := by
  have hrep := hr.rep
  rcases hr.anySchema.2 ⟨p, hs⟩ with hs | hs | hs
  · cases hs with
    | property hp =>
      exact .inr ⟨_, _, History.mem_properties.1 (hr.properties ▸ hp), rfl, (hrep.properties _ hp).schema⟩
    | input hp hs => exact .inl ((hrep.actions _ hp).facts.2.2.1 _ hs)
    | output hp hs => exact .inl ((hrep.actions _ hp).facts.2.2.2 _ hs)
    | subscription hp hs => exact .inl ((hrep.events _ hp).facts.2.2.1 _ hs)
    | data hp hs => exact .inl ((hrep.events _ hp).facts.2.2.2.1 _ hs)
    | cancellation hp hs => exact .inl ((hrep.events _ hp).facts.2.2.2.2.1 _ hs)
  · cases hs with
    | thing hm hs => exact .inl ((hrep.uriVariables _ hm).2 _ hs)
    | property hp hs => exact .inl ((hrep.properties _ hp).reach.facts.1.2 _ hs)
    | action hp hs => exact .inl ((hrep.actions _ hp).facts.1.2 _ hs)
    | event hp hs => exact .inl ((hrep.events _ hp).facts.1.2 _ hs)
  · cases hs with
    | schemaDefinition hs => exact .inl (hrep.schemaDefinitions.2 _ hs)
    | dataResponse hp hs => exact .inl ((hrep.events _ hp).facts.2.2.2.2.2 _ hs)

/-- Everything within a supplied data schema is built with the API, except the data schema of a
property itself. -/
theorem Reachable.withinBuilt (hr : Reachable X title h b) {p : Position} {s x : UDS X}
    (hs : History.HasSchema h p s) (hx : Within x s) :
    SchemaBuilt x ∨ ∃ n, ∃ q : PropertyBuilder X, .property n q ∈ h ∧ x = q.schema ∧ PartialBuilt q.dataSchema := by
  rcases hr.schemaBuilt hs with hb | ⟨n, q, hm, rfl, hb⟩
  · exact .inl (hb.within hx)
  · rcases within_iff.1 hx with rfl | ⟨l, hl, c, hc, hx⟩ | ⟨st', hst, c, hc, hx⟩
    · exact .inr ⟨n, q, hm, rfl, hb⟩
    · exact .inl ((hb.children.1 l hl c hc).within hx)
    · exact .inl ((hb.children.2.1 _ hst c hc).within hx)

theorem SchemaShape.mapLang {L L' D A O : Type} {f : L → L'} {s : Schema L D A O} (h : SchemaShape s) :
    SchemaShape (s.mapLang f) := by
  have e1 : (s.mapLang f).head.readOnly = s.head.readOnly := by cases s; rw [mapLang_mk]; rfl
  have e2 : (s.mapLang f).head.writeOnly = s.head.writeOnly := by cases s; rw [mapLang_mk]; rfl
  have e3 : (s.mapLang f).head.enumeration = s.head.enumeration := by cases s; rw [mapLang_mk]; rfl
  have e4 : (s.mapLang f).head.constant = s.head.constant := by cases s; rw [mapLang_mk]; rfl
  have hsub : ∀ st, (s.mapLang f).subtype = some st → ∃ st0, s.subtype = some st0 ∧
      st0.map (Schema.mapLang f) = st := by
    intro st hst
    rw [mapLang_subtype] at hst
    exact Option.map_eq_some_iff.1 hst
  have hn : s.subtype = none → (s.mapLang f).subtype = none := by
    intro h; rw [mapLang_subtype, h]; rfl
  have ho : s.oneOf = none → (s.mapLang f).oneOf = none := by
    intro h; rw [mapLang_oneOf, h]; rfl
  constructor
  · rw [e1, e2]; exact h.access
  · intro o r hs hr
    obtain ⟨st, h1, h2⟩ := hsub _ hs
    cases st <;> cases h2
    obtain ⟨hne, hall⟩ := h.required _ r h1 hr
    refine ⟨hne, fun n hn => ?_⟩
    obtain ⟨m, c, hm, hc⟩ := hall n hn
    exact ⟨HMap.mapVals (Schema.mapLang f) m, c.mapLang f, by simp only [hm]; rfl, mem_mapVals.2 ⟨c, hc, rfl⟩⟩
  · intro o m hs hm
    obtain ⟨st, h1, h2⟩ := hsub _ hs
    cases st <;> cases h2
    obtain ⟨m0, hm0, rfl⟩ := Option.map_eq_some_iff.1 hm
    have := h.properties _ m0 h1 hm0
    cases m0
    · exact absurd rfl this
    · exact fun h => nomatch h
  · intro l hl
    rw [mapLang_oneOf] at hl
    obtain ⟨l0, hl0, rfl⟩ := Option.map_eq_some_iff.1 hl
    obtain ⟨a1, a2, a3⟩ := h.oneOf l0 hl0
    rw [e1, e2, e3, e4]
    exact ⟨by simpa using a1, hn a2, a3⟩
  · rw [e3, e4]
    intro l hl
    obtain ⟨a1, a2, a3, a4⟩ := h.enumeration l hl
    exact ⟨a1, hn a2, ho a3, a4⟩
  · rw [e1, e3, e4]
    intro l hl
    obtain ⟨a1, a2, a3, a4⟩ := h.constant l hl
    exact ⟨hn a1, ho a2, a3, a4⟩
  · intro a l hs hi
    obtain ⟨st, h1, h2⟩ := hsub _ hs
    cases st <;> cases h2
    obtain ⟨i, hi0, hi1⟩ := Option.map_eq_some_iff.1 hi
    cases i <;> cases hi1
    exact h.tuple _ _ h1 hi0

/-- Every data schema in a built Thing, at any depth, is well shaped. -/
theorem Reachable.shape (hr : Reachable X title h b) {env : Env} {t : Thing X}
    (hb : b.build env = .ok t) {p : Position} {s x : Wot.DS X} (hs : t.HasSchema p s) (hx : Within x s) :
    SchemaShape x := by
  obtain ⟨u, hu, rfl⟩ := (hr.hasSchema hb).1 hs
  obtain ⟨y, hy, rfl⟩ := within_mapLang.1 hx
  apply SchemaShape.mapLang
  rcases hr.withinBuilt hu hy with hk | ⟨n, q, -, rfl, hk⟩
  · exact hk.shape
  · exact hk.shape.schema rfl rfl rfl rfl rfl rfl

end Wot
