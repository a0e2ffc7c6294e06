import Verif.Props.Single
import Verif.Lemmas.Range
/-
C07 and C10: which bounds and which `multipleOf` are accepted.
-/
namespace Wot

variable {X : ExtTypes} {title : String} {h : List (ThingOp X)} {b : ThingBuilder X} {env : Env}
  {t : Thing X}

namespace Demo

/-- The call that sets a minimum. -/
def minCall : Minimum F64 → KindOp Unit Unit Unit
  | .inclusive x => .fMinimum x
  | .exclusive x => .fExclusiveMinimum x
/-- The call that sets a maximum. -/
def maxCall : Maximum F64 → KindOp Unit Unit Unit
  | .inclusive x => .fMaximum x
  | .exclusive x => .fExclusiveMaximum x
/-- The call that sets a minimum of an integer. -/
def iMinCall : Minimum I64 → KindOp Unit Unit Unit
  | .inclusive x => .iMinimum x
  | .exclusive x => .iExclusiveMinimum x
/-- The call that sets a maximum of an integer. -/
def iMaxCall : Maximum I64 → KindOp Unit Unit Unit
  | .inclusive x => .iMaximum x
  | .exclusive x => .iExclusiveMaximum x

/-- A number with two bounds. -/
def numberRange (lo : Minimum F64) (hi : Maximum F64) : S :=
  typed (.number { minimum := some lo, maximum := some hi })
/-- An integer with two bounds. -/
def integerRange (lo : Minimum I64) (hi : Maximum I64) : S :=
  typed (.integer { minimum := some lo, maximum := some hi })
/-- A multiple of a number. -/
def multiples (m : F64) : S := typed (.number { multipleOf := some m })

theorem numberRange_built (lo : Minimum F64) (hi : Maximum F64) : SchemaBuilt (numberRange lo hi) :=
  chain_built (op := .number) (ops := [minCall lo, maxCall hi]) (by cases lo <;> cases hi <;> rfl)
    (by simp [SpecOp.args]) (by cases lo <;> cases hi <;> simp [minCall, maxCall, KindOp.args])

theorem integerRange_built (lo : Minimum I64) (hi : Maximum I64) : SchemaBuilt (integerRange lo hi) :=
  chain_built (op := .integer) (ops := [iMinCall lo, iMaxCall hi]) (by cases lo <;> cases hi <;> rfl)
    (by simp [SpecOp.args]) (by cases lo <;> cases hi <;> simp [iMinCall, iMaxCall, KindOp.args])

theorem multiples_built (m : F64) : SchemaBuilt (multiples m) :=
  chain_built (op := .number) (ops := [.fMultipleOf m]) rfl (by simp [SpecOp.args]) (by simp [KindOp.args])

theorem partialKindReach_foldlM
    {k k' : KindBuilder (PartialDataSchemaBuilder Unit Unit Unit) Unit Unit Unit}
    {ops : List (KindOp Unit Unit Unit)} (hk : PartialKindReach k)
    (h : ops.foldlM KindBuilder.apply k = some k') (hn : ∀ op ∈ ops, op.isString = false)
    (ha : ∀ op ∈ ops, ∀ s ∈ op.args, SchemaBuilt s) : PartialKindReach k' := by
  induction ops generalizing k with
  | nil => cases h; exact hk
  | cons op ops ih =>
    rw [List.foldlM_cons] at h
    cases h1 : k.apply op with
    | none => rw [h1] at h; cases h
    | some k1 =>
      rw [h1] at h
      exact ih (.step op hk (hn op (by simp)) (ha op (by simp)) h1) h (fun o ho => hn o (by simp [ho]))
        fun o ho => ha o (by simp [ho])

theorem partial_built {op : SpecOp Unit Unit Unit} {ops : List (KindOp Unit Unit Unit)}
    {d : PartialDataSchema Unit Unit Unit}
    (h : (ops.foldlM KindBuilder.apply (specialise (.empty () : PartialDataSchemaBuilder Unit Unit Unit) op)).map
      (·.toPartial) = some d) (hn : ∀ o ∈ ops, o.isString = false) (h1 : ∀ s ∈ op.args, SchemaBuilt s)
    (h2 : ∀ o ∈ ops, ∀ s ∈ o.args, SchemaBuilt s) : PartialBuilt d := by
  obtain ⟨k, hk, rfl⟩ := Option.map_eq_some_iff.1 h
  exact .conv (partialKindReach_foldlM (.start op (.empty _ _) h1) hk hn h2)

theorem numberRange_partial (lo : Minimum F64) (hi : Maximum F64) :
    PartialBuilt (partialOf (numberRange lo hi).subtype) :=
  partial_built (op := .number) (ops := [minCall lo, maxCall hi]) (by cases lo <;> cases hi <;> rfl)
    (by cases lo <;> cases hi <;> simp [minCall, maxCall, KindOp.isString])
    (by simp [SpecOp.args]) (by cases lo <;> cases hi <;> simp [minCall, maxCall, KindOp.args])

theorem integerRange_partial (lo : Minimum I64) (hi : Maximum I64) :
    PartialBuilt (partialOf (integerRange lo hi).subtype) :=
  partial_built (op := .integer) (ops := [iMinCall lo, iMaxCall hi]) (by cases lo <;> cases hi <;> rfl)
    (by cases lo <;> cases hi <;> simp [iMinCall, iMaxCall, KindOp.isString])
    (by simp [SpecOp.args]) (by cases lo <;> cases hi <;> simp [iMinCall, iMaxCall, KindOp.args])

theorem multiples_partial (m : F64) : PartialBuilt (partialOf (multiples m).subtype) :=
  partial_built (op := .number) (ops := [.fMultipleOf m]) rfl (by simp [KindOp.isString])
    (by simp [SpecOp.args]) (by simp [KindOp.args])

theorem leaf_within {st : SubtypeF Unit Unit S} (hc : st.children = []) {x : S}
    (hx : Within x (typed st)) : x = typed st := by
  rcases within_iff.1 hx with h | ⟨l, hl, -⟩ | ⟨st', hst, c, hm, -⟩
  · exact h
  · cases hl
  · cases hst; rw [hc] at hm; cases hm

/-- A schema without nested schemas and without translations is accepted in a checked position
exactly if it obeys its rule. -/
theorem leaf_accepted {p : Position} (hp : p.Checked) {st : SubtypeF Unit Unit S} (hb : SchemaBuilt (typed st))
    (hpb : PartialBuilt (partialOf (some st))) (hc : st.children = []) :
    (∃ t, (single (typed st) p).build env = .ok t) ↔ SchemaRule (typed st) := by
  rw [single_accepted hb (fun _ => hpb) (fun _ => ⟨st, rfl⟩)]
  constructor
  · exact fun h => h.1 hp _ (.self _)
  · intro h
    refine ⟨fun _ x hx => leaf_within hc hx ▸ h, fun he => by subst he; exact hp.elim, ?_⟩
    rintro k ⟨x, hx, hk⟩
    cases leaf_within hc hx
    rcases hk with ⟨_, hk, -⟩ | ⟨_, hk, -⟩ <;> cases hk

/-- If it does not obey its rule then the error says so. -/
theorem leaf_rejected {p : Position} (hp : p.Checked) {st : SubtypeF Unit Unit S} (hb : SchemaBuilt (typed st))
    (hpb : PartialBuilt (partialOf (some st))) (hc : st.children = []) (hn : ¬ SchemaRule (typed st)) :
    ∃ e, (single (typed st) p).build env = .error (.err e) ∧ SchemaViolation (typed st) e := by
  rw [← leaf_accepted (env := env) hp hb hpb hc] at hn
  obtain ⟨e, he, ⟨x, hx, hv⟩ | ⟨k, ⟨x, hx, hk⟩, -⟩⟩ :=
    single_rejected hp hb (fun _ => hpb) (fun _ => ⟨st, rfl⟩) hn
  · cases leaf_within hc hx; exact ⟨e, he, hv⟩
  · cases leaf_within hc hx
    rcases hk with ⟨_, hk, -⟩ | ⟨_, hk, -⟩ <;> cases hk

end Demo

/-! ### C07 -/

/-- C07, the exact rule for integers: in any checked position two bounds are accepted if and only if
both are inclusive or both are exclusive, and the minimum is not greater than the maximum. -/
theorem C07_integer_acceptance (env : Env) {p : Position} (hp : p.Checked) (lo : Minimum I64)
    (hi : Maximum I64) :
    (∃ t, (Demo.single (Demo.integerRange lo hi) p).build env = .ok t) ↔
      SameKind lo hi ∧ lo.bound.val ≤ hi.bound.val := by
  rw [Demo.integerRange, Demo.leaf_accepted hp (Demo.integerRange_built lo hi)
    (Demo.integerRange_partial lo hi) rfl]
  show IntegerRule _ ↔ _
  exact ⟨fun h => h lo hi rfl rfl, fun h lo' hi' h1 h2 => by cases h1; cases h2; exact h⟩

/-- C07, the exact rule for numbers: as for integers; no bound that is NaN is accepted. -/
theorem C07_number_acceptance (env : Env) {p : Position} (hp : p.Checked) (lo : Minimum F64)
    (hi : Maximum F64) :
    (∃ t, (Demo.single (Demo.numberRange lo hi) p).build env = .ok t) ↔
      SameKind lo hi ∧ F64.Le lo.bound hi.bound := by
  rw [Demo.numberRange, Demo.leaf_accepted hp (Demo.numberRange_built lo hi)
    (Demo.numberRange_partial lo hi) rfl]
  show NumberRule _ ↔ _
  constructor
  · exact fun h => h.2.2.1 lo hi rfl rfl
  · intro h
    exact ⟨fun lo' h1 => by cases h1; exact h.2.1, fun hi' h1 => by cases h1; exact h.2.2.1,
      fun lo' hi' h1 h2 => by cases h1; cases h2; exact h, fun m hm => by cases hm⟩

/-- C07, the error: rejected integer bounds are reported as `InvalidMinMax`. -/
theorem C07_integer_error (env : Env) {p : Position} (hp : p.Checked) (lo : Minimum I64)
    (hi : Maximum I64) (hbad : ¬ (SameKind lo hi ∧ lo.bound.val ≤ hi.bound.val)) :
    (Demo.single (Demo.integerRange lo hi) p).build env = .error (.err .invalidMinMax) := by
  obtain ⟨e, he, hv⟩ := Demo.leaf_rejected (env := env) hp (Demo.integerRange_built lo hi)
    (Demo.integerRange_partial lo hi) rfl (fun h => hbad (h lo hi rfl rfl))
  rcases hv with ⟨rfl, -⟩ | ⟨-, n, hn, -⟩ | ⟨-, n, x, hn, -⟩
  · exact he
  · cases hn
  · cases hn

/-- C07, the error: a NaN bound is reported as `NanMinMax`, other rejected bounds as
`InvalidMinMax`. -/
theorem C07_number_error (env : Env) {p : Position} (hp : p.Checked) (lo : Minimum F64)
    (hi : Maximum F64) (hbad : ¬ (SameKind lo hi ∧ F64.Le lo.bound hi.bound)) :
    (Demo.single (Demo.numberRange lo hi) p).build env =
      .error (.err (if lo.bound.isNan || hi.bound.isNan then .nanMinMax else .invalidMinMax)) := by
  obtain ⟨e, he, hv⟩ := Demo.leaf_rejected (env := env) hp (Demo.numberRange_built lo hi)
    (Demo.numberRange_partial lo hi) rfl (fun h => hbad (h.2.2.1 lo hi rfl rfl))
  rcases hv with ⟨rfl, h⟩ | ⟨rfl, n, hn, h⟩ | ⟨-, n, x, hn, hx, -⟩
  · rcases h with ⟨a, ha, -⟩ | ⟨n, hn, -⟩ | ⟨n, lo', hi', hn, h1, h2, h3, h4, -⟩
    · cases ha
    · cases hn
    · cases hn; cases h1; cases h2
      rw [h3, h4]; exact he
  · cases hn
    rcases h with ⟨lo', h1, h2⟩ | ⟨hi', h1, h2⟩
    · cases h1; rw [h2]; exact he
    · cases h1; rw [h2, Bool.or_true]; exact he
  · cases hn; cases hx

/-- C07 holds if both bounds are inclusive: an integer range is accepted exactly if it contains an
integer. (Missing: the other kinds of bounds, see `C07_mixed_bounds_rejected` and
`C07_empty_range_accepted`.) -/
theorem C07_integer_partial (env : Env) {p : Position} (hp : p.Checked) (a b : I64) :
    (∃ t, (Demo.single (Demo.integerRange (.inclusive a) (.inclusive b)) p).build env = .ok t) ↔
      IntegerRange (.inclusive a) (.inclusive b) := by
  rw [C07_integer_acceptance env hp]
  constructor
  · exact fun h => ⟨a.val, Int.le_refl _, h.2⟩
  · rintro ⟨z, h1, h2⟩; exact ⟨trivial, Int.le_trans h1 h2⟩

/-- C07 holds if both bounds are inclusive: a range of finite numbers is accepted exactly if it
contains a number. -/
theorem C07_number_partial (env : Env) {p : Position} (hp : p.Checked) (a b : F64)
    (ha : a.isFinite = true) (hb : b.isFinite = true) :
    (∃ t, (Demo.single (Demo.numberRange (.inclusive a) (.inclusive b)) p).build env = .ok t) ↔
      NumberRange (.inclusive a) (.inclusive b) := by
  rw [C07_number_acceptance env hp]
  have hna := F64.not_nan_of_finite ha
  have hnb := F64.not_nan_of_finite hb
  constructor
  · rintro ⟨-, -, -, h⟩
    exact ⟨a.value, Rat.le_refl, (F64.value_le_iff a b).2 h⟩
  · rintro ⟨q, h1, h2⟩
    exact ⟨trivial, hna, hnb, (F64.value_le_iff a b).1 (Rat.le_trans h1 h2)⟩

/-- C07 holds in one direction if both bounds are exclusive: a range of finite numbers that contains a
number is accepted. -/
theorem C07_number_exclusive_partial (env : Env) {p : Position} (hp : p.Checked) (a b : F64)
    (ha : a.isFinite = true) (hb : b.isFinite = true)
    (hr : NumberRange (.exclusive a) (.exclusive b)) :
    ∃ t, (Demo.single (Demo.numberRange (.exclusive a) (.exclusive b)) p).build env = .ok t := by
  rw [C07_number_acceptance env hp]
  obtain ⟨q, h1, h2⟩ := hr
  have : a.value < b.value := rat_lt_trans h1 h2
  have := (F64.value_lt_iff a b).1 this
  exact ⟨trivial, F64.not_nan_of_finite ha, F64.not_nan_of_finite hb, by
    show a.units ≤ b.units; omega⟩

/-- C07 is false for bounds of different kinds: they are rejected whatever the values are, for
integers and for numbers. -/
theorem C07_mixed_bounds_rejected (env : Env) {p : Position} (hp : p.Checked) :
    (∀ lo hi, ¬ SameKind lo hi →
      (Demo.single (Demo.integerRange lo hi) p).build env = .error (.err .invalidMinMax)) ∧
    (∀ lo hi, ¬ SameKind lo hi → ∃ e, (Demo.single (Demo.numberRange lo hi) p).build env = .error (.err e)) ∧
    (IntegerRange (.inclusive Demo.i0) (.exclusive Demo.i10) ∧
      ¬ SameKind (.inclusive Demo.i0) (.exclusive Demo.i10)) ∧
    NumberRange (.exclusive Demo.f0) (.inclusive Demo.f100) ∧
      ¬ SameKind (.exclusive Demo.f0) (.inclusive Demo.f100) := by
  refine ⟨fun lo hi hk => C07_integer_error env hp lo hi fun h => hk h.1,
    fun lo hi hk => ⟨_, C07_number_error env hp lo hi fun h => hk h.1⟩, ⟨⟨5, show (0 : Int) ≤ 5 by decide, show (5 : Int) < 10 by decide⟩, id⟩,
    ⟨Demo.f100.value, (F64.value_lt_iff _ _).2 ((F64.lt_iff _ _).2 (by decide)).2.2, Rat.le_refl⟩, id⟩

/-- C07 is false for two exclusive bounds: with equal bounds the range is empty, and accepted; for
integers this is also the case with consecutive bounds. -/
theorem C07_empty_range_accepted (env : Env) {p : Position} (hp : p.Checked) :
    (∀ a : I64, (∃ t, (Demo.single (Demo.integerRange (.exclusive a) (.exclusive a)) p).build env = .ok t) ∧
      ¬ IntegerRange (.exclusive a) (.exclusive a)) ∧
    (∀ a b : I64, b.val = a.val + 1 →
      (∃ t, (Demo.single (Demo.integerRange (.exclusive a) (.exclusive b)) p).build env = .ok t) ∧
      ¬ IntegerRange (.exclusive a) (.exclusive b)) ∧
    (∀ a : F64, a.isFinite = true →
      (∃ t, (Demo.single (Demo.numberRange (.exclusive a) (.exclusive a)) p).build env = .ok t) ∧
      ¬ NumberRange (.exclusive a) (.exclusive a)) := by
  refine ⟨fun a => ⟨(C07_integer_acceptance env hp _ _).2 ⟨trivial, Int.le_refl _⟩, ?_⟩,
    fun a b hab => ⟨(C07_integer_acceptance env hp _ _).2 ⟨trivial, by
      show a.val ≤ b.val; omega⟩, ?_⟩,
    fun a ha => ⟨(C07_number_acceptance env hp _ _).2 ⟨trivial, F64.not_nan_of_finite ha,
      F64.not_nan_of_finite ha, Int.le_refl _⟩, ?_⟩⟩
  · rintro ⟨z, h1, h2⟩
    have h1 : a.val < z := h1
    have h2 : z < a.val := h2
    omega
  · rintro ⟨z, h1, h2⟩
    have h1 : a.val < z := h1
    have h2 : z < b.val := h2
    omega
  · rintro ⟨q, h1, h2⟩
    exact absurd (rat_lt_trans h1 h2) (Rat.lt_irrefl)

/-- C07, for every Thing: wherever a checked schema of a built Thing contains an integer or number
schema with two bounds, these are of the same kind and in order. -/
theorem C07_built_ranges (hr : Reachable X title h b) (hb : b.build env = .ok t) {p : Position}
    (hp : p.Checked) {s x : DS X} (hs : t.HasSchema p s) (hx : Within x s) :
    (∀ n lo hi, x.subtype = some (.integer n) → n.minimum = some lo → n.maximum = some hi →
      SameKind lo hi ∧ lo.bound.val ≤ hi.bound.val) ∧
    (∀ n lo hi, x.subtype = some (.number n) → n.minimum = some lo → n.maximum = some hi →
      SameKind lo hi ∧ F64.Le lo.bound hi.bound) := by
  obtain ⟨u, hu, rfl⟩ := (hr.hasSchema hb).1 hs
  have hrule := allRules_mapLang.2 ((hr.valid_of_build hb).schemas p u hp hu) x hx
  unfold SchemaRule at hrule
  constructor
  · intro n lo hi hn h1 h2; rw [hn] at hrule; exact hrule lo hi h1 h2
  · intro n lo hi hn h1 h2; rw [hn] at hrule; exact hrule.2.2.1 lo hi h1 h2

/-- The hypotheses of C07 are met: a number nested in the data of an event, and an integer nested in
the input of an action. -/
example : ∃ s x : DS Demo.X, Demo.thing.HasSchema .data s ∧ Within x s ∧
    ∃ n, x.subtype = some (.number n) ∧ n.minimum = some (.inclusive Demo.f0) ∧
      n.maximum = some (.inclusive Demo.f100) :=
  ⟨Demo.vecSchema.mapLang (langResult Demo.env), Demo.numberSchema.mapLang (langResult Demo.env),
   (Demo.reachable.hasSchema Demo.built).2 ⟨_, .data (n := "overheat") (e := Demo.event)
     (by simp [Demo.history]) rfl, rfl⟩,
   .item (c := Demo.numberSchema.mapLang (langResult Demo.env)) rfl rfl (.self _), _, rfl, rfl, rfl⟩

/-- The Things of C07 come from calls of the API. -/
example (p : Position) (lo : Minimum F64) (hi : Maximum F64) :
    Reachable Demo.X "Lamp" [Demo.place (Demo.numberRange lo hi) p]
      (Demo.single (Demo.numberRange lo hi) p) :=
  Demo.single_reachable (Demo.numberRange_built lo hi) fun _ => Demo.numberRange_partial lo hi

/-- The same for integers. -/
example (p : Position) (lo : Minimum I64) (hi : Maximum I64) :
    Reachable Demo.X "Lamp" [Demo.place (Demo.integerRange lo hi) p]
      (Demo.single (Demo.integerRange lo hi) p) :=
  Demo.single_reachable (Demo.integerRange_built lo hi) fun _ => Demo.integerRange_partial lo hi

/-! ### C10 -/

/-- C10: in a built Thing every `multipleOf` of a number schema within a checked schema is greater than
zero, or NaN. -/
theorem C10_multiple_of (hr : Reachable X title h b) (hb : b.build env = .ok t) {p : Position}
    (hp : p.Checked) {s x : DS X} (hs : t.HasSchema p s) (hx : Within x s) {n : NumberSchema} {m : F64}
    (hn : x.subtype = some (.number n)) (hm : n.multipleOf = some m) :
    F64.Lt F64.zero m ∨ m.isNan = true := by
  obtain ⟨u, hu, rfl⟩ := (hr.hasSchema hb).1 hs
  have hrule := allRules_mapLang.2 ((hr.valid_of_build hb).schemas p u hp hu) x hx
  unfold SchemaRule at hrule
  rw [hn] at hrule
  exact F64.lt_or_nan (hrule.2.2.2 m hm)

/-- C10: a `multipleOf` that is zero or negative in a schema within a checked one makes `build` fail,
with `InvalidMultipleOf` if that is all that is wrong. -/
theorem C10_bad_multiple_fails (hr : Reachable X title h b) {p : Position} (hp : p.Checked) {s x : UDS X}
    (hs : History.HasSchema h p s) (hx : Within x s) {n : NumberSchema} {m : F64}
    (hn : x.subtype = some (.number n)) (hm : n.multipleOf = some m) (hbad : F64.Le m F64.zero) :
    ∃ e, b.build env = .error (.err e) ∧
      ((∀ e', History.Violates env h e' → e' = .invalidMultipleOf) → e = .invalidMultipleOf) := by
  obtain ⟨e, he, hv⟩ := hr.fails (env := env) (e := .invalidMultipleOf)
    ⟨p, s, x, hp, hs, hx, n, m, hn, hm, hbad⟩
  exact ⟨e, he, fun hsole => hsole e hv⟩

/-- C10, the exact rule: a number schema with just a `multipleOf` is accepted in a checked position if
and only if this is greater than zero or NaN; otherwise the error is `InvalidMultipleOf`. -/
theorem C10_acceptance (env : Env) {p : Position} (hp : p.Checked) (m : F64) :
    ((F64.Lt F64.zero m ∨ m.isNan = true) →
      ∃ t, (Demo.single (Demo.multiples m) p).build env = .ok t) ∧
    (¬ (F64.Lt F64.zero m ∨ m.isNan = true) →
      (Demo.single (Demo.multiples m) p).build env = .error (.err .invalidMultipleOf)) := by
  constructor
  · intro h
    rw [Demo.multiples, Demo.leaf_accepted hp (Demo.multiples_built m) (Demo.multiples_partial m) rfl]
    exact ⟨(fun _ h => nomatch h), (fun _ h => nomatch h), (fun _ _ h => nomatch h),
      fun x hx => by cases hx; exact F64.not_le_zero h⟩
  · intro h
    obtain ⟨e, he, hv⟩ := Demo.leaf_rejected (env := env) hp (Demo.multiples_built m)
      (Demo.multiples_partial m) rfl (fun hr => h (F64.lt_or_nan (hr.2.2.2 m rfl)))
    rcases hv with ⟨-, hv⟩ | ⟨-, n, hn, hv⟩ | ⟨rfl, -⟩
    · rcases hv with ⟨a, ha, -⟩ | ⟨n, hn, -⟩ | ⟨n, lo, hi, hn, h1, -⟩
      · cases ha
      · cases hn
      · cases hn; cases h1
    · cases hn; rcases hv with ⟨_, h1, -⟩ | ⟨_, h1, -⟩ <;> cases h1
    · exact he

/-- The cases of C10: zero, negative zero, minus infinity and -0.5 are rejected; the smallest positive
number, 0.5, infinity and NaN are accepted. -/
example : let ok := fun m : F64 => F64.Lt F64.zero m ∨ m.isNan = true
    ¬ ok (.ofBits 0) ∧ ¬ ok (.ofBits 0x8000000000000000) ∧ ¬ ok (.ofBits 0xFFF0000000000000) ∧
    ¬ ok (.ofBits 0xBFE0000000000000) ∧ ok (.ofBits 1) ∧ ok Demo.fHalf ∧
    ok (.ofBits 0x7FF0000000000000) ∧ ok (.ofBits 0x7FF8000000000000) := by
  decide

/-- The Things of C10 come from calls of the API. -/
example (p : Position) (m : F64) :
    Reachable Demo.X "Lamp" [Demo.place (Demo.multiples m) p] (Demo.single (Demo.multiples m) p) :=
  Demo.single_reachable (Demo.multiples_built m) fun _ => Demo.multiples_partial m

/-- The hypotheses of C10 are met: the number nested in the data of an event is a multiple of 0.5. -/
example : ∃ s x : DS Demo.X, Demo.thing.HasSchema .data s ∧ Within x s ∧
    ∃ n, x.subtype = some (.number n) ∧ n.multipleOf = some Demo.fHalf :=
  ⟨Demo.vecSchema.mapLang (langResult Demo.env), Demo.numberSchema.mapLang (langResult Demo.env),
   (Demo.reachable.hasSchema Demo.built).2 ⟨_, .data (n := "overheat") (e := Demo.event)
     (by simp [Demo.history]) rfl, rfl⟩,
   .item (c := Demo.numberSchema.mapLang (langResult Demo.env)) rfl rfl (.self _), _, rfl, rfl⟩

end Wot
