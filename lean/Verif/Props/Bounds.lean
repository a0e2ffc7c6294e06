import Verif.Props.Single
import Verif.Lemmas.Order
import Verif.Lemmas.SchemaHistory
/-
C22 and C23: comparing and setting bounds.
-/
namespace Wot

open PCmp PEq

/-! ### C22 -/

/-- C22: comparing minima is a partial order consistent with their equality, if that is so for the
numbers they contain. -/
theorem C22_minimum {T : Type} [PCmp T] [PEq T] (h : OrderLaws (pcmp (T := T)) peq) :
    OrderLaws (Minimum.partialCmp (T := T)) Minimum.beqMin := minimum_orderLaws h

/-- C22: the same for maxima. -/
theorem C22_maximum {T : Type} [PCmp T] [PEq T] (h : OrderLaws (pcmp (T := T)) peq) :
    OrderLaws (Maximum.partialCmp (T := T)) Maximum.beqMax := maximum_orderLaws h

/-- C22: integers and floating point numbers, including NaN, satisfy the laws. -/
theorem C22_elements :
    OrderLaws (pcmp (T := I64)) peq ∧ OrderLaws (pcmp (T := F64)) peq := ⟨I64.orderLaws, F64.orderLaws⟩

/-- The hypothesis of `C22_minimum` and `C22_maximum` is met by the two types the crate uses. -/
example : OrderLaws (Minimum.partialCmp (T := F64)) Minimum.beqMin := C22_minimum C22_elements.2
example : OrderLaws (Maximum.partialCmp (T := I64)) Maximum.beqMax := C22_maximum C22_elements.1

/-- C22: comparing a maximum with a minimum gives the opposite of comparing the minimum with the
maximum, and they are equal in either direction exactly if they compare as equal. -/
theorem C22_cross {T : Type} [PCmp T] [PEq T] (h : OrderLaws (pcmp (T := T)) peq) (a : Minimum T)
    (b : Maximum T) :
    b.cmpMin a = (a.cmpMax b).map Ordering.swap ∧ a.cmpMax b = (b.cmpMin a).map Ordering.swap ∧
    (a.eqMax b = true ↔ a.cmpMax b = some .eq) ∧ (b.eqMin a = true ↔ b.cmpMin a = some .eq) ∧
    (a.eqMax b = b.eqMin a) := by
  have h3 : a.eqMax b = true ↔ a.cmpMax b = some .eq := by
    cases a <;> cases b <;> simp only [Minimum.eqMax, Minimum.cmpMax, h.eq_iff, Bool.false_eq_true, false_iff]
    all_goals
      rename_i x y
      rcases pcmp x y with _ | (_ | _ | _) <;> exact fun h => nomatch h
  refine ⟨rfl, ?_, h3, ?_, rfl⟩
  · unfold Maximum.cmpMin
    rcases a.cmpMax b with _ | (_ | _ | _) <;> rfl
  · unfold Maximum.eqMin Maximum.cmpMin
    rw [h3]
    rcases a.cmpMax b with _ | (_ | _ | _) <;> simp [Ordering.swap]

/-- C22, what the comparison of integer bounds means: a smaller minimum admits strictly more, equal
minima admit the same; a greater maximum admits strictly more, equal maxima the same; and a minimum
that is greater than a maximum leaves no integer. -/
theorem C22_integer_meaning :
    (∀ a b : Minimum I64, a.partialCmp b = some .lt →
      (∀ v : Int, b.Admits I64.val v → a.Admits I64.val v) ∧
        ∃ v : Int, a.Admits I64.val v ∧ ¬ b.Admits I64.val v) ∧
    (∀ a b : Minimum I64, a.partialCmp b = some .eq →
      ∀ v : Int, a.Admits I64.val v ↔ b.Admits I64.val v) ∧
    (∀ a b : Maximum I64, a.partialCmp b = some .lt →
      (∀ v : Int, a.Admits I64.val v → b.Admits I64.val v) ∧
        ∃ v : Int, b.Admits I64.val v ∧ ¬ a.Admits I64.val v) ∧
    (∀ a b : Maximum I64, a.partialCmp b = some .eq →
      ∀ v : Int, a.Admits I64.val v ↔ b.Admits I64.val v) ∧
    (∀ (a : Minimum I64) (b : Maximum I64), a.cmpMax b = some .gt →
      ¬ ∃ v : Int, a.Admits I64.val v ∧ b.Admits I64.val v) := by
  have d := I64.denotes
  refine ⟨?_, ?_, ?_, ?_, ?_⟩
  · intro a b h
    rcases a with x | x <;> rcases b with y | y <;> simp only [Minimum.partialCmp, Minimum.Admits] at h ⊢
    · have := d.lt x y h
      exact ⟨fun v hv => by omega, I64.val x, by omega, by omega⟩
    · have : I64.val x ≤ I64.val y := by
        rcases hxy : pcmp x y with _ | (_ | _ | _) <;> rw [hxy] at h
        · cases h
        · have := d.lt x y hxy; omega
        · have := d.eq x y hxy; omega
        · cases h
      exact ⟨fun v hv => by omega, I64.val x, by omega, by omega⟩
    · rcases hxy : pcmp x y with _ | (_ | _ | _) <;> rw [hxy] at h <;> cases h
    · have := d.lt x y h
      exact ⟨fun v hv => by omega, I64.val x + 1, by omega, by omega⟩
  · intro a b h v
    rcases a with x | x <;> rcases b with y | y <;> simp only [Minimum.partialCmp, Minimum.Admits] at h ⊢
    · rw [d.eq x y h]
    · rcases hxy : pcmp x y with _ | (_ | _ | _) <;> rw [hxy] at h <;> cases h
    · rcases hxy : pcmp x y with _ | (_ | _ | _) <;> rw [hxy] at h <;> cases h
    · rw [d.eq x y h]
  · intro a b h
    rcases a with x | x <;> rcases b with y | y <;> simp only [Maximum.partialCmp, Maximum.Admits] at h ⊢
    · have := d.lt x y h
      exact ⟨fun v hv => by omega, I64.val y, by omega, by omega⟩
    · rcases hxy : pcmp x y with _ | (_ | _ | _) <;> rw [hxy] at h <;> cases h
    · have : I64.val x ≤ I64.val y := by
        rcases hxy : pcmp x y with _ | (_ | _ | _) <;> rw [hxy] at h
        · cases h
        · have := d.lt x y hxy; omega
        · have := d.eq x y hxy; omega
        · cases h
      exact ⟨fun v hv => by omega, I64.val y, by omega, by omega⟩
    · have := d.lt x y h
      exact ⟨fun v hv => by omega, I64.val y - 1, by omega, by omega⟩
  · intro a b h v
    rcases a with x | x <;> rcases b with y | y <;> simp only [Maximum.partialCmp, Maximum.Admits] at h ⊢
    · rw [d.eq x y h]
    · rcases hxy : pcmp x y with _ | (_ | _ | _) <;> rw [hxy] at h <;> cases h
    · rcases hxy : pcmp x y with _ | (_ | _ | _) <;> rw [hxy] at h <;> cases h
    · rw [d.eq x y h]
  · rintro a b h ⟨v, h1, h2⟩
    rcases a with x | x <;> rcases b with y | y <;>
      simp only [Minimum.cmpMax, Minimum.Admits, Maximum.Admits] at h h1 h2
    · have := d.gt x y h; omega
    · rcases hxy : pcmp x y with _ | (_ | _ | _) <;> rw [hxy] at h
      · cases h
      · cases h
      · have := d.eq x y hxy; omega
      · have := d.gt x y hxy; omega
    · rcases hxy : pcmp x y with _ | (_ | _ | _) <;> rw [hxy] at h
      · cases h
      · cases h
      · have := d.eq x y hxy; omega
      · have := d.gt x y hxy; omega
    · have := d.gt x y h; omega

/-- C22, the same for bounds of floating point numbers and all rational numbers. -/
theorem C22_number_meaning :
    (∀ a b : Minimum F64, a.partialCmp b = some .lt →
      (∀ v : Rat, b.Admits F64.value v → a.Admits F64.value v) ∧
        ∃ v : Rat, a.Admits F64.value v ∧ ¬ b.Admits F64.value v) ∧
    (∀ a b : Minimum F64, a.partialCmp b = some .eq →
      ∀ v : Rat, a.Admits F64.value v ↔ b.Admits F64.value v) ∧
    (∀ a b : Maximum F64, a.partialCmp b = some .lt →
      (∀ v : Rat, a.Admits F64.value v → b.Admits F64.value v) ∧
        ∃ v : Rat, b.Admits F64.value v ∧ ¬ a.Admits F64.value v) ∧
    (∀ a b : Maximum F64, a.partialCmp b = some .eq →
      ∀ v : Rat, a.Admits F64.value v ↔ b.Admits F64.value v) ∧
    (∀ (a : Minimum F64) (b : Maximum F64), a.cmpMax b = some .gt →
      ¬ ∃ v : Rat, a.Admits F64.value v ∧ b.Admits F64.value v) := by
  have d := F64.denotes
  refine ⟨?_, ?_, ?_, ?_, ?_⟩
  · intro a b h
    rcases a with x | x <;> rcases b with y | y <;> simp only [Minimum.partialCmp, Minimum.Admits] at h ⊢
    · have := d.lt x y h
      revert this; generalize F64.value x = p; generalize F64.value y = q; intro this
      exact ⟨fun v hv => by grind, p, by grind, by grind⟩
    · have : F64.value x ≤ F64.value y := by
        rcases hxy : pcmp x y with _ | (_ | _ | _) <;> rw [hxy] at h
        · cases h
        · have := d.lt x y hxy
          revert this; generalize F64.value x = p; generalize F64.value y = q; intro this
          grind
        · rw [d.eq x y hxy]; exact Rat.le_refl
        · cases h
      revert this; generalize F64.value x = p; generalize F64.value y = q; intro this
      exact ⟨fun v hv => by grind, p, by grind, by grind⟩
    · rcases hxy : pcmp x y with _ | (_ | _ | _) <;> rw [hxy] at h <;> cases h
    · have := d.lt x y h
      revert this; generalize F64.value x = p; generalize F64.value y = q; intro this
      obtain ⟨r, h1, h2⟩ := rat_between this
      exact ⟨fun v hv => by grind, r, by grind, by grind⟩
  · intro a b h v
    rcases a with x | x <;> rcases b with y | y <;> simp only [Minimum.partialCmp, Minimum.Admits] at h ⊢
    · rw [d.eq x y h]
    · rcases hxy : pcmp x y with _ | (_ | _ | _) <;> rw [hxy] at h <;> cases h
    · rcases hxy : pcmp x y with _ | (_ | _ | _) <;> rw [hxy] at h <;> cases h
    · rw [d.eq x y h]
  · intro a b h
    rcases a with x | x <;> rcases b with y | y <;> simp only [Maximum.partialCmp, Maximum.Admits] at h ⊢
    · have := d.lt x y h
      revert this; generalize F64.value x = p; generalize F64.value y = q; intro this
      exact ⟨fun v hv => by grind, q, by grind, by grind⟩
    · rcases hxy : pcmp x y with _ | (_ | _ | _) <;> rw [hxy] at h <;> cases h
    · have : F64.value x ≤ F64.value y := by
        rcases hxy : pcmp x y with _ | (_ | _ | _) <;> rw [hxy] at h
        · cases h
        · have := d.lt x y hxy
          revert this; generalize F64.value x = p; generalize F64.value y = q; intro this
          grind
        · rw [d.eq x y hxy]; exact Rat.le_refl
        · cases h
      revert this; generalize F64.value x = p; generalize F64.value y = q; intro this
      exact ⟨fun v hv => by grind, q, by grind, by grind⟩
    · have := d.lt x y h
      revert this; generalize F64.value x = p; generalize F64.value y = q; intro this
      obtain ⟨r, h1, h2⟩ := rat_between this
      exact ⟨fun v hv => by grind, r, by grind, by grind⟩
  · intro a b h v
    rcases a with x | x <;> rcases b with y | y <;> simp only [Maximum.partialCmp, Maximum.Admits] at h ⊢
    · rw [d.eq x y h]
    · rcases hxy : pcmp x y with _ | (_ | _ | _) <;> rw [hxy] at h <;> cases h
    · rcases hxy : pcmp x y with _ | (_ | _ | _) <;> rw [hxy] at h <;> cases h
    · rw [d.eq x y h]
  · rintro a b h ⟨v, h1, h2⟩
    have key : ∀ x y : F64, (pcmp x y = some .eq ∨ pcmp x y = some .gt) → F64.value y ≤ F64.value x := by
      rintro x y (h | h)
      · rw [d.eq x y h]; exact Rat.le_refl
      · have := d.gt x y h
        revert this; generalize F64.value x = p; generalize F64.value y = q; intro this
        grind
    rcases a with x | x <;> rcases b with y | y <;>
      simp only [Minimum.cmpMax, Minimum.Admits, Maximum.Admits] at h h1 h2
    · have := d.gt x y h
      revert this h1 h2; generalize F64.value x = p; generalize F64.value y = q; intros
      grind
    · have := key x y (by rcases hxy : pcmp x y with _ | (_ | _ | _) <;> rw [hxy] at h <;> simp_all)
      revert this h1 h2; generalize F64.value x = p; generalize F64.value y = q; intros
      grind
    · have := key x y (by rcases hxy : pcmp x y with _ | (_ | _ | _) <;> rw [hxy] at h <;> simp_all)
      revert this h1 h2; generalize F64.value x = p; generalize F64.value y = q; intros
      grind
    · have := d.gt x y h
      revert this h1 h2; generalize F64.value x = p; generalize F64.value y = q; intros
      grind

/-- Some bounds do compare as less, as equal and as greater. -/
example : (Minimum.inclusive Demo.i0).partialCmp (.exclusive Demo.i0) = some .lt ∧
    (Minimum.inclusive Demo.f0).partialCmp (.inclusive Demo.f0) = some .eq ∧
    (Maximum.exclusive Demo.f0).partialCmp (.inclusive Demo.f100) = some .lt ∧
    (Minimum.exclusive Demo.i10).cmpMax (.inclusive Demo.i10) = some .gt := by decide

/-- C22, a caution: minima and maxima together are not ordered consistently. An exclusive minimum
and an exclusive maximum with the same number are equal, and this maximum is less than the inclusive
one, but the minimum is greater than the latter. -/
theorem C22_mixed_not_transitive (x : I64) :
    (Minimum.exclusive x).cmpMax (.exclusive x) = some .eq ∧
    (Maximum.exclusive x).partialCmp (.inclusive x) = some .lt ∧
    (Minimum.exclusive x).cmpMax (.inclusive x) = some .gt := by
  have h : pcmp x x = some .eq := congrArg some (int_compare_eq.2 rfl)
  simp [Minimum.cmpMax, Maximum.partialCmp, h]

/-! ### C23 -/

section
variable {DS AS OS : Type} {ops : List (KindOp DS AS OS)}

/-- C23: after any calls on a number schema builder (allowed by its type), each bound is that of the
last call for this side, of the kind of this call; likewise `multipleOf`. -/
theorem C23_number {b : DataSchemaBuilder DS AS OS} {k : KindBuilder (DataSchemaBuilder DS AS OS) DS AS OS}
    (hb : PlainReach DS b) (h : ops.foldlM KindBuilder.apply (specialise b .number) = some k) :
    k.toUnchecked.subtype = some (.number
      { minimum := lastOf (SchemaCalls.minima ops), maximum := lastOf (SchemaCalls.maxima ops),
        multipleOf := lastOf (SchemaCalls.multiples ops) }) := by
  rw [toUnchecked_history hb h]; rfl

/-- C23: the same for integers. -/
theorem C23_integer {b : DataSchemaBuilder DS AS OS} {k : KindBuilder (DataSchemaBuilder DS AS OS) DS AS OS}
    (hb : PlainReach DS b) (h : ops.foldlM KindBuilder.apply (specialise b .integer) = some k) :
    k.toUnchecked.subtype = some (.integer
      { minimum := lastOf (SchemaCalls.iMinima ops), maximum := lastOf (SchemaCalls.iMaxima ops),
        multipleOf := lastOf (SchemaCalls.iMultiples ops) }) := by
  rw [toUnchecked_history hb h]; rfl

/-- C23: the same for the data schema of a property. -/
theorem C23_property {b : PartialDataSchemaBuilder DS AS OS}
    {k : KindBuilder (PartialDataSchemaBuilder DS AS OS) DS AS OS} (hb : PartialReach DS b) :
    (ops.foldlM KindBuilder.apply (specialise b .number) = some k →
      k.toPartial.subtype = some (.number
        { minimum := lastOf (SchemaCalls.minima ops), maximum := lastOf (SchemaCalls.maxima ops),
          multipleOf := lastOf (SchemaCalls.multiples ops) })) ∧
    (ops.foldlM KindBuilder.apply (specialise b .integer) = some k →
      k.toPartial.subtype = some (.integer
        { minimum := lastOf (SchemaCalls.iMinima ops), maximum := lastOf (SchemaCalls.iMaxima ops),
          multipleOf := lastOf (SchemaCalls.iMultiples ops) })) :=
  ⟨fun h => by rw [toPartial_history hb h]; rfl, fun h => by rw [toPartial_history hb h]; rfl⟩

/-- C23: calls for one side do not influence the other, and the same holds in the built Thing
(`C20`): here, two sequences of calls with the same calls for the minimum. -/
theorem C23_sides_independent {ops' : List (KindOp DS AS OS)} {b : DataSchemaBuilder DS AS OS}
    {k k' : KindBuilder (DataSchemaBuilder DS AS OS) DS AS OS} (hb : PlainReach DS b)
    (h : ops.foldlM KindBuilder.apply (specialise b .number) = some k)
    (h' : ops'.foldlM KindBuilder.apply (specialise b .number) = some k')
    (he : SchemaCalls.minima ops = SchemaCalls.minima ops') :
    ∃ n n' : NumberSchema, k.toUnchecked.subtype = some (.number n) ∧
      k'.toUnchecked.subtype = some (.number n') ∧ n.minimum = n'.minimum :=
  ⟨_, _, C23_number hb h, C23_number hb h', by rw [he]⟩

end

/-- A minimum set three times and a maximum set in between: the last minimum stays. -/
example : ∃ k, List.foldlM KindBuilder.apply
      (specialise (.empty () : DataSchemaBuilder Unit Unit Unit) .number)
      [.fMinimum Demo.f100, .fExclusiveMaximum Demo.f100, .fMinimum Demo.fHalf,
        .fExclusiveMinimum Demo.f0] = some k ∧
    k.toUnchecked.subtype = some (.number
      { minimum := some (.exclusive Demo.f0), maximum := some (.exclusive Demo.f100) }) :=
  ⟨_, rfl, rfl⟩

end Wot
