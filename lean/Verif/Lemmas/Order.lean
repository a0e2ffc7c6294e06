import Verif.Lemmas.Range
import Verif.Spec.Order
/-
The comparison of `i64` and `f64` values.
-/
namespace Wot

theorem int_compare_lt {a b : Int} : compare a b = .lt ↔ a < b := by
  rw [Int.compare_eq_lt]
theorem int_compare_eq {a b : Int} : compare a b = .eq ↔ a = b := by
  rw [Int.compare_eq_eq]
theorem int_compare_gt {a b : Int} : compare a b = .gt ↔ b < a := by
  rw [Int.compare_eq_gt]

theorem int_compare_swap (a b : Int) : compare b a = (compare a b).swap := by
  cases h : compare a b with
  | lt => exact int_compare_gt.2 (int_compare_lt.1 h)
  | eq => exact int_compare_eq.2 (int_compare_eq.1 h).symm
  | gt => exact int_compare_lt.2 (int_compare_gt.1 h)

theorem I64.orderLaws : OrderLaws (PCmp.pcmp (T := I64)) PEq.peq where
  eq_iff a b := by
    show (a.val == b.val) = true ↔ some (compare a.val b.val) = some .eq
    rw [beq_iff_eq, Option.some.injEq, int_compare_eq]
  swap a b := by
    show some (compare b.val a.val) = (some (compare a.val b.val)).map Ordering.swap
    rw [int_compare_swap a.val b.val]; rfl
  trans a b c h1 h2 := by
    have h1 := int_compare_lt.1 (Option.some.inj h1)
    have h2 := int_compare_lt.1 (Option.some.inj h2)
    exact congrArg some (int_compare_lt.2 (Int.lt_trans h1 h2))
  congr a b c h1 := by
    have h1 := int_compare_eq.1 (Option.some.inj h1)
    show some (compare a.val c.val) = some (compare b.val c.val)
    rw [h1]

theorem I64.denotes : Denotes (PCmp.pcmp (T := I64)) I64.val where
  lt _ _ h := int_compare_lt.1 (Option.some.inj h)
  eq _ _ h := int_compare_eq.1 (Option.some.inj h)
  gt _ _ h := int_compare_gt.1 (Option.some.inj h)

theorem F64.partialCmp_some {a b : F64} {o : Ordering} :
    a.partialCmp b = some o ↔ a.isNan = false ∧ b.isNan = false ∧ compare a.key b.key = o := by
  unfold F64.partialCmp
  cases a.isNan <;> cases b.isNan <;> simp

theorem F64.orderLaws : OrderLaws (PCmp.pcmp (T := F64)) PEq.peq where
  eq_iff a b := by
    show (a.partialCmp b == some .eq) = true ↔ a.partialCmp b = some .eq
    rw [beq_iff_eq]
  swap a b := by
    show b.partialCmp a = (a.partialCmp b).map Ordering.swap
    unfold F64.partialCmp
    cases a.isNan <;> cases b.isNan <;> simp [int_compare_swap a.key b.key]
  trans a b c h1 h2 := by
    obtain ⟨ha, hb, h1⟩ := F64.partialCmp_some.1 h1
    obtain ⟨-, hc, h2⟩ := F64.partialCmp_some.1 h2
    exact F64.partialCmp_some.2 ⟨ha, hc, int_compare_lt.2 (Int.lt_trans (int_compare_lt.1 h1) (int_compare_lt.1 h2))⟩
  congr a b c h1 := by
    obtain ⟨ha, hb, h1⟩ := F64.partialCmp_some.1 h1
    show a.partialCmp c = b.partialCmp c
    unfold F64.partialCmp
    rw [ha, hb, int_compare_eq.1 h1]

/-- Comparing floating point numbers compares the numbers they denote. -/
theorem F64.denotes : Denotes (PCmp.pcmp (T := F64)) F64.value where
  lt a b h := (F64.value_lt_iff a b).2
    ((F64.units_lt_iff a b).2 (int_compare_lt.1 (F64.partialCmp_some.1 h).2.2))
  eq a b h := by
    have h := int_compare_eq.1 (F64.partialCmp_some.1 h).2.2
    have h1 := (F64.units_le_iff a b).2 (by omega)
    have h2 := (F64.units_le_iff b a).2 (by omega)
    unfold F64.value
    rw [show a.units = b.units by omega]
  gt a b h := (F64.value_lt_iff b a).2
    ((F64.units_lt_iff b a).2 (int_compare_gt.1 (F64.partialCmp_some.1 h).2.2))

section
variable {T : Type} [PCmp T] [PEq T]
open PCmp PEq

theorem minimum_orderLaws (h : OrderLaws (pcmp (T := T)) peq) :
    OrderLaws (Minimum.partialCmp (T := T)) Minimum.beqMin where
  eq_iff a b := by
    cases a <;> cases b <;> simp only [Minimum.beqMin, Minimum.partialCmp, h.eq_iff, Bool.false_eq_true, false_iff]
    all_goals
      rename_i x y
      rcases pcmp x y with _ | (_ | _ | _) <;> exact fun h => nomatch h
  swap a b := by
    cases a <;> cases b <;> rename_i x y <;> simp only [Minimum.partialCmp] <;> rw [h.swap x y] <;>
      rcases pcmp x y with _ | (_ | _ | _) <;> rfl
  trans a b c h1 h2 := by
    rcases a with x | x <;> rcases b with y | y <;> rcases c with z | z <;>
      simp only [Minimum.partialCmp] at h1 h2 ⊢
    · exact h.trans x y z h1 h2
    · rcases hyz : pcmp y z with _ | (_ | _ | _) <;> rw [hyz] at h2
      · cases h2
      · rw [h.trans x y z h1 hyz]; rfl
      · rw [h.swap z x, ← h.congr y z x hyz, ← h.swap y x, h1]; rfl
      · cases h2
    · rcases hyz : pcmp y z with _ | (_ | _ | _) <;> rw [hyz] at h2 <;> cases h2
    · rcases hxy : pcmp x y with _ | (_ | _ | _) <;> rw [hxy] at h1
      · cases h1
      · rw [h.trans x y z hxy h2]; rfl
      · rw [h.congr x y z hxy, h2]; rfl
      · cases h1
    · rcases hxy : pcmp x y with _ | (_ | _ | _) <;> rw [hxy] at h1 <;> cases h1
    · rcases hxy : pcmp x y with _ | (_ | _ | _) <;> rw [hxy] at h1 <;> cases h1
    · rcases hyz : pcmp y z with _ | (_ | _ | _) <;> rw [hyz] at h2 <;> cases h2
    · exact h.trans x y z h1 h2
  congr a b c h1 := by
    rcases a with x | x <;> rcases b with y | y <;> simp only [Minimum.partialCmp] at h1
    · cases c <;> simp only [Minimum.partialCmp] <;> rw [h.congr x y _ h1]
    · rcases hxy : pcmp x y with _ | (_ | _ | _) <;> rw [hxy] at h1 <;> cases h1
    · rcases hxy : pcmp x y with _ | (_ | _ | _) <;> rw [hxy] at h1 <;> cases h1
    · cases c <;> simp only [Minimum.partialCmp] <;> rw [h.congr x y _ h1]

theorem maximum_orderLaws (h : OrderLaws (pcmp (T := T)) peq) :
    OrderLaws (Maximum.partialCmp (T := T)) Maximum.beqMax where
  eq_iff a b := by
    cases a <;> cases b <;> simp only [Maximum.beqMax, Maximum.partialCmp, h.eq_iff, Bool.false_eq_true, false_iff]
    all_goals
      rename_i x y
      rcases pcmp x y with _ | (_ | _ | _) <;> exact fun h => nomatch h
  swap a b := by
    cases a <;> cases b <;> rename_i x y <;> simp only [Maximum.partialCmp] <;> rw [h.swap x y] <;>
      rcases pcmp x y with _ | (_ | _ | _) <;> rfl
  trans a b c h1 h2 := by
    rcases a with x | x <;> rcases b with y | y <;> rcases c with z | z <;>
      simp only [Maximum.partialCmp] at h1 h2 ⊢
    · exact h.trans x y z h1 h2
    · rcases hyz : pcmp y z with _ | (_ | _ | _) <;> rw [hyz] at h2 <;> cases h2
    · rcases hxy : pcmp x y with _ | (_ | _ | _) <;> rw [hxy] at h1 <;> cases h1
    · rcases hxy : pcmp x y with _ | (_ | _ | _) <;> rw [hxy] at h1 <;> cases h1
    · rcases hxy : pcmp x y with _ | (_ | _ | _) <;> rw [hxy] at h1
      · cases h1
      · rw [h.trans x y z hxy h2]; rfl
      · rw [h.congr x y z hxy, h2]; rfl
      · cases h1
    · rcases hyz : pcmp y z with _ | (_ | _ | _) <;> rw [hyz] at h2 <;> cases h2
    · rcases hyz : pcmp y z with _ | (_ | _ | _) <;> rw [hyz] at h2
      · cases h2
      · rw [h.trans x y z h1 hyz]; rfl
      · rw [h.swap z x, ← h.congr y z x hyz, ← h.swap y x, h1]; rfl
      · cases h2
    · exact h.trans x y z h1 h2
  congr a b c h1 := by
    rcases a with x | x <;> rcases b with y | y <;> simp only [Maximum.partialCmp] at h1
    · cases c <;> simp only [Maximum.partialCmp] <;> rw [h.congr x y _ h1]
    · rcases hxy : pcmp x y with _ | (_ | _ | _) <;> rw [hxy] at h1 <;> cases h1
    · rcases hxy : pcmp x y with _ | (_ | _ | _) <;> rw [hxy] at h1 <;> cases h1
    · cases c <;> simp only [Maximum.partialCmp] <;> rw [h.congr x y _ h1]

end

end Wot
