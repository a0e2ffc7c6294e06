import Verif.Lemmas.Grammar
import Verif.Spec.Defaults
/-
What is read when members are left out.
-/
namespace Wot

variable {α : Type} {k : String} {v : Json} {es es' : Members}

theorem Inserted.occ_ne (h : Inserted k v es es') (k' : String) (hk : k' ≠ k) : occ k' es = occ k' es' := by
  obtain ⟨a, b, rfl, rfl⟩ := h
  simp only [occ_append, occ_cons, if_neg (Ne.symm hk)]

theorem Inserted.rest_eq {K : List String} (h : Inserted k v es es') (hk : k ∈ K) :
    rest K es = rest K es' := by
  obtain ⟨a, b, rfl, rfl⟩ := h
  simp [rest, hk]

theorem Inserted.rest {K : List String} (h : Inserted k v es es') (hk : k ∉ K) :
    Inserted k v (rest K es) (rest K es') := by
  obtain ⟨a, b, rfl, rfl⟩ := h
  exact ⟨Wot.rest K a, Wot.rest K b, by simp [Wot.rest], by simp [Wot.rest, hk]⟩

theorem Absent.rest (h : Absent k es) (K : List String) : Absent k (rest K es) := by
  intro hm
  obtain ⟨kv, h1, e⟩ := List.mem_map.1 hm
  exact h (List.mem_map.2 ⟨kv, mem_rest_sub h1, e⟩)

theorem Inserted.occ_self (h : Inserted k v es es') (ha : Absent k es) : occ k es' = [v] := by
  obtain ⟨a, b, rfl, rfl⟩ := h
  have := occ_eq_nil.2 ha
  rw [occ_append, List.append_eq_nil_iff] at this
  rw [occ_append, occ_cons, this.1, this.2]
  simp

theorem Inserted.defaulted (h : Inserted k v es es') (ha : Absent k es) (d : α) {de : Json → Option α}
    (he : de v = some d) : defaulted k d de es = defaulted k d de es' := by
  simp only [Wot.defaulted, h.occ_self ha, occ_eq_nil.2 ha, he]

theorem Inserted.defaulted_ne (h : Inserted k v es es') (k' : String) (d : α) (de : Json → Option α)
    (hk : k' ≠ k) : Wot.defaulted k' d de es = Wot.defaulted k' d de es' := by
  simp only [Wot.defaulted, h.occ_ne k' hk]

theorem Inserted.required_ne (h : Inserted k v es es') (k' : String) (de : Json → Option α)
    (hk : k' ≠ k) : Wot.required k' de es = Wot.required k' de es' := by
  simp only [Wot.required, h.occ_ne k' hk]

theorem defaulted_eq_some {d r : α} {de : Json → Option α} (h : defaulted k d de es = some r) :
    (Absent k es ∧ r = d) ∨ ∃ v, occ k es = [v] ∧ de v = some r := by
  unfold defaulted at h
  split at h
  · rename_i e
    exact .inl ⟨occ_eq_nil.1 e, (Option.some.inj h).symm⟩
  · rename_i v e
    exact .inr ⟨v, e, h⟩
  · cases h

theorem optional_isNone {de : Json → Option α} {r : Option α} (h : optional k de es = some r) :
    r = none ↔ LeftOut k es := by
  rcases defaulted_eq_some h with ⟨ha, rfl⟩ | ⟨v, hv, e⟩
  · refine ⟨fun _ v hv => absurd (List.mem_map.2 ⟨_, hv, rfl⟩) ha, fun _ => rfl⟩
  · constructor
    · rintro rfl w hw
      have := mem_occ.2 hw
      rw [hv] at this
      cases List.mem_singleton.1 this
      cases v <;> first | rfl | (simp only [deOption, Option.map_eq_some_iff, reduceCtorEq, and_false, exists_false] at e)
    · intro hl
      have := hl v (mem_occ.1 (by simp [hv]))
      subst this
      exact (Option.some.inj e).symm

theorem flag_iff {b : Bool} (h : defaulted k false deBool es = some b) : b = true ↔ (k, .bool true) ∈ es := by
  rcases defaulted_eq_some h with ⟨ha, rfl⟩ | ⟨v, hv, e⟩
  · simp only [Bool.false_eq_true, false_iff]
    exact fun hm => ha (List.mem_map.2 ⟨_, hm, rfl⟩)
  · rw [← mem_occ, hv]
    cases v <;> simp_all [deBool]

end Wot
