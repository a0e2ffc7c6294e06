import Verif.Lemmas.CodecThing
import Verif.Spec.Reading
/-
What is read depends on.
-/
namespace Wot

variable {α : Type} {k : String} {v w : Json} {es es' : Members}

theorem Replaced.symm (h : Replaced k v w es es') : Replaced k w v es' es :=
  let ⟨a, b, h1, h2⟩ := h
  ⟨a, b, h2, h1⟩

theorem Replaced.occ_ne (h : Replaced k v w es es') (k' : String) (hk : k' ≠ k) : occ k' es = occ k' es' := by
  obtain ⟨a, b, rfl, rfl⟩ := h
  simp only [occ_append, occ_cons, if_neg (Ne.symm hk)]

theorem Replaced.rest_eq {K : List String} (h : Replaced k v w es es') (hk : k ∈ K) :
    rest K es = rest K es' := by
  obtain ⟨a, b, rfl, rfl⟩ := h
  simp [rest, hk]

theorem Replaced.rest {K : List String} (h : Replaced k v w es es') (hk : k ∉ K) :
    Replaced k v w (rest K es) (rest K es') := by
  obtain ⟨a, b, rfl, rfl⟩ := h
  exact ⟨Wot.rest K a, Wot.rest K b, by simp [Wot.rest, hk], by simp [Wot.rest, hk]⟩

theorem Replaced.defaulted (h : Replaced k v w es es') (d : α) {de : Json → Option α} (he : de v = de w) :
    defaulted k d de es = defaulted k d de es' := by
  obtain ⟨a, b, rfl, rfl⟩ := h
  simp only [Wot.defaulted, occ_append, occ_cons, if_true]
  generalize occ k a = x
  generalize occ k b = y
  cases x <;> cases y <;> simp [he]

theorem Replaced.required (h : Replaced k v w es es') {de : Json → Option α} (he : de v = de w) :
    required k de es = required k de es' := by
  obtain ⟨a, b, rfl, rfl⟩ := h
  simp only [Wot.required, occ_append, occ_cons, if_true]
  generalize occ k a = x
  generalize occ k b = y
  cases x <;> cases y <;> simp [he]

theorem Replaced.defaulted_ne (h : Replaced k v w es es') (k' : String) (d : α) (de : Json → Option α)
    (hk : k' ≠ k) : Wot.defaulted k' d de es = Wot.defaulted k' d de es' := by
  simp only [Wot.defaulted, h.occ_ne k' hk]

theorem Replaced.required_ne (h : Replaced k v w es es') (k' : String) (de : Json → Option α)
    (hk : k' ≠ k) : Wot.required k' de es = Wot.required k' de es' := by
  simp only [Wot.required, h.occ_ne k' hk]

/-- Readers that accept one or many do not tell one value from an array of it. -/
theorem oneOrMany_one {de : Json → Option α} {v : Json} {a : α} (h1 : de v = some a) (h2 : de (.arr [v]) = none) :
    deOneOrMany de v = deOneOrMany de (.arr [v]) := by
  simp [deOneOrMany, h1, h2, deVec, mapOpt]

theorem option_one {de : Json → Option α} {v : Json} {a : α} (h1 : de v = some a) (h2 : de (.arr [v]) = none)
    (hn : v ≠ .null) : deOption (deOneOrMany de) v = deOption (deOneOrMany de) (.arr [v]) := by
  have : deOption (deOneOrMany de) v = (deOneOrMany de v).map some := by
    cases v <;> first | rfl | exact absurd rfl hn
  rw [this, oneOrMany_one h1 h2]
  rfl

theorem strings_one (s : String) : deStrings (.str s) = deStrings (.arr [.str s]) := rfl

theorem optStrings_one (s : String) : deOption deStrings (.str s) = deOption deStrings (.arr [.str s]) := rfl

end Wot
