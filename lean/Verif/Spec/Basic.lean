/-
Vocabulary of the specifications that is independent of the model.
-/
namespace Wot

/-- Two lists of the same length whose elements are related position by position. -/
inductive Pointwise {α β : Type} (R : α → β → Prop) : List α → List β → Prop
  | nil : Pointwise R [] []
  | cons {a : α} {b : β} {l : List α} {m : List β} :
      R a b → Pointwise R l m → Pointwise R (a :: l) (b :: m)

/-- Two optional values, both absent or both present and related. -/
inductive OptRel {α β : Type} (R : α → β → Prop) : Option α → Option β → Prop
  | none : OptRel R none none
  | some {a : α} {b : β} : R a b → OptRel R (some a) (some b)

/-- The last element of a list, if any. -/
def lastOf {α : Type} : List α → Option α
  | [] => none
  | [a] => some a
  | _ :: l => lastOf l

namespace Pointwise
variable {α β : Type} {R S : α → β → Prop}

@[simp] theorem nil_iff : Pointwise R [] [] ↔ True := ⟨fun _ => trivial, fun _ => .nil⟩
@[simp] theorem nil_cons_iff {b : β} {m : List β} : Pointwise R [] (b :: m) ↔ False :=
  ⟨(fun h => by cases h), False.elim⟩
@[simp] theorem cons_nil_iff {a : α} {l : List α} : Pointwise R (a :: l) [] ↔ False :=
  ⟨(fun h => by cases h), False.elim⟩
@[simp] theorem cons_iff {a : α} {b : β} {l : List α} {m : List β} :
    Pointwise R (a :: l) (b :: m) ↔ R a b ∧ Pointwise R l m :=
  ⟨fun | .cons h t => ⟨h, t⟩, fun h => .cons h.1 h.2⟩

theorem imp (h : ∀ a b, R a b → S a b) {l : List α} {m : List β} (hp : Pointwise R l m) :
    Pointwise S l m := by
  induction hp with
  | nil => exact .nil
  | cons h1 _ ih => exact .cons (h _ _ h1) ih

theorem imp_mem {l : List α} {m : List β} (hp : Pointwise R l m)
    (h : ∀ a ∈ l, ∀ b ∈ m, R a b → S a b) : Pointwise S l m := by
  induction hp with
  | nil => exact .nil
  | cons h1 _ ih =>
    exact .cons (h _ (by simp) _ (by simp) h1)
      (ih fun a ha b hb => h a (by simp [ha]) b (by simp [hb]))

theorem exists_right {l : List α} {m : List β} (hp : Pointwise R l m) {a : α} (ha : a ∈ l) :
    ∃ b ∈ m, R a b := by
  induction hp with
  | nil => simp at ha
  | cons h1 _ ih =>
    rcases List.mem_cons.1 ha with rfl | ha
    · exact ⟨_, by simp, h1⟩
    · obtain ⟨b, hb, hr⟩ := ih ha
      exact ⟨b, by simp [hb], hr⟩

theorem exists_left {l : List α} {m : List β} (hp : Pointwise R l m) {b : β} (hb : b ∈ m) :
    ∃ a ∈ l, R a b := by
  induction hp with
  | nil => simp at hb
  | cons h1 _ ih =>
    rcases List.mem_cons.1 hb with rfl | hb
    · exact ⟨_, by simp, h1⟩
    · obtain ⟨b, hb, hr⟩ := ih hb
      exact ⟨b, by simp [hb], hr⟩

theorem length_eq {l : List α} {m : List β} (hp : Pointwise R l m) : l.length = m.length := by
  induction hp with
  | nil => rfl
  | cons _ _ ih => simp [ih]

theorem map_eq {γ : Type} {f : α → γ} {g : β → γ} {l : List α} {m : List β}
    (hp : Pointwise (fun a b => f a = g b) l m) : l.map f = m.map g := by
  induction hp with
  | nil => rfl
  | cons h _ ih => simp [h, ih]

/-- A function's graph, pointwise. -/
theorem of_map {f : α → β} (l : List α) : Pointwise (fun a b => b = f a) l (l.map f) := by
  induction l <;> simp_all

theorem eq_map {f : α → β} {l : List α} {m : List β} (h : Pointwise (fun a b => b = f a) l m) :
    m = l.map f := by
  induction h with
  | nil => rfl
  | cons h _ ih => simp [h, ih]

theorem unique (hu : ∀ a b b', R a b → R a b' → b = b') {l : List α} {m m' : List β}
    (h : Pointwise R l m) (h' : Pointwise R l m') : m = m' := by
  induction h generalizing m' with
  | nil => cases h'; rfl
  | cons h1 _ ih => cases h' with | cons h2 h3 => rw [hu _ _ _ h1 h2, ih h3]

end Pointwise

end Wot
