import Verif.Lemmas.Basic
/-
A small calculus for fallible computations: `Outcome x V r` says that `x` either succeeds with `r`, and
then nothing is violated, or fails with an error `e` that describes a violation.
-/
namespace Wot

variable {α β ε : Type}

/-- `x` succeeds with `r` and there is no violation, or fails with a violation. -/
def Outcome (x : Except ε α) (V : ε → Prop) (r : α) : Prop :=
  match x with
  | .ok a => a = r ∧ ∀ e, ¬ V e
  | .error e => V e

namespace Outcome

theorem ok_iff {x : Except ε α} {V : ε → Prop} {r a : α} (h : Outcome x V r) :
    x = .ok a ↔ a = r ∧ ∀ e, ¬ V e := by
  cases x with
  | ok b =>
    obtain ⟨rfl, hv⟩ := h
    constructor
    · intro h; cases h; exact ⟨rfl, hv⟩
    · rintro ⟨rfl, _⟩; rfl
  | error e =>
    constructor
    · intro h; cases h
    · rintro ⟨_, hv⟩; exact (hv e h).elim

theorem error {x : Except ε α} {V : ε → Prop} {r : α} (h : Outcome x V r) {e : ε} (he : x = .error e) :
    V e := by subst he; exact h

theorem ok_or {x : Except ε α} {V : ε → Prop} {r : α} (h : Outcome x V r) :
    (x = .ok r ∧ ∀ e, ¬ V e) ∨ ∃ e, x = .error e ∧ V e := by
  cases x with
  | ok a => obtain ⟨rfl, hv⟩ := h; exact .inl ⟨rfl, hv⟩
  | error e => exact .inr ⟨e, rfl, h⟩

theorem congr {x : Except ε α} {V V' : ε → Prop} {r r' : α} (h : Outcome x V r)
    (hv : ∀ e, V e ↔ V' e) (hr : (∀ e, ¬ V e) → r = r') : Outcome x V' r' := by
  cases x with
  | ok a => exact ⟨h.1.trans (hr h.2), fun e he => h.2 e ((hv e).2 he)⟩
  | error e => exact (hv e).1 h

theorem congrV {x : Except ε α} {V V' : ε → Prop} {r : α} (h : Outcome x V r)
    (hv : ∀ e, V e ↔ V' e) : Outcome x V' r := h.congr hv fun _ => rfl

theorem pure (a : α) : Outcome (Pure.pure a : Except ε α) (fun _ => False) a := ⟨rfl, fun _ h => h⟩

theorem ok (a : α) : Outcome (.ok a : Except ε α) (fun _ => False) a := ⟨rfl, fun _ h => h⟩

theorem bind {x : Except ε α} {V : ε → Prop} {r : α} {f : α → Except ε β} {V' : ε → Prop} {r' : β}
    (h : Outcome x V r) (h' : (∀ e, ¬ V e) → Outcome (f r) V' r') :
    Outcome (x >>= f) (fun e => V e ∨ V' e) r' := by
  cases x with
  | error e => exact Or.inl (h : V e)
  | ok a =>
    obtain ⟨rfl, hv⟩ := h
    have := h' hv
    show Outcome (f a) _ _
    cases hf : f a with
    | ok b => rw [hf] at this; exact ⟨this.1, fun e he => he.elim (hv e) (this.2 e)⟩
    | error e => rw [hf] at this; exact Or.inr this

/-- The common last step: wrap the result. -/
theorem map {x : Except ε α} {V : ε → Prop} {r : α} (g : α → β) (h : Outcome x V r) :
    Outcome (do let a ← x; Pure.pure (g a)) V (g r) :=
  (h.bind fun _ => Outcome.pure (g r)).congrV (by simp)

theorem ite {c : Prop} [Decidable c] {e₀ : ε} :
    Outcome (if c then (.error e₀ : Except ε Unit) else .ok ()) (fun e => c ∧ e = e₀) () := by
  split
  · exact ⟨‹c›, rfl⟩
  · exact ⟨rfl, fun e he => ‹¬ c› he.1⟩

theorem ite' {c : Prop} [Decidable c] {e₀ : ε} :
    Outcome (if c then (.ok () : Except ε Unit) else .error e₀) (fun e => ¬ c ∧ e = e₀) () := by
  split
  · exact ⟨rfl, fun e he => he.1 ‹c›⟩
  · exact ⟨‹¬ c›, rfl⟩

theorem tryMap {f : α → Except ε β} {V : α → ε → Prop} {g : α → β} {l : List α}
    (h : ∀ a ∈ l, Outcome (f a) (V a) (g a)) :
    Outcome (tryMap f l) (fun e => ∃ a ∈ l, V a e) (l.map g) := by
  induction l with
  | nil => exact ⟨rfl, by simp⟩
  | cons a l ih =>
    have ha := h a (by simp)
    have hl := ih fun b hb => h b (by simp [hb])
    rw [Wot.tryMap]
    rcases ha.ok_or with ⟨h1, h2⟩ | ⟨e, h1, h2⟩
    · rcases hl.ok_or with ⟨h3, h4⟩ | ⟨e, h3, h4⟩
      · simp only [h1, h3]
        refine ⟨rfl, ?_⟩
        rintro e ⟨b, hb, hv⟩
        rcases List.mem_cons.1 hb with rfl | hb
        · exact h2 e hv
        · exact h4 e ⟨b, hb, hv⟩
      · simp only [h1, h3]
        obtain ⟨b, hb, hv⟩ := h4
        exact ⟨b, by simp [hb], hv⟩
    · simp only [h1]
      exact ⟨a, by simp, h2⟩

theorem tryForEach {f : α → Except ε Unit} {V : α → ε → Prop} {l : List α}
    (h : ∀ a ∈ l, Outcome (f a) (V a) ()) :
    Outcome (tryForEach f l) (fun e => ∃ a ∈ l, V a e) () := by
  induction l with
  | nil => exact ⟨rfl, by simp⟩
  | cons a l ih =>
    have ha := h a (by simp)
    have hl := ih fun b hb => h b (by simp [hb])
    rw [Wot.tryForEach]
    rcases ha.ok_or with ⟨h1, h2⟩ | ⟨e, h1, h2⟩
    · simp only [h1]
      refine hl.congrV fun e => ?_
      constructor
      · rintro ⟨b, hb, hv⟩; exact ⟨b, by simp [hb], hv⟩
      · rintro ⟨b, hb, hv⟩
        rcases List.mem_cons.1 hb with rfl | hb
        · exact (h2 e hv).elim
        · exact ⟨b, hb, hv⟩
    · simp only [h1]
      exact ⟨a, by simp, h2⟩

theorem tryOpt {f : α → Except ε β} {V : α → ε → Prop} {g : α → β} {o : Option α}
    (h : ∀ a, o = some a → Outcome (f a) (V a) (g a)) :
    Outcome (tryOpt f o) (fun e => ∃ a, o = some a ∧ V a e) (o.map g) := by
  cases o with
  | none => exact ⟨rfl, by simp⟩
  | some a =>
    rw [Wot.tryOpt]
    rcases (h a rfl).ok_or with ⟨h1, h2⟩ | ⟨e, h1, h2⟩
    · simp only [h1]
      exact ⟨rfl, by simpa using h2⟩
    · simp only [h1]
      exact ⟨a, rfl, h2⟩

end Outcome

/-- `Outcome` for `build`, whose failures are errors or panics: it never panics. -/
def OutcomeF (x : Except Failure α) (V : Error → Prop) (r : α) : Prop :=
  match x with
  | .ok a => a = r ∧ ∀ e, ¬ V e
  | .error (.err e) => V e
  | .error .panic => False

namespace OutcomeF

theorem orFail {x : Except Error α} {V : Error → Prop} {r : α} (h : Outcome x V r) :
    OutcomeF (orFail x) V r := by cases x <;> exact h

theorem pure (a : α) : OutcomeF (Pure.pure a) (fun _ => False) a := ⟨rfl, fun _ h => h⟩

theorem bind {x : Except Failure α} {V : Error → Prop} {r : α} {f : α → Except Failure β}
    {V' : Error → Prop} {r' : β} (h : OutcomeF x V r) (h' : (∀ e, ¬ V e) → OutcomeF (f r) V' r') :
    OutcomeF (x >>= f) (fun e => V e ∨ V' e) r' := by
  match x, h with
  | .error (.err e), h => exact Or.inl (h : V e)
  | .ok a, h =>
    obtain ⟨rfl, hv⟩ := h
    have := h' hv
    show OutcomeF (f a) _ _
    match hf : f a, this with
    | .ok b, this => exact ⟨this.1, fun e he => he.elim (hv e) (this.2 e)⟩
    | .error (.err e), this => exact Or.inr this

theorem map {x : Except Failure α} {V : Error → Prop} {r : α} (g : α → β) (h : OutcomeF x V r) :
    OutcomeF (do let a ← x; Pure.pure (g a)) V (g r) := by
  match x, h with
  | .ok a, h => exact ⟨congrArg g h.1, h.2⟩
  | .error (.err e), h => exact h

theorem congr {x : Except Failure α} {V V' : Error → Prop} {r r' : α} (h : OutcomeF x V r)
    (hv : ∀ e, V e ↔ V' e) (hr : (∀ e, ¬ V e) → r = r') : OutcomeF x V' r' := by
  match x, h with
  | .ok a, h => exact ⟨h.1.trans (hr h.2), fun e he => h.2 e ((hv e).2 he)⟩
  | .error (.err e), h => exact (hv e).1 h

theorem ok_iff {x : Except Failure α} {V : Error → Prop} {r a : α} (h : OutcomeF x V r) :
    x = .ok a ↔ a = r ∧ ∀ e, ¬ V e := by
  match x, h with
  | .ok b, h =>
    obtain ⟨rfl, hv⟩ := h
    constructor
    · intro h; cases h; exact ⟨rfl, hv⟩
    · rintro ⟨rfl, _⟩; rfl
  | .error (.err e), h =>
    constructor
    · intro h; cases h
    · rintro ⟨_, hv⟩; exact (hv e h).elim

theorem error {x : Except Failure α} {V : Error → Prop} {r : α} (h : OutcomeF x V r) {f : Failure}
    (he : x = .error f) : ∃ e, f = .err e ∧ V e := by
  subst he
  match f, h with
  | .err e, h => exact ⟨e, rfl, h⟩

theorem ok_or {x : Except Failure α} {V : Error → Prop} {r : α} (h : OutcomeF x V r) :
    (x = .ok r ∧ ∀ e, ¬ V e) ∨ ∃ e, x = .error (.err e) ∧ V e := by
  match x, h with
  | .ok a, h => obtain ⟨rfl, hv⟩ := h; exact .inl ⟨rfl, hv⟩
  | .error (.err e), h => exact .inr ⟨e, rfl, h⟩

end OutcomeF

end Wot
