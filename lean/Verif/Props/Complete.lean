import Verif.Lemmas.Complete
import Verif.Props.Together
/-
C82: which builders can still be completed.
-/
namespace Wot

variable {X : ExtTypes} {title : String} {h : List (ThingOp X)} {b : ThingBuilder X} {env : Env}

/-- C82: some continuation of the calls builds exactly if nothing is wrong for good. (The extension of data schemas has a value: otherwise
no schema can be supplied.) -/
theorem C82_completable (hr : Reachable X title h b) (d : X.dataSchema) (env : Env) :
    (∃ h' b' t, Reachable X title (h ++ h') b' ∧ b'.build env = .ok t) ↔ History.Completable env h := by
  constructor
  · rintro ⟨h', b', t, hr', hb⟩
    exact completable_of_valid (hr'.valid_of_build hb)
  · intro hc
    obtain ⟨h', hbuilt, hv⟩ := exists_completion d hc
    have hr' : Reachable X title (h ++ h') (b.run h') := hr.run hbuilt
    obtain ⟨t, hb⟩ := (C17_exact hr' env).2 hv
    exact ⟨h', _, t, hr', hb⟩

/-- C82: after most errors, no further calls help. -/
theorem C82_lasting (hr : Reachable X title h b) {e : Error} (he : b.build env = .error (.err e)) (hl : e.Lasting)
    {h' : List (ThingOp X)} {b' : ThingBuilder X} (hr' : Reachable X title (h ++ h') b') :
    ∃ e', b'.build env = .error (.err e') := by
  rw [C17_fails hr' env, C18_complete hr' env]
  exact fun hn => hn e (violates_left hl (C18_truthful hr he))

/-! ### Examples -/

/-- A URI variable that is an array can be replaced; one of an action cannot. -/
theorem C82_variables : ∃ (h₁ h₂ : List (ThingOp Demo.X)) (b₁ b₂ : ThingBuilder Demo.X),
    Reachable Demo.X "Lamp" h₁ b₁ ∧ Reachable Demo.X "Lamp" h₂ b₂ ∧
    b₁.build Demo.env = .error (.err .invalidUriVariables) ∧ b₂.build Demo.env = .error (.err .invalidUriVariables) ∧
    History.Completable Demo.env h₁ ∧ ¬ History.Completable Demo.env h₂ := by
  have hact := Demo.act_built (ops := [.interaction (.uriVariable "q" Demo.vecSchema)]) (by
    intro op ho; cases List.mem_singleton.1 ho; exact Demo.vecSchema_built)
  have hb₁ : ∀ op ∈ ([.uriVariable "q" Demo.vecSchema] : List (ThingOp Demo.X)), op.Built := by
    intro op ho; cases List.mem_singleton.1 ho; exact Demo.vecSchema_built
  have hb₂ : ∀ op ∈ ([.action "a" (Demo.act [.interaction (.uriVariable "q" Demo.vecSchema)])] : List (ThingOp Demo.X)),
      op.Built := by
    intro op ho; cases List.mem_singleton.1 ho; exact hact
  refine ⟨_, _, _, _, Demo.run_reachable _ hb₁, Demo.run_reachable _ hb₂, rfl, rfl, ?_, fun hc => ?_⟩
  · rw [← C82_completable (Demo.run_reachable _ hb₁) ()]
    refine ⟨[.uriVariable "q" Demo.stringSchema], _, _, Demo.run_reachable _ ?_, rfl⟩
    intro op ho
    rcases List.mem_append.1 ho with ho | ho
    · exact hb₁ op ho
    · cases List.mem_singleton.1 ho; exact Demo.stringSchema_built
  · exact hc.uriVariables Demo.vecSchema (.actionUriVariable (k := "q") (mem_lasting.2 ⟨List.mem_cons_self, rfl⟩)
      (.head _)) (.inl ⟨_, rfl⟩)

/-- A form that refers to a scheme and to a schema which are still missing. -/
example : ∃ e, (Demo.run [.form Demo.thingForm]).build Demo.env = .error (.err e) ∧ ¬ e.Lasting ∧
    History.Completable Demo.env [.form Demo.thingForm] := by
  have hbuilt : ∀ op ∈ ([.form Demo.thingForm] : List (ThingOp Demo.X)), op.Built := by
    intro op ho; cases List.mem_singleton.1 ho; exact Demo.form_built _ _
  refine ⟨_, rfl, id, ?_⟩
  rw [← C82_completable (Demo.run_reachable _ hbuilt) ()]
  refine ⟨[.common (.security Demo.basic), .schemaDefinition "err" Demo.objectSchema], _, _,
    Demo.run_reachable _ ?_, rfl⟩
  intro op ho
  simp only [List.mem_append, List.mem_cons, List.not_mem_nil, or_false] at ho
  rcases ho with rfl | rfl | rfl
  · exact Demo.form_built _ _
  · exact ⟨[.basic, .required, .descriptions [("en", "user and password")]], rfl⟩
  · exact Demo.objectSchema_built

/-- The same link twice is fine, the same action is not, whatever follows. -/
example : ∃ b : ThingBuilder Demo.X, Reachable Demo.X "Lamp" [.action "a" (Demo.act []), .action "a" (Demo.act [])] b ∧
    b.build Demo.env = .error (.err (.duplicatedAffordance .action "a")) ∧
    (Error.duplicatedAffordance .action "a").Lasting := by
  refine ⟨_, Demo.run_reachable _ ?_, rfl, trivial⟩
  intro op ho
  simp only [List.mem_cons, List.not_mem_nil, or_false, or_self] at ho
  subst ho
  exact Demo.act_built (by simp)

end Wot
