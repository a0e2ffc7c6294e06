import Verif.Lemmas.Members
import Verif.Props.Languages
/-
C17 Build is exactly its documented validation
C18 Errors tell the truth
C19 Build result does not depend on hash-map iteration order
C42 Which error is reported

`History.Valid env h` lists the conditions, `History.Violates env h e` says what an error claims about
the calls `h`, and `History.Fault env h p e` does so for one phase of the validation (Spec/Valid).
-/
namespace Wot

variable {X : ExtTypes} {title : String} {h : List (ThingOp X)} {b : ThingBuilder X} {env env' : Env}

/-! ### C17, C18 -/

/-- `build` succeeds exactly if all conditions hold of what was supplied. -/
theorem C17_exact (hr : Reachable X title h b) (env : Env) :
    (∃ t, b.build env = .ok t) ↔ History.Valid env h :=
  ⟨fun ⟨_, ht⟩ => hr.valid_of_build ht, fun hv => ⟨_, hr.build_of_valid hv⟩⟩

/-- Otherwise it returns an error. -/
theorem C17_fails (hr : Reachable X title h b) (env : Env) :
    (∃ e, b.build env = .error (.err e)) ↔ ¬ History.Valid env h := by
  rcases hr.outcome env with ⟨⟨t, h1⟩, h2, -⟩ | ⟨⟨e, h1, -⟩, h2⟩
  · exact ⟨fun ⟨e, he⟩ => (by rw [h1] at he; cases he), fun hn => absurd h2 hn⟩
  · exact ⟨fun _ => h2, fun _ => ⟨e, h1⟩⟩

/-- It never panics. -/
theorem C17_no_panic (hr : Reachable X title h b) (env : Env) : b.build env ≠ .error .panic := by
  intro hp
  rcases hr.outcome env with ⟨⟨t, h1⟩, -⟩ | ⟨⟨e, h1, -⟩, -⟩
  · rw [h1] at hp; cases hp
  · rw [h1] at hp; cases hp

/-- An error returned by `build` describes a violation that is present. -/
theorem C18_truthful (hr : Reachable X title h b) {e : Error} (hb : b.build env = .error (.err e)) :
    History.Violates env h e := by
  rcases hr.outcome env with ⟨⟨t, h1⟩, -⟩ | ⟨⟨e', h1, h2⟩, -⟩
  · rw [h1] at hb; cases hb
  · rw [h1] at hb; cases hb; exact h2

/-- Conversely, nothing of what the errors describe is ever accepted: the conditions are exactly the
absence of all violations. -/
theorem C18_complete (hr : Reachable X title h b) (env : Env) :
    History.Valid env h ↔ ∀ e, ¬ History.Violates env h e := by
  rcases hr.outcome env with ⟨-, h1, h2⟩ | ⟨⟨e, -, h1⟩, h2⟩
  · exact ⟨fun _ => h2, fun _ => h1⟩
  · exact ⟨fun h => absurd h h2, fun h => absurd h1 (h e)⟩

/-! ### C19 -/

/-- Whether `build` succeeds does not depend on the iteration order. -/
theorem C19_success (hr : Reachable X title h b) (hl : env.langParse = env'.langParse) :
    (∃ t, b.build env = .ok t) ↔ ∃ t, b.build env' = .ok t := by
  rw [C17_exact hr, C17_exact hr, valid_congr hl]

/-- If no two languages of a group of translations parse to the same tag, the Thing does not depend on
the iteration order either. -/
theorem C19_thing (hr : Reachable X title h b) (hl : env.langParse = env'.langParse)
    (hd : ∀ u, History.HasTranslations h u → DistinctTags env u) {t : Thing X}
    (hb : b.build env = .ok t) : b.build env' = .ok t := by
  have hv := hr.valid_of_build hb
  rw [hr.build_of_valid hv] at hb
  rw [hr.build_of_valid ((valid_congr hl).1 hv), ← hr.result_congr hl fun u hu =>
    langResult_congr hl (hr.sortedTranslations hu)
      (fun k hk => hv.languages k (langKey_iff.2 (.inl ⟨u, hu, hk⟩))) (hd u hu), hb]

/-- What is wrong does not depend on the iteration order: an error returned with one order describes a
violation with every other order as well. -/
theorem C19_errors (hr : Reachable X title h b) (hl : env.langParse = env'.langParse) {e : Error}
    (hb : b.build env = .error (.err e)) :
    History.Violates env' h e ∧ ∃ e', b.build env' = .error (.err e') := by
  have hv := C18_truthful hr hb
  have : History.Violates env' h e := by
    cases e with
    | invalidLanguageTag k => exact ⟨hv.1, hl ▸ hv.2⟩
    | duplicatedAffordance ty n => cases ty <;> exact hv
    | _ => exact hv
  exact ⟨this, (hr.fails this).imp fun _ => And.left⟩

/-! ### C42 -/

/-- The error describes something that is wrong in the first phase in which anything is wrong. -/
theorem C42_first (hr : Reachable X title h b) {e : Error} (hb : b.build env = .error (.err e)) :
    ∃ p, History.Fault env h p e ∧ History.NothingBefore env h p := hr.first_fault hb

/-- If something is wrong in a phase and nothing before it, an error from this phase is returned. -/
theorem C42_reported (hr : Reachable X title h b) {p : Phase} {e : Error}
    (hf : History.Fault env h p e) (hn : History.NothingBefore env h p) :
    ∃ e', b.build env = .error (.err e') ∧ History.Fault env h p e' := hr.fails_in hf hn

/-- The phases together cover exactly the violations. -/
theorem C42_phases (hr : Reachable X title h b) {e : Error} :
    (∃ p, History.Fault env h p e) ↔ History.Violates env h e := hr.fault_iff

/-! ### Concrete cases -/

example : History.Valid Demo.env Demo.history ∧ History.Valid Demo.envRev Demo.history :=
  ⟨Demo.history_valid _ fun k => ⟨k, rfl⟩, Demo.history_valid _ fun k => ⟨k, rfl⟩⟩

/-- The example Thing is the same with the opposite iteration order. -/
example : Demo.builder.build Demo.envRev = .ok Demo.thing :=
  C19_thing Demo.reachable (env := Demo.env) (env' := Demo.envRev) rfl
    (fun _ _ _ _ _ _ he => Option.some.inj he) Demo.built

end Wot

namespace Wot.Demo

/-- Two things are wrong: a language of a security scheme, and the scheme of a form is not defined. -/
def wrongHistory : List (ThingOp X) :=
  [.form (form "/all" [.op .readAllProperties, .security "digest"]), .common (.security basic)]

theorem wrong_reachable : Reachable X "Lamp" wrongHistory (run wrongHistory) :=
  run_reachable _ (by
    intro op h
    simp only [wrongHistory, List.mem_cons, List.not_mem_nil, or_false] at h
    rcases h with rfl | rfl
    · exact form_built _ _
    · exact ⟨[.basic, .required, .descriptions [("en", "user and password")]], rfl⟩)

end Wot.Demo

namespace Wot

/-- The security definitions come first. -/
example : (Demo.run Demo.wrongHistory).build Demo.envNone =
    .error (.err (.invalidLanguageTag "en")) := rfl

example : (Demo.run Demo.wrongHistory).build Demo.env =
    .error (.err (.undefinedSecurity "digest")) := rfl

example : History.Fault Demo.envNone Demo.wrongHistory .securityDefinitions (.invalidLanguageTag "en") ∧
    History.Fault Demo.envNone Demo.wrongHistory .thingForms (.undefinedSecurity "digest") := by
  constructor
  · exact .inl ⟨Demo.basic, by simp [Demo.wrongHistory, History.securities], "en",
      ⟨_, rfl, by decide⟩, rfl, rfl⟩
  · obtain ⟨p, hp, -⟩ := C42_first Demo.wrong_reachable
      (show (Demo.run Demo.wrongHistory).build Demo.env = .error (.err (.undefinedSecurity "digest")) from rfl)
    cases p with
    | thingForms => exact hp
    | securityDefinitions => obtain ⟨_, _, _, _, _, h⟩ | ⟨_, h, _⟩ := hp <;> cases h
    | comboReferences => obtain ⟨_, _, _, _, _, h⟩ := hp; cases h
    | schemaDefinitions => obtain ⟨_, _, _, _, _, h⟩ := hp; cases h
    | uriVariableTypes => cases hp.1
    | uriVariableLanguages => obtain ⟨_, _, h, _⟩ := hp; cases h
    | properties =>
      obtain ⟨n, p, h, _⟩ | ⟨_, h, _⟩ := hp
      · simp [Demo.wrongHistory] at h
      · cases h
    | actions =>
      obtain ⟨n, p, h, _⟩ | ⟨_, h, _⟩ := hp
      · simp [Demo.wrongHistory] at h
      · cases h
    | events =>
      obtain ⟨n, p, h, _⟩ | ⟨_, h, _⟩ := hp
      · simp [Demo.wrongHistory] at h
      · cases h
    | links => obtain ⟨l, h, _⟩ := hp; simp [Demo.wrongHistory, History.links] at h
    | titles => obtain ⟨_, h, _⟩ := hp; cases h
    | descriptions => obtain ⟨_, h, _⟩ := hp; cases h

end Wot
