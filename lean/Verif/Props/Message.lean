import Verif.Lemmas.Message
import Verif.Spec.Message
import Verif.Props.Build
import Verif.Props.Pieces
/-
C59: an error message says what is wrong.
-/
namespace Wot
variable {X : ExtTypes} {env : Env} {title : String} {h : List (ThingOp X)} {b : ThingBuilder X}

/-- Different errors have different messages: the message alone tells which error occurred, and with which name,
operation and context. -/
theorem C59_distinct {e e' : Error} (h : e.message = e'.message) : e = e' := by
  have hk := Error.kind_eq h
  cases e <;> cases e' <;> simp only [Error.kind, reduceCtorEq, Nat.reduceEqDiff] at hk
  case duplicatedSecurityDefinition.duplicatedSecurityDefinition n m =>
    rw [message_duplicatedSecurityDefinition, message_duplicatedSecurityDefinition] at h
    rw [middle_inj h]
  case invalidOpInForm.invalidOpInForm c o c' o' =>
    rw [message_invalidOpInForm, message_invalidOpInForm] at h
    simp only [String.append_assoc] at h
    obtain ⟨h1, h2⟩ := word_inj " in " (by decide) o.no_space o'.no_space (start_inj h)
    rw [C31_names_distinct h1, FormContext.display_inj (end_inj h2)]
  case undefinedSecurity.undefinedSecurity n m =>
    rw [message_undefinedSecurity, message_undefinedSecurity] at h
    rw [middle_inj h]
  case duplicatedAffordance.duplicatedAffordance t n t' m =>
    rw [message_duplicatedAffordance, message_duplicatedAffordance] at h
    simp only [String.append_assoc] at h
    obtain ⟨h1, h2⟩ := word_inj " use the name \"" (by decide) t.no_space t'.no_space (start_inj h)
    rw [AffordanceType.display_inj h1, end_inj h2]
  case missingSchemaDefinition.missingSchemaDefinition n m =>
    rw [message_missingSchemaDefinition, message_missingSchemaDefinition] at h
    rw [middle_inj h]
  case invalidLanguageTag.invalidLanguageTag n m =>
    rw [message_invalidLanguageTag, message_invalidLanguageTag] at h
    rw [middle_inj h]
  all_goals rfl

/-- Two errors about the same name are told apart. -/
example : (Error.duplicatedAffordance .property "on").message ≠ (Error.duplicatedAffordance .action "on").message :=
  fun h => absurd (C59_distinct h) (by decide)

private theorem says (hr : Reachable X title h b) {e : Error} (hb : b.build env = .error (.err e)) (e' : Error)
    (hm : e.message = e'.message) : History.Violates env h e' :=
  C59_distinct hm ▸ C18_truthful hr hb

private theorem operation_text {o : FormOperation} {c : FormContext} {s : String}
    (hs : s = " in " ++ c.display ++ " context") :
    "Invalid Form operation " ++ o.display ++ s = (Error.invalidOpInForm c o).message := by
  rw [message_invalidOpInForm, hs]
  simp only [String.append_assoc]

private theorem affordance_text {n : String} {ty : AffordanceType} {s : String}
    (hs : s = "Two affordances of type " ++ ty.display ++ " use the name \"") :
    s ++ n ++ "\"" = (Error.duplicatedAffordance ty n).message := by
  rw [message_duplicatedAffordance, hs]

/-- The name that is wrong stands in the message, between quotation marks. -/
theorem C59_culprit {e : Error} {n : String} (hn : e.culprit = some n) :
    Mentions e.message ("\"" ++ n ++ "\"") := by
  cases e <;> simp only [Error.culprit, reduceCtorEq, Option.some.injEq] at hn <;> subst hn
  case duplicatedSecurityDefinition n =>
    exact ⟨"Two security definitions use the name ", "", quoted n _ _ (by decide +kernel) (by decide +kernel)⟩
  case undefinedSecurity n =>
    exact ⟨"Security ", " is not specified in Thing security definitions",
      quoted n _ _ (by decide +kernel) (by decide +kernel)⟩
  case duplicatedAffordance t n =>
    exact ⟨"Two affordances of type " ++ t.display ++ " use the name ", "",
      quoted n _ _ (by cases t <;> decide +kernel) (by decide +kernel)⟩
  case missingSchemaDefinition n =>
    exact ⟨"Using the data schema ", ", which is not declared in the schema definitions",
      quoted n _ _ (by decide +kernel) (by decide +kernel)⟩
  case invalidLanguageTag n =>
    exact ⟨"Invalid language tag ", "", quoted n _ _ (by decide +kernel) (by decide +kernel)⟩

/-- The hypothesis is met. -/
example : Mentions (Error.undefinedSecurity "my scheme").message ("\"" ++ "my scheme" ++ "\"") := C59_culprit rfl

/-- The message about an operation mentions the operation under its name in a Thing Description. -/
theorem C59_operation (c : FormContext) (o : FormOperation) {s : String} (hs : serOperation o = .str s) :
    Mentions (Error.invalidOpInForm c o).message (" " ++ s ++ " ") := by
  rw [C31_display] at hs
  cases hs
  refine ⟨"Invalid Form operation", "in " ++ c.display ++ " context", ?_⟩
  rw [message_invalidOpInForm]
  have h1 : "Invalid Form operation " = "Invalid Form operation" ++ " " := by decide +kernel
  have h2 : " in " = " " ++ "in " := by decide +kernel
  rw [h1, h2]
  simp only [String.append_assoc]

/-- Every message is one of the sentences listed in `Spec/Message`. -/
theorem C59_listed (e : Error) : e.message ∈ plainSentences ∨
    (∃ n, ∃ p ∈ namingSentences, e.message = p.1 ++ n ++ p.2) ∨
    ∃ o : FormOperation, ∃ p ∈ operationSentences, e.message = "Invalid Form operation " ++ o.display ++ p := by
  cases e with
  | missingOpInForm | invalidMinMax | nanMinMax | invalidMultipleOf | invalidUriVariables | sizesWithRelNotIcon =>
    exact .inl (by decide +kernel)
  | duplicatedSecurityDefinition name => exact .inr (.inl ⟨name, _, List.getElem_mem (l := namingSentences) (n := 0) (by decide), rfl⟩)
  | undefinedSecurity name => exact .inr (.inl ⟨name, _, List.getElem_mem (l := namingSentences) (n := 1) (by decide), rfl⟩)
  | duplicatedAffordance ty name =>
    refine .inr (.inl ⟨name, ?_⟩)
    cases ty
    · exact ⟨_, List.getElem_mem (l := namingSentences) (n := 2) (by decide), (affordance_text (ty := .property) (by decide +kernel)).symm⟩
    · exact ⟨_, List.getElem_mem (l := namingSentences) (n := 3) (by decide), (affordance_text (ty := .action) (by decide +kernel)).symm⟩
    · exact ⟨_, List.getElem_mem (l := namingSentences) (n := 4) (by decide), (affordance_text (ty := .event) (by decide +kernel)).symm⟩
  | missingSchemaDefinition name => exact .inr (.inl ⟨name, _, List.getElem_mem (l := namingSentences) (n := 5) (by decide), rfl⟩)
  | invalidLanguageTag tag => exact .inr (.inl ⟨tag, _, List.getElem_mem (l := namingSentences) (n := 6) (by decide), rfl⟩)
  | invalidOpInForm context operation =>
    refine .inr (.inr ⟨operation, " in " ++ context.display ++ " context", ?_, ?_⟩)
    · cases context <;> decide +kernel
    · rw [message_invalidOpInForm]; simp only [String.append_assoc]

/-- What the message of a failed `build` says is so, provided that the combinations of security schemes only list
defined schemes. What is missing: without this condition the message can be wrong, see `C59_combination`. -/
theorem C59_true_partial (hr : Reachable X title h b) {e : Error} (hb : b.build env = .error (.err e))
    (hc : ∀ s ∈ History.securities h, ∀ n, s.subtype.References n → History.Defines h n) :
    History.MessageTrue env h e.message where
  security n hm := says hr hb (.duplicatedSecurityDefinition n) hm
  missingOperation hm := says hr hb .missingOpInForm hm
  thingOperation o hm := by
    obtain ⟨h1, f, h2, h3⟩ := says hr hb (.invalidOpInForm .thing o)
      (hm.trans (operation_text (c := .thing) (by decide +kernel)))
    cases h2 with | thing h2 => exact ⟨f, h2, h3, h1⟩
  propertyOperation o hm := by
    obtain ⟨h1, f, h2, h3⟩ := says hr hb (.invalidOpInForm .property o)
      (hm.trans (operation_text (c := .property) (by decide +kernel)))
    cases h2 with | property h2 h2' => exact ⟨_, _, f, h2, h2', h3, h1⟩
  actionOperation o hm := by
    obtain ⟨h1, f, h2, h3⟩ := says hr hb (.invalidOpInForm .action o)
      (hm.trans (operation_text (c := .action) (by decide +kernel)))
    cases h2 with | action h2 h2' => exact ⟨_, _, f, h2, h2', h3, h1⟩
  eventOperation o hm := by
    obtain ⟨h1, f, h2, h3⟩ := says hr hb (.invalidOpInForm .event o)
      (hm.trans (operation_text (c := .event) (by decide +kernel)))
    cases h2 with | event h2 h2' => exact ⟨_, _, f, h2, h2', h3, h1⟩
  undefinedSecurity n hm := says hr hb (.undefinedSecurity n) hm
  minMax hm := by
    obtain ⟨p, s, x, -, h1⟩ := says hr hb .invalidMinMax hm
    exact ⟨p, s, x, h1⟩
  nan hm := by
    obtain ⟨p, s, x, -, h1⟩ := says hr hb .nanMinMax hm
    exact ⟨p, s, x, h1⟩
  property n hm := says hr hb (.duplicatedAffordance .property n)
    (hm.trans (affordance_text (ty := .property) (by decide +kernel)))
  action n hm := says hr hb (.duplicatedAffordance .action n)
    (hm.trans (affordance_text (ty := .action) (by decide +kernel)))
  event n hm := says hr hb (.duplicatedAffordance .event n)
    (hm.trans (affordance_text (ty := .event) (by decide +kernel)))
  multipleOf hm := by
    obtain ⟨p, s, x, -, h1⟩ := says hr hb .invalidMultipleOf hm
    exact ⟨p, s, x, h1⟩
  dataSchema n hm := by
    rcases says hr hb (.missingSchemaDefinition n) hm with ⟨h1, f, h2, h3⟩ | ⟨h1, s, h2, h3⟩
    · exact ⟨h1, .thing, f, .thing h2, h3⟩
    · exact absurd (hc s h2 n h3) h1
  uriVariable hm := says hr hb .invalidUriVariables hm
  language k hm := says hr hb (.invalidLanguageTag k) hm
  sizes hm := says hr hb .sizesWithRelNotIcon hm

/-- The hypotheses are met: two definitions with the same name, and a message that says so. -/
example : Reachable Demo.X "Lamp" [.common (.security Demo.psk), .common (.security Demo.psk)]
      (Demo.run [.common (.security Demo.psk), .common (.security Demo.psk)]) ∧
    (∀ s ∈ History.securities (X := Demo.X) [.common (.security Demo.psk), .common (.security Demo.psk)],
      ∀ n, s.subtype.References n →
        History.Defines (X := Demo.X) [.common (.security Demo.psk), .common (.security Demo.psk)] n) ∧
    ∃ e, (Demo.run [.common (.security Demo.psk), .common (.security Demo.psk)]).build Demo.env =
        .error (.err e) ∧
      e.message = "Two security definitions use the name \"psk\"" := by
  refine ⟨Demo.run_reachable _ fun op h => ?_, ?_, .duplicatedSecurityDefinition "psk", rfl, by decide +kernel⟩
  · simp only [List.mem_cons, List.not_mem_nil, or_false, or_self] at h
    subst h
    exact ⟨[.psk, .required], rfl⟩
  · rintro s hs n ⟨l, hl, -⟩
    have : s = Demo.psk := by simpa [History.securities] using hs
    subst this
    rcases hl with hl | hl <;> cases hl

/-- A history whose only fault is a combination that lists an undefined security scheme. -/
def Demo.comboOnly : List (ThingOp Demo.X) := [.common (.security Demo.combo), .common (.security Demo.psk)]

/-- The message for such a combination is about a data schema although none is used anywhere: messages are not always
true. -/
theorem C59_combination : Reachable Demo.X "Lamp" Demo.comboOnly (Demo.run Demo.comboOnly) ∧
    ∃ e, (Demo.run Demo.comboOnly).build Demo.env = .error (.err e) ∧
      e.message = "Using the data schema \"basic\", which is not declared in the schema definitions" ∧
      ¬ History.MessageTrue Demo.env Demo.comboOnly e.message := by
  refine ⟨Demo.run_reachable _ fun op h => ?_, .missingSchemaDefinition "basic", rfl, by decide +kernel, fun hm => ?_⟩
  · simp only [Demo.comboOnly, List.mem_cons, List.not_mem_nil, or_false] at h
    rcases h with rfl | rfl
    · exact ⟨[.combo, .allOf ["basic"], .push "psk", .name "both"], rfl⟩
    · exact ⟨[.psk, .required], rfl⟩
  · obtain ⟨-, ctx, f, hf, -⟩ := hm.dataSchema "basic" rfl
    cases hf <;> simp_all [Demo.comboOnly]

end Wot
