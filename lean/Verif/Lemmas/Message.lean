import Verif.Model.Message
namespace Wot

/-- The first nine characters of a message tell the kinds of errors apart. -/
def Error.kind : Error → Nat
  | .duplicatedSecurityDefinition _ => 0
  | .missingOpInForm => 1
  | .invalidOpInForm _ _ => 2
  | .undefinedSecurity _ => 3
  | .invalidMinMax => 4
  | .nanMinMax => 5
  | .duplicatedAffordance _ _ => 6
  | .invalidMultipleOf => 7
  | .missingSchemaDefinition _ => 8
  | .invalidUriVariables => 9
  | .invalidLanguageTag _ => 10
  | .sizesWithRelNotIcon => 11

def kindHead : Nat → List Char
  | 0 => "Two secur".toList
  | 1 => "A Form di".toList
  | 2 => "Invalid F".toList
  | 3 => "Security ".toList
  | 4 => "Min value".toList
  | 5 => "Min or Ma".toList
  | 6 => "Two affor".toList
  | 7 => "\"multiple".toList
  | 8 => "Using the".toList
  | 9 => "An uriVar".toList
  | 10 => "Invalid l".toList
  | _ => "A sizes f".toList

theorem message_duplicatedSecurityDefinition (name : String) :
    (Error.duplicatedSecurityDefinition name).message =
      "Two security definitions use the name \"" ++ name ++ "\"" := rfl

theorem message_missingOpInForm :
    (Error.missingOpInForm).message =
      "A Form directly placed in a Thing must contain at least one relevant operation" := rfl

theorem message_invalidOpInForm (context : FormContext) (operation : FormOperation) :
    (Error.invalidOpInForm context operation).message =
      "Invalid Form operation " ++ operation.display ++ " in " ++ context.display ++ " context" := rfl

theorem message_undefinedSecurity (name : String) :
    (Error.undefinedSecurity name).message =
      "Security \"" ++ name ++ "\" is not specified in Thing security definitions" := rfl

theorem message_invalidMinMax :
    (Error.invalidMinMax).message =
      "Min value greater than max value" := rfl

theorem message_nanMinMax :
    (Error.nanMinMax).message =
      "Min or Max value is NaN" := rfl

theorem message_duplicatedAffordance (ty : AffordanceType) (name : String) :
    (Error.duplicatedAffordance ty name).message =
      "Two affordances of type " ++ ty.display ++ " use the name \"" ++ name ++ "\"" := rfl

theorem message_invalidMultipleOf :
    (Error.invalidMultipleOf).message =
      "\"multipleOf\" field must be strictly greater than 0" := rfl

theorem message_missingSchemaDefinition (name : String) :
    (Error.missingSchemaDefinition name).message =
      "Using the data schema \"" ++ name ++ "\", which is not declared in the schema definitions" := rfl

theorem message_invalidUriVariables :
    (Error.invalidUriVariables).message =
      "An uriVariable cannot be an ObjectSchema or ArraySchema" := rfl

theorem message_invalidLanguageTag (tag : String) :
    (Error.invalidLanguageTag tag).message =
      "Invalid language tag \"" ++ tag ++ "\"" := rfl

theorem message_sizesWithRelNotIcon :
    (Error.sizesWithRelNotIcon).message =
      "A sizes field can be used only when \"rel\" is \"icon\"" := rfl

theorem take_head {a b : String} {n : Nat} {l : List Char} (hn : n ≤ a.toList.length)
    (h : a.toList.take n = l) : (a ++ b).toList.take n = l := by
  rw [String.toList_append, List.take_append_of_le_length hn, h]

theorem Error.head (e : Error) : e.message.toList.take 9 = kindHead e.kind := by
  cases e with
  | duplicatedSecurityDefinition name =>
    rw [message_duplicatedSecurityDefinition]
    simp only [String.append_assoc]
    exact take_head (by decide +kernel) (by simp only [Error.kind]; decide +kernel)
  | missingOpInForm => rw [message_missingOpInForm]; decide +kernel
  | invalidOpInForm context operation =>
    rw [message_invalidOpInForm]
    simp only [String.append_assoc]
    exact take_head (by decide +kernel) (by simp only [Error.kind]; decide +kernel)
  | undefinedSecurity name =>
    rw [message_undefinedSecurity]
    simp only [String.append_assoc]
    exact take_head (by decide +kernel) (by simp only [Error.kind]; decide +kernel)
  | invalidMinMax => rw [message_invalidMinMax]; decide +kernel
  | nanMinMax => rw [message_nanMinMax]; decide +kernel
  | duplicatedAffordance ty name =>
    rw [message_duplicatedAffordance]
    simp only [String.append_assoc]
    exact take_head (by decide +kernel) (by simp only [Error.kind]; decide +kernel)
  | invalidMultipleOf => rw [message_invalidMultipleOf]; decide +kernel
  | missingSchemaDefinition name =>
    rw [message_missingSchemaDefinition]
    simp only [String.append_assoc]
    exact take_head (by decide +kernel) (by simp only [Error.kind]; decide +kernel)
  | invalidUriVariables => rw [message_invalidUriVariables]; decide +kernel
  | invalidLanguageTag tag =>
    rw [message_invalidLanguageTag]
    simp only [String.append_assoc]
    exact take_head (by decide +kernel) (by simp only [Error.kind]; decide +kernel)
  | sizesWithRelNotIcon => rw [message_sizesWithRelNotIcon]; decide +kernel

theorem Error.kind_lt (e : Error) : e.kind < 12 := by cases e <;> simp [Error.kind]

theorem kindHead_inj : ∀ a < 12, ∀ b < 12, kindHead a = kindHead b → a = b := by decide

theorem Error.kind_eq {e e' : Error} (h : e.message = e'.message) : e.kind = e'.kind :=
  kindHead_inj _ e.kind_lt _ e'.kind_lt (by rw [← e.head, ← e'.head, h])

/-- A text up to the first space is determined. -/
theorem split_space {a b s t : List Char} (ha : ' ' ∉ a) (hb : ' ' ∉ b) (h : a ++ ' ' :: s = b ++ ' ' :: t) :
    a = b ∧ s = t := by
  induction a generalizing b with
  | nil =>
    cases b with
    | nil => simpa using h
    | cons y b =>
      simp only [List.nil_append, List.cons_append, List.cons.injEq] at h
      exact absurd (List.mem_cons.2 (.inl h.1)) hb
  | cons x a ih =>
    cases b with
    | nil =>
      simp only [List.nil_append, List.cons_append, List.cons.injEq] at h
      exact absurd (List.mem_cons.2 (.inl h.1.symm)) ha
    | cons y b =>
      simp only [List.cons_append, List.cons.injEq] at h
      obtain ⟨r1, r2⟩ := ih (fun m => ha (.tail _ m)) (fun m => hb (.tail _ m)) h.2
      exact ⟨by rw [h.1, r1], r2⟩

theorem FormOperation.no_space (o : FormOperation) : ' ' ∉ o.display.toList := by cases o <;> decide

theorem FormContext.no_space (c : FormContext) : ' ' ∉ c.display.toList := by cases c <;> decide

theorem AffordanceType.no_space (c : AffordanceType) : ' ' ∉ c.display.toList := by cases c <;> decide

theorem FormContext.display_inj {c d : FormContext} (h : c.display = d.display) : c = d := by
  cases c <;> cases d <;> first | rfl | exact absurd h (by decide)

theorem AffordanceType.display_inj {c d : AffordanceType} (h : c.display = d.display) : c = d := by
  cases c <;> cases d <;> first | rfl | exact absurd h (by decide)

theorem start_inj {a s t : String} (h : a ++ s = a ++ t) : s = t := by
  rw [← String.toList_inj, String.toList_append, String.toList_append] at h
  exact String.toList_inj.1 (List.append_cancel_left h)

theorem end_inj {a s t : String} (h : s ++ a = t ++ a) : s = t := by
  rw [← String.toList_inj, String.toList_append, String.toList_append] at h
  exact String.toList_inj.1 (List.append_cancel_right h)

theorem middle_inj {a b s t : String} (h : a ++ s ++ b = a ++ t ++ b) : s = t := start_inj (end_inj h)

/-- A word is determined by a text that continues with a space. -/
theorem word_inj {w v s t : String} (a : String) (ha : a.toList.head? = some ' ') (hw : ' ' ∉ w.toList)
    (hv : ' ' ∉ v.toList) (h : w ++ (a ++ s) = v ++ (a ++ t)) : w = v ∧ s = t := by
  obtain ⟨l, ha⟩ := List.head?_eq_some_iff.1 ha
  rw [← String.toList_inj] at h
  simp only [String.toList_append, ha, List.cons_append] at h
  obtain ⟨h1, h2⟩ := split_space hw hv h
  exact ⟨String.toList_inj.1 h1, String.toList_inj.1 (List.append_cancel_left h2)⟩

theorem quoted {a b : String} (n p q : String) (ha : a = p ++ "\"") (hb : b = "\"" ++ q) :
    a ++ n ++ b = p ++ ("\"" ++ n ++ "\"") ++ q := by
  simp only [ha, hb, String.append_assoc]

end Wot
