import Verif.Spec.Valid
import Verif.Model.Codec
/-
What error messages have to contain, and what they say (C59).
-/
namespace Wot

/-- The text `m` contains the text `s`. -/
def Mentions (m s : String) : Prop := ∃ a b, m = a ++ s ++ b

/-- The name an error is about, as the user wrote it. -/
def Error.culprit : Error → Option String
  | .duplicatedSecurityDefinition name => some name
  | .undefinedSecurity name => some name
  | .duplicatedAffordance _ name => some name
  | .missingSchemaDefinition name => some name
  | .invalidLanguageTag tag => some tag
  | _ => none

/-- The sentences without a name in them. `History.MessageTrue` below says when each is true. -/
def plainSentences : List String :=
  ["A Form directly placed in a Thing must contain at least one relevant operation",
   "Min value greater than max value",
   "Min or Max value is NaN",
   "\"multipleOf\" field must be strictly greater than 0",
   "An uriVariable cannot be an ObjectSchema or ArraySchema",
   "A sizes field can be used only when \"rel\" is \"icon\""]

/-- What comes before and after the name in a sentence that has one. -/
def namingSentences : List (String × String) :=
  [("Two security definitions use the name \"", "\""),
   ("Security \"", "\" is not specified in Thing security definitions"),
   ("Two affordances of type property use the name \"", "\""),
   ("Two affordances of type action use the name \"", "\""),
   ("Two affordances of type event use the name \"", "\""),
   ("Using the data schema \"", "\", which is not declared in the schema definitions"),
   ("Invalid language tag \"", "\"")]

/-- What comes after the operation. -/
def operationSentences : List String :=
  [" in Thing context", " in PropertyAffordance context", " in ActionAffordance context",
   " in EventAffordance context"]

namespace History
variable {X : ExtTypes}

/-- What the message `m` says, read as English, is so for what was supplied by the calls `h`. -/
structure MessageTrue (env : Env) (h : List (ThingOp X)) (m : String) : Prop where
  security : ∀ n, m = "Two security definitions use the name \"" ++ n ++ "\"" →
    Twice ((securities h).map securityName) n
  missingOperation : m = "A Form directly placed in a Thing must contain at least one relevant operation" →
    ∃ f, .form f ∈ h ∧ f.op = .default
  thingOperation : ∀ o : FormOperation, m = "Invalid Form operation " ++ o.display ++ " in Thing context" →
    ∃ f, .form f ∈ h ∧ f.HasOp o ∧ o ∉ operationsOf .thing
  propertyOperation : ∀ o : FormOperation,
    m = "Invalid Form operation " ++ o.display ++ " in PropertyAffordance context" →
    ∃ n p f, .property n p ∈ h ∧ f ∈ p.interaction.forms ∧ f.HasOp o ∧ o ∉ operationsOf .property
  actionOperation : ∀ o : FormOperation,
    m = "Invalid Form operation " ++ o.display ++ " in ActionAffordance context" →
    ∃ n a f, .action n a ∈ h ∧ f ∈ a.interaction.part.forms ∧ f.HasOp o ∧ o ∉ operationsOf .action
  eventOperation : ∀ o : FormOperation,
    m = "Invalid Form operation " ++ o.display ++ " in EventAffordance context" →
    ∃ n e f, .event n e ∈ h ∧ f ∈ e.interaction.part.forms ∧ f.HasOp o ∧ o ∉ operationsOf .event
  undefinedSecurity : ∀ n, m = "Security \"" ++ n ++ "\" is not specified in Thing security definitions" →
    ¬ Defines h n ∧ ∃ ctx f, HasForm h ctx f ∧ f.UsesSecurity n
  minMax : m = "Min value greater than max value" → ∃ p s x, HasSchema h p s ∧ Within x s ∧ BadBounds x
  nan : m = "Min or Max value is NaN" → ∃ p s x, HasSchema h p s ∧ Within x s ∧ NanBound x
  property : ∀ n, m = "Two affordances of type property use the name \"" ++ n ++ "\"" →
    Twice ((properties h).map (·.1)) n
  action : ∀ n, m = "Two affordances of type action use the name \"" ++ n ++ "\"" →
    Twice ((actions h).map (·.1)) n
  event : ∀ n, m = "Two affordances of type event use the name \"" ++ n ++ "\"" →
    Twice ((events h).map (·.1)) n
  multipleOf : m = "\"multipleOf\" field must be strictly greater than 0" →
    ∃ p s x, HasSchema h p s ∧ Within x s ∧ BadMultipleOf x
  dataSchema : ∀ n, m = "Using the data schema \"" ++ n ++ "\", which is not declared in the schema definitions" →
    ¬ Declares h n ∧ ∃ ctx f, HasForm h ctx f ∧ f.UsesSchema n
  uriVariable : m = "An uriVariable cannot be an ObjectSchema or ArraySchema" →
    ∃ s, HasSchema h .uriVariable s ∧ s.ArrayOrObject
  language : ∀ k, m = "Invalid language tag \"" ++ k ++ "\"" → LangKey h k ∧ env.langParse k = none
  sizes : m = "A sizes field can be used only when \"rel\" is \"icon\"" →
    ∃ l ∈ links h, l.sizes ≠ none ∧ l.rel ≠ some "icon"

end History
end Wot
