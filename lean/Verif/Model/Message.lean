import Verif.Model.Codec
/-
The texts of errors: `Display for Error`, generated by `thiserror`, and the `Display` impls it uses.
-/
namespace Wot

/-- `Display for FormContext` (`src/builder.rs:386–397`). -/
def FormContext.display : FormContext → String
  | .thing => "Thing"
  | .property => "PropertyAffordance"
  | .action => "ActionAffordance"
  | .event => "EventAffordance"

/-- `Display for AffordanceType` (`src/builder.rs:422–432`). -/
def AffordanceType.display : AffordanceType → String
  | .property => "property"
  | .action => "action"
  | .event => "event"

/-- `Display for Error` (the `#[error]` attributes in `src/builder.rs:305–366`). -/
def Error.message : Error → String
  | .duplicatedSecurityDefinition name => "Two security definitions use the name \"" ++ name ++ "\""
  | .missingOpInForm => "A Form directly placed in a Thing must contain at least one relevant operation"
  | .invalidOpInForm context operation =>
    "Invalid Form operation " ++ operation.display ++ " in " ++ context.display ++ " context"
  | .undefinedSecurity name => "Security \"" ++ name ++ "\" is not specified in Thing security definitions"
  | .invalidMinMax => "Min value greater than max value"
  | .nanMinMax => "Min or Max value is NaN"
  | .duplicatedAffordance ty name =>
    "Two affordances of type " ++ ty.display ++ " use the name \"" ++ name ++ "\""
  | .invalidMultipleOf => "\"multipleOf\" field must be strictly greater than 0"
  | .missingSchemaDefinition name =>
    "Using the data schema \"" ++ name ++ "\", which is not declared in the schema definitions"
  | .invalidUriVariables => "An uriVariable cannot be an ObjectSchema or ArraySchema"
  | .invalidLanguageTag tag => "Invalid language tag \"" ++ tag ++ "\""
  | .sizesWithRelNotIcon => "A sizes field can be used only when \"rel\" is \"icon\""

end Wot
