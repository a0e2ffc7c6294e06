import Verif.Spec.Valid
/-
Which sequences of calls can still be continued to one that builds.
-/
namespace Wot

variable {X : ExtTypes}

/-- What the call sets can be replaced by a later call: translations of the Thing, and entries of its maps of schemas. -/
def ThingOp.replaceable : ThingOp X → Bool
  | .common (.titles _) | .common (.descriptions _) | .uriVariable .. | .schemaDefinition .. => true
  | _ => false

/-- The calls whose effect stays. -/
def History.lasting (h : List (ThingOp X)) : List (ThingOp X) := h.filter fun op => !op.replaceable

/-- What is wrong is not wrong for good: all conditions `build` imposes, except that schemes and schemas which are referred to are
defined, and only on what can no longer be replaced. -/
structure History.Completable (env : Env) (h : List (ThingOp X)) : Prop where
  securityNames : ((securities h).map securityName).Nodup
  propertyNames : ((properties h).map (·.1)).Nodup
  actionNames : ((actions h).map (·.1)).Nodup
  eventNames : ((events h).map (·.1)).Nodup
  thingForms : ∀ f, .form f ∈ h → f.op ≠ .default
  operations : ∀ ctx f o, HasForm h ctx f → f.HasOp o → o ∈ operationsOf ctx
  schemas : ∀ p s, Position.Checked p → HasSchema (lasting h) p s → AllRules s
  uriVariables : ∀ s, HasSchema (lasting h) .uriVariable s → ¬ s.ArrayOrObject
  languages : ∀ k, LangKey (lasting h) k → ∃ t, env.langParse k = some t
  linkSizes : ∀ l ∈ links h, l.sizes ≠ none → l.rel = some "icon"

/-- The error is about something no later call changes. -/
def Error.Lasting : Error → Prop
  | .duplicatedSecurityDefinition _ | .missingOpInForm | .invalidOpInForm .. | .invalidMinMax | .nanMinMax
  | .invalidMultipleOf | .duplicatedAffordance .. | .sizesWithRelNotIcon => True
  | .undefinedSecurity _ | .missingSchemaDefinition _ | .invalidUriVariables | .invalidLanguageTag _ => False

end Wot
