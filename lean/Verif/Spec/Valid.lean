import Verif.Spec.Thing
import Verif.Spec.Phases
/-
The validity of a call history, and what each error says about it.
-/
namespace Wot

variable {X : ExtTypes}

namespace History

/-- The human readable information given to an affordance. (That of a property is also part of its
data schema.) -/
inductive HasInfo (h : List (ThingOp X)) : HumanReadableInfo → Prop
  | property {n : String} {p : PropertyBuilder X} : .property n p ∈ h → HasInfo h p.info
  | action {n : String} {a : ActionBuilder X} : .action n a ∈ h → HasInfo h a.interaction.info
  | event {n : String} {e : EventBuilder X} : .event n e ∈ h → HasInfo h e.interaction.info

/-- The language keys and tags supplied anywhere (and not overwritten). -/
inductive LangKey (h : List (ThingOp X)) : String → Prop
  | titles {c : List (String × String)} {k : String} :
      lastOf (titles h) = some c → k ∈ c.map (·.1) → LangKey h k
  | descriptions {c : List (String × String)} {k : String} :
      lastOf (descriptions h) = some c → k ∈ c.map (·.1) → LangKey h k
  | security {s : SecuritySchemeBuilder SchemeSubtype} {k : String} :
      s ∈ securities h → KeyOf s.descriptions k → LangKey h k
  | infoTitles {i : HumanReadableInfo} {k : String} :
      HasInfo h i → KeyOf i.titles k → LangKey h k
  | infoDescriptions {i : HumanReadableInfo} {k : String} :
      HasInfo h i → KeyOf i.descriptions k → LangKey h k
  | schema {p : Position} {s : UDS X} {k : String} : HasSchema h p s → SchemaKey s k → LangKey h k
  | hreflang {l : UncheckedLink} {k : String} : l ∈ links h → k ∈ l.hreflang → LangKey h k

/-- All conditions `build` imposes on what was supplied. -/
structure Valid (env : Env) (h : List (ThingOp X)) : Prop where
  /-- security definitions have distinct names -/
  securityNames : ((securities h).map securityName).Nodup
  /-- combo schemes list defined schemes -/
  comboReferences : ∀ s ∈ securities h, ∀ n, s.subtype.References n → Defines h n
  /-- forms use defined schemes -/
  formSecurity : ∀ ctx f n, HasForm h ctx f → f.UsesSecurity n → Defines h n
  /-- Thing-level forms have explicit operations -/
  thingForms : ∀ f, .form f ∈ h → f.op ≠ .default
  /-- forms have the operations of their context -/
  operations : ∀ ctx f o, HasForm h ctx f → f.HasOp o → o ∈ operationsOf ctx
  /-- additional responses of Thing-level forms name declared schemas -/
  responseSchemas : ∀ f n, .form f ∈ h → f.UsesSchema n → Declares h n
  /-- all schemas within the checked ones satisfy the range rules -/
  schemas : ∀ p s, Position.Checked p → HasSchema h p s → AllRules s
  /-- URI variables are no arrays or objects -/
  uriVariables : ∀ s, HasSchema h .uriVariable s → ¬ s.ArrayOrObject
  /-- affordances have distinct names -/
  propertyNames : ((properties h).map (·.1)).Nodup
  actionNames : ((actions h).map (·.1)).Nodup
  eventNames : ((events h).map (·.1)).Nodup
  /-- language tags are accepted by the parser -/
  languages : ∀ k, LangKey h k → ∃ t, env.langParse k = some t
  /-- only icons have sizes -/
  linkSizes : ∀ l ∈ links h, l.sizes ≠ none → l.rel = some "icon"

/-- The error `e` describes a violation that is present in what was supplied. -/
def Violates (env : Env) (h : List (ThingOp X)) : Error → Prop
  | .duplicatedSecurityDefinition n => Twice ((securities h).map securityName) n
  | .missingOpInForm => ∃ f, .form f ∈ h ∧ f.op = .default
  | .invalidOpInForm ctx o => o ∉ operationsOf ctx ∧ ∃ f, HasForm h ctx f ∧ f.HasOp o
  | .undefinedSecurity n => ¬ Defines h n ∧ ∃ ctx f, HasForm h ctx f ∧ f.UsesSecurity n
  | .invalidMinMax => ∃ p s x, Position.Checked p ∧ HasSchema h p s ∧ Within x s ∧ BadBounds x
  | .nanMinMax => ∃ p s x, Position.Checked p ∧ HasSchema h p s ∧ Within x s ∧ NanBound x
  | .invalidMultipleOf =>
      ∃ p s x, Position.Checked p ∧ HasSchema h p s ∧ Within x s ∧ BadMultipleOf x
  | .duplicatedAffordance .property n => Twice ((properties h).map (·.1)) n
  | .duplicatedAffordance .action n => Twice ((actions h).map (·.1)) n
  | .duplicatedAffordance .event n => Twice ((events h).map (·.1)) n
  | .missingSchemaDefinition n =>
      (¬ Declares h n ∧ ∃ f, .form f ∈ h ∧ f.UsesSchema n) ∨
      (¬ Defines h n ∧ ∃ s ∈ securities h, s.subtype.References n)
  | .invalidUriVariables => ∃ s, HasSchema h .uriVariable s ∧ s.ArrayOrObject
  | .invalidLanguageTag k => LangKey h k ∧ env.langParse k = none
  | .sizesWithRelNotIcon => ∃ l ∈ links h, l.sizes ≠ none ∧ l.rel ≠ some "icon"

/-- What can be wrong with the interaction part of an affordance. -/
def InteractionFault (h : List (ThingOp X)) (ty : AffordanceType)
    (i : PartialInteraction X X.interaction) (e : Error) : Prop :=
  (∃ f ∈ i.forms, AffFormViolation (Defines h) ty f e) ∨
  ((∃ kv ∈ i.uriVariables, kv.2.ArrayOrObject) ∧ e = .invalidUriVariables)

/-- The error `e` describes something that is wrong with the part of what was supplied that a phase
of `build` looks at. -/
def Fault (env : Env) (h : List (ThingOp X)) : Phase → Error → Prop
  | .securityDefinitions, e =>
    (∃ s ∈ securities h, LangViolation env (KeyOf s.descriptions) e) ∨
    ∃ n, e = .duplicatedSecurityDefinition n ∧ Twice ((securities h).map securityName) n
  | .comboReferences, e =>
    ∃ s ∈ securities h, ∃ n, s.subtype.References n ∧ ¬ Defines h n ∧ e = .missingSchemaDefinition n
  | .schemaDefinitions, e =>
    ∃ s, HasSchema h .schemaDefinition s ∧ LangViolation env (SchemaKey s) e
  | .thingForms, e => ∃ f, .form f ∈ h ∧ ThingFormViolation (Defines h) (Declares h) f e
  | .uriVariableTypes, e => e = .invalidUriVariables ∧
    ∃ n s, lastOf (named n (uriVariables h)) = some s ∧ s.ArrayOrObject
  | .uriVariableLanguages, e =>
    ∃ n s, lastOf (named n (uriVariables h)) = some s ∧ LangViolation env (SchemaKey s) e
  | .properties, e =>
    (∃ n p, .property n p ∈ h ∧ (InteractionFault h .property p.interaction e ∨
      (∃ x, Within x p.schema ∧ SchemaViolation x e) ∨ LangViolation env (PropertyKey p) e)) ∨
    ∃ n, e = .duplicatedAffordance .property n ∧ Twice ((properties h).map (·.1)) n
  | .actions, e =>
    (∃ n a, .action n a ∈ h ∧ (InteractionFault h .action a.interaction.part e ∨
      (∃ s x, (a.input = some s ∨ a.output = some s) ∧ Within x s ∧ SchemaViolation x e) ∨
      LangViolation env (ActionKey a) e)) ∨
    ∃ n, e = .duplicatedAffordance .action n ∧ Twice ((actions h).map (·.1)) n
  | .events, e =>
    (∃ n v, .event n v ∈ h ∧ (InteractionFault h .event v.interaction.part e ∨
      (∃ s x, (v.subscription = some s ∨ v.data = some s ∨ v.cancellation = some s) ∧ Within x s ∧
        SchemaViolation x e) ∨
      LangViolation env (EventKey v) e)) ∨
    ∃ n, e = .duplicatedAffordance .event n ∧ Twice ((events h).map (·.1)) n
  | .links, e => ∃ l ∈ links h, LinkViolation env l e
  | .titles, e => ∃ c, lastOf (titles h) = some c ∧ LangViolation env (· ∈ c.map (·.1)) e
  | .descriptions, e => ∃ c, lastOf (descriptions h) = some c ∧ LangViolation env (· ∈ c.map (·.1)) e

/-- Nothing is wrong with what the phases before `p` look at. -/
def NothingBefore (env : Env) (h : List (ThingOp X)) (p : Phase) : Prop :=
  ∀ q : Phase, q.index < p.index → ∀ e, ¬ Fault env h q e

end History
end Wot
