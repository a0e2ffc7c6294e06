import Verif.Spec.Valid
/-
The groups of translations (`titles` and `descriptions`) in a call history.
-/
namespace Wot

variable {X : ExtTypes}

namespace History

/-- `u` is a group of translations supplied somewhere in the history and not overwritten later. -/
inductive HasTranslations (h : List (ThingOp X)) : MultiLanguageBuilder → Prop
  | titles {c : List (String × String)} :
      lastOf (titles h) = some c → HasTranslations h (.ofCalls c)
  | descriptions {c : List (String × String)} :
      lastOf (descriptions h) = some c → HasTranslations h (.ofCalls c)
  | security {s : SecuritySchemeBuilder SchemeSubtype} {u : MultiLanguageBuilder} :
      s ∈ securities h → s.descriptions = some u → HasTranslations h u
  | infoTitles {i : HumanReadableInfo} {u : MultiLanguageBuilder} :
      HasInfo h i → i.titles = some u → HasTranslations h u
  | infoDescriptions {i : HumanReadableInfo} {u : MultiLanguageBuilder} :
      HasInfo h i → i.descriptions = some u → HasTranslations h u
  | schemaTitles {p : Position} {s x : UDS X} {u : MultiLanguageBuilder} :
      HasSchema h p s → Within x s → x.head.titles = some u → HasTranslations h u
  | schemaDescriptions {p : Position} {s x : UDS X} {u : MultiLanguageBuilder} :
      HasSchema h p s → Within x s → x.head.descriptions = some u → HasTranslations h u

end History

/-- No two language keys of a group parse to the same tag. -/
def DistinctTags (env : Env) (u : MultiLanguageBuilder) : Prop :=
  ∀ k ∈ HMap.keys u.values, ∀ k' ∈ HMap.keys u.values, env.langParse k = env.langParse k' → k = k'

end Wot
