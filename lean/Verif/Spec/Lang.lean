import Verif.Spec.Schema
/-
What the conversion of translations and schemas is supposed to do.
-/
namespace Wot

variable {DS AS OS : Type}

/-- The translations obtained by replacing every language key by the tag it parses to. The
entries are visited in the order of the environment, which matters only if two keys parse to the same
tag: then the last one visited stays. -/
def langResult (env : Env) (b : MultiLanguageBuilder) : MultiLanguage :=
  ⟨HMap.collect ((env.iter b.values).map fun kv => ((env.langParse kv.1).getD kv.1, kv.2))⟩

/-- A supplied language key is rejected by the parser, and the error names it. -/
def LangViolation (env : Env) (key : String → Prop) (e : Error) : Prop :=
  ∃ k, key k ∧ env.langParse k = none ∧ e = .invalidLanguageTag k

end Wot
