import Verif.Props.Demo
/-
Things with a single data schema, in any of the positions where one can occur. They are used to state
exactly when a data schema is accepted.
-/
namespace Wot.Demo

/-- The partial data schema of a property that has just this type. -/
def partialOf (st : Option (SubtypeF Unit Unit S)) : PartialDataSchema Unit Unit Unit :=
  { constant := none, default := none, unit := none, oneOf := none, enumeration := none,
    readOnly := false, writeOnly := false, format := none, subtype := st, other := () }

/-- A Thing builder call that supplies the schema `s` in the given position. (For a property only
the type of `s` is used.) -/
def place (s : S) : Position → ThingOp X
  | .property => .property "p" (.empty () (partialOf s.subtype) ())
  | .input => .action "a" ((ActionBuilderF.empty () ()).apply (.input s))
  | .output => .action "a" ((ActionBuilderF.empty () ()).apply (.output s))
  | .subscription => .event "e" ((EventBuilderF.empty () ()).apply (.subscription s))
  | .data => .event "e" ((EventBuilderF.empty () ()).apply (.data s))
  | .cancellation => .event "e" ((EventBuilderF.empty () ()).apply (.cancellation s))
  | .dataResponse => .event "e" ((EventBuilderF.empty () ()).apply (.dataResponse s))
  | .uriVariable => .uriVariable "u" s
  | .schemaDefinition => .schemaDefinition "d" s

/-- A schema that consists of a type only. -/
def typed (st : SubtypeF Unit Unit S) : S := .mk { other := () } none (some st)

/-- A Thing builder with just the schema `s`, in the given position. -/
def single (s : S) (p : Position) : ThingBuilder X := run [place s p]

theorem place_built {s : S} {p : Position} (hs : SchemaBuilt s)
    (hp : p = .property → PartialBuilt (partialOf s.subtype)) : (place s p).Built := by
  cases p with
  | property => exact ⟨.empty _ _ _, hp rfl⟩
  | input => exact .call _ hs (.empty _ _)
  | output => exact .call _ hs (.empty _ _)
  | subscription => exact .call _ hs (.empty _ _)
  | data => exact .call _ hs (.empty _ _)
  | cancellation => exact .call _ hs (.empty _ _)
  | dataResponse => exact .call _ hs (.empty _ _)
  | uriVariable => exact hs
  | schemaDefinition => exact hs

theorem single_reachable {s : S} {p : Position} (hs : SchemaBuilt s)
    (hp : p = .property → PartialBuilt (partialOf s.subtype)) :
    Reachable X "Lamp" [place s p] (single s p) :=
  run_reachable _ fun op h => by cases List.mem_singleton.1 h; exact place_built hs hp

theorem place_hasSchema {s : S} {p : Position} (hs : p = .property → ∃ st, s = typed st) :
    History.HasSchema (X := X) [place s p] p s := by
  have hm : ∀ p : Position, place s p ∈ [place s p] := fun p => List.mem_singleton.2 rfl
  cases p with
  | property => obtain ⟨st, rfl⟩ := hs rfl; exact .property (hm .property)
  | input => exact .input (hm .input) rfl
  | output => exact .output (hm .output) rfl
  | subscription => exact .subscription (hm .subscription) rfl
  | data => exact .data (hm .data) rfl
  | cancellation => exact .cancellation (hm .cancellation) rfl
  | dataResponse => exact .dataResponse (hm .dataResponse) rfl
  | uriVariable => exact .uriVariable (n := "u") rfl
  | schemaDefinition => exact .schemaDefinition (n := "d") rfl

theorem lastOf_named_single {A : Type} {n k : String} {a b : A}
    (h : lastOf (History.named n [(k, a)]) = some b) : b = a := by
  have := lastOf_mem h
  simp only [History.named, List.mem_filterMap, List.mem_singleton] at this
  obtain ⟨_, rfl, h⟩ := this
  split at h <;> cases h
  rfl

theorem place_schema {s : S} {s' : UDS X} {p p' : Position} (hs : p = .property → ∃ st, s = typed st)
    (h : History.HasSchema (X := X) [place s p] p' s') : p' = p ∧ s' = s := by
  generalize hh : [place s p] = hist at h
  cases h with
  | property h1 =>
    subst hh
    have h1 := List.mem_singleton.1 h1
    cases p <;> cases h1
    obtain ⟨st, rfl⟩ := hs rfl
    exact ⟨rfl, rfl⟩
  | uriVariable h1 =>
    subst hh
    cases p with
    | uriVariable => exact ⟨rfl, lastOf_named_single h1⟩
    | _ => cases h1
  | schemaDefinition h1 =>
    subst hh
    cases p with
    | schemaDefinition => exact ⟨rfl, lastOf_named_single h1⟩
    | _ => cases h1
  | _ h1 h2 =>
    subst hh
    have h1 := List.mem_singleton.1 h1
    cases p <;> cases h1 <;> cases h2 <;> exact ⟨rfl, rfl⟩

theorem place_form {s : S} {f : FormBuilder X} {p : Position} {ctx : FormContext} :
    ¬ History.HasForm [place s p] ctx f := by
  intro h
  generalize hh : [place s p] = hist at h
  cases h with
  | thing h1 => subst hh; have h1 := List.mem_singleton.1 h1; cases p <;> cases h1
  | _ h1 h2 =>
    subst hh
    have h1 := List.mem_singleton.1 h1
    cases p <;> cases h1 <;> cases h2

theorem place_info {s : S} {i : HumanReadableInfo} {p : Position}
    (h : History.HasInfo [place s p] i) : i = {} := by
  generalize hh : [place s p] = hist at h
  cases h with
  | _ h1 =>
    subst hh
    have h1 := List.mem_singleton.1 h1
    cases p <;> cases h1 <;> rfl

theorem place_langKey {s : S} {k : String} {p : Position} (hs : p = .property → ∃ st, s = typed st) :
    History.LangKey [place s p] k ↔ SchemaKey s k := by
  constructor
  · intro h
    generalize hh : [place s p] = hist at h
    cases h with
    | schema h1 h2 => subst hh; obtain ⟨-, rfl⟩ := place_schema hs h1; exact h2
    | infoTitles h1 h2 => subst hh; cases place_info h1; obtain ⟨b, hb, -⟩ := h2; cases hb
    | infoDescriptions h1 h2 => subst hh; cases place_info h1; obtain ⟨b, hb, -⟩ := h2; cases hb
    | _ h1 h2 => subst hh; cases p <;> cases h1
  · exact fun h => .schema (place_hasSchema hs) h

/-- The conditions for a Thing with a single schema. -/
theorem place_valid {env : Env} {s : S} {p : Position} (hs : p = .property → ∃ st, s = typed st) :
    History.Valid env [place s p] ↔ (p.Checked → AllRules s) ∧ (p = .uriVariable → ¬ s.ArrayOrObject) ∧
      ∀ k, SchemaKey s k → ∃ t, env.langParse k = some t := by
  constructor
  · intro h
    exact ⟨fun hp => h.schemas p s hp (place_hasSchema hs),
      fun hp => h.uriVariables s (by cases hp; exact place_hasSchema hs),
      fun k hk => h.languages k ((place_langKey hs).2 hk)⟩
  · rintro ⟨h1, h2, h3⟩
    constructor
    case schemas => intro p' s' hp' hs'; obtain ⟨rfl, rfl⟩ := place_schema hs hs'; exact h1 hp'
    case uriVariables => intro s' hs'; obtain ⟨rfl, rfl⟩ := place_schema hs hs'; exact h2 rfl
    case languages => exact fun k hk => h3 k ((place_langKey hs).1 hk)
    case formSecurity => exact fun ctx f n hf => (place_form hf).elim
    case operations => exact fun ctx f n hf => (place_form hf).elim
    case thingForms => exact fun f hf => (place_form (.thing hf)).elim
    case responseSchemas => exact fun f n hf => (place_form (.thing hf)).elim
    case linkSizes => cases p <;> exact fun l hl => nomatch hl
    case comboReferences => cases p <;> exact fun l hl => nomatch hl
    all_goals cases p <;> simp [place, History.securities, History.properties, History.actions, History.events]

/-- Exactly when a Thing with a single schema is accepted. -/
theorem single_accepted {env : Env} {s : S} {p : Position} (hb : SchemaBuilt s)
    (hp : p = .property → PartialBuilt (partialOf s.subtype))
    (hs : p = .property → ∃ st, s = typed st) :
    (∃ t, (single s p).build env = .ok t) ↔
      (p.Checked → AllRules s) ∧ (p = .uriVariable → ¬ s.ArrayOrObject) ∧
      ∀ k, SchemaKey s k → ∃ t, env.langParse k = some t := by
  have hr := single_reachable hb hp
  rw [← place_valid hs]
  exact ⟨fun ⟨t, ht⟩ => hr.valid_of_build ht, fun hv => ⟨_, hr.build_of_valid hv⟩⟩

/-- What can be wrong with a Thing with a single schema in a checked position. -/
theorem place_violates {env : Env} {s : S} {p : Position} (hp : p.Checked)
    (hs : p = .property → ∃ st, s = typed st) {e : Error} (hv : History.Violates env [place s p] e) :
    (∃ x, Within x s ∧ SchemaViolation x e) ∨
      ∃ k, SchemaKey s k ∧ env.langParse k = none ∧ e = .invalidLanguageTag k := by
  cases e with
  | invalidMinMax =>
    obtain ⟨_, _, x, -, h1, h2, h3⟩ := hv
    obtain ⟨rfl, rfl⟩ := place_schema hs h1
    exact .inl ⟨x, h2, .inl ⟨rfl, h3⟩⟩
  | nanMinMax =>
    obtain ⟨_, _, x, -, h1, h2, h3⟩ := hv
    obtain ⟨rfl, rfl⟩ := place_schema hs h1
    exact .inl ⟨x, h2, .inr (.inl ⟨rfl, h3⟩)⟩
  | invalidMultipleOf =>
    obtain ⟨_, _, x, -, h1, h2, h3⟩ := hv
    obtain ⟨rfl, rfl⟩ := place_schema hs h1
    exact .inl ⟨x, h2, .inr (.inr ⟨rfl, h3⟩)⟩
  | invalidLanguageTag k => exact .inr ⟨k, (place_langKey hs).1 hv.1, hv.2, rfl⟩
  | missingOpInForm => obtain ⟨f, hf, -⟩ := hv; exact (place_form (.thing hf)).elim
  | invalidOpInForm ctx o => obtain ⟨-, f, hf, -⟩ := hv; exact (place_form hf).elim
  | undefinedSecurity n => obtain ⟨-, ctx, f, hf, -⟩ := hv; exact (place_form hf).elim
  | missingSchemaDefinition n =>
    rcases hv with ⟨-, f, hf, -⟩ | ⟨-, s, hs, -⟩
    · exact (place_form (.thing hf)).elim
    · cases p <;> cases hs
  | invalidUriVariables =>
    obtain ⟨_, h1, -⟩ := hv
    obtain ⟨rfl, rfl⟩ := place_schema hs h1
    exact hp.elim
  | sizesWithRelNotIcon => obtain ⟨l, hl, -⟩ := hv; cases p <;> cases hl
  | duplicatedSecurityDefinition n => exact absurd hv (by cases p <;> exact fun h => nomatch h)
  | duplicatedAffordance ty n =>
    exact absurd hv (by
      cases ty <;> cases p <;>
        simp [History.Violates, Twice, place, History.properties, History.actions, History.events,
          List.count_cons] <;> split <;> omega)

/-- A Thing with a single schema in a checked position that is not accepted is rejected with an error
that is about this schema. -/
theorem single_rejected {env : Env} {s : S} {p : Position} (hp : p.Checked) (hb : SchemaBuilt s)
    (hpb : p = .property → PartialBuilt (partialOf s.subtype))
    (hs : p = .property → ∃ st, s = typed st) (hn : ¬ ∃ t, (single s p).build env = .ok t) :
    ∃ e, (single s p).build env = .error (.err e) ∧ ((∃ x, Within x s ∧ SchemaViolation x e) ∨
      ∃ k, SchemaKey s k ∧ env.langParse k = none ∧ e = .invalidLanguageTag k) := by
  have hr := single_reachable (p := p) hb hpb
  rcases hr.outcome env with ⟨h, -⟩ | ⟨⟨e, he, hv⟩, -⟩
  · exact (hn h).elim
  · exact ⟨e, he, place_violates hp hs hv⟩

end Wot.Demo
