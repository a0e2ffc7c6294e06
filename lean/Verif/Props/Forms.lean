import Verif.Props.Demo
/-
C04, C05, C15: what forms may contain.
-/
namespace Wot

variable {X : ExtTypes} {title : String} {h : List (ThingOp X)} {b : ThingBuilder X}
  {env : Env} {t : Thing X}

/-! ### C04 -/

/-- C04: in a built Thing every Thing-level form has an explicit, non-empty list of operations, all of
them Thing-level. -/
theorem C04_thing_form_operations (hr : Reachable X title h b) (hb : b.build env = .ok t)
    {fs : List (Form X)} (hfs : t.forms = some fs) {f : Form X} (hf : f ∈ fs) :
    ∃ ops, f.op = .custom ops ∧ ops ≠ [] ∧ ∀ o ∈ ops,
      o ∈ [FormOperation.readAllProperties, .writeAllProperties, .readMultipleProperties,
        .writeMultipleProperties, .observeAllProperties, .unobserveAllProperties,
        .subscribeAllEvents, .unsubscribeAllEvents, .queryAllActions] := by
  obtain ⟨g, hg, rfl⟩ := (hr.hasForm hb).1 (.thing hfs hf)
  have hv := hr.valid_of_build hb
  show ∃ ops, g.op = .custom ops ∧ _
  cases hop : g.op with
  | default => cases hg with | thing hg => exact absurd hop (hv.thingForms g hg)
  | custom ops =>
    refine ⟨ops, rfl, fun he => (hr.formReach hg).facts.1 (he ▸ hop), fun o ho => ?_⟩
    exact hv.operations .thing g o hg ⟨ops, hop, ho⟩

/-- C04: a Thing-level form without operations, or with one that is not Thing-level, makes `build`
fail; if the security definitions, the schema definitions and what Thing-level forms refer to are
fine, the error is `MissingOpInForm` or `InvalidOpInForm` with a wrong operation of such a form. -/
theorem C04_bad_form_fails (hr : Reachable X title h b) {f : FormBuilder X} (hf : .form f ∈ h)
    (hbad : f.op = .default ∨ ∃ o, f.HasOp o ∧ o ∉ operationsOf .thing) :
    ∃ e, b.build env = .error (.err e) ∧
      (History.NothingBefore env h .thingForms →
       (∀ g n, .form g ∈ h → g.UsesSecurity n → History.Defines h n) →
       (∀ g n, .form g ∈ h → g.UsesSchema n → History.Declares h n) →
        (e = .missingOpInForm ∧ ∃ g, .form g ∈ h ∧ g.op = .default) ∨
        ∃ g o, .form g ∈ h ∧ g.HasOp o ∧ o ∉ operationsOf .thing ∧ e = .invalidOpInForm .thing o) := by
  have hx : ∃ e', ThingFormViolation (History.Defines h) (History.Declares h) f e' := by
    rcases hbad with hd | ⟨o, ho, hn⟩
    · exact ⟨_, .inr (.inl ⟨hd, rfl⟩)⟩
    · exact ⟨_, .inr (.inr (.inl ⟨o, ho, hn, rfl⟩))⟩
  obtain ⟨e', he'⟩ := hx
  by_cases hn : History.NothingBefore env h .thingForms
  · obtain ⟨e, he, g, hg, hv⟩ := hr.fails_in (env := env) (p := .thingForms) ⟨f, hf, he'⟩ hn
    refine ⟨e, he, fun _ hs hd => ?_⟩
    rcases hv with ⟨n, hu, hdef, -⟩ | ⟨hop, rfl⟩ | ⟨o, ho, hno, rfl⟩ | ⟨n, hu, hdec, -⟩
    · exact absurd (hs g n hg hu) hdef
    · exact .inl ⟨rfl, g, hg, hop⟩
    · exact .inr ⟨g, o, hg, ho, hno, rfl⟩
    · exact absurd (hd g n hg hu) hdec
  · obtain ⟨e, he, -⟩ := hr.fails (env := env) (hr.fault_iff.1 ⟨.thingForms, f, hf, he'⟩)
    exact ⟨e, he, fun h => absurd h hn⟩

/-- The hypotheses of C04 are met by a Thing with a Thing-level form. -/
example : Demo.builder.build Demo.env = .ok Demo.thing ∧
    Demo.thing.forms = some [FormBuilder.result Demo.thingForm] ∧
    (FormBuilder.result Demo.thingForm).op = .custom [.readAllProperties] := ⟨Demo.built, rfl, rfl⟩

/-- A history with one form without operations and one with an operation of a property. -/
def Demo.badForms : List (ThingOp Demo.X) :=
  [.form (Demo.form "/a" [.op .readAllProperties, .op .readProperty]), .form (Demo.form "/b" [])]

theorem Demo.badForms_reachable :
    Reachable Demo.X "Lamp" Demo.badForms (Demo.run Demo.badForms) := by
  refine Demo.run_reachable _ fun op h => ?_
  simp only [Demo.badForms, List.mem_cons, List.not_mem_nil, or_false] at h
  rcases h with rfl | rfl <;> exact Demo.form_built _ _

/-- The hypotheses of the failing case of C04 are met, and the first wrong form is reported. -/
example : (∃ f, ThingOp.form f ∈ Demo.badForms ∧ f.op = .default) ∧
    (∃ f o, ThingOp.form f ∈ Demo.badForms ∧ f.HasOp o ∧ o ∉ operationsOf .thing) ∧
    (Demo.run Demo.badForms).build Demo.env = .error (.err (.invalidOpInForm .thing .readProperty)) :=
  ⟨⟨Demo.form "/b" [], by simp [Demo.badForms], rfl⟩,
   ⟨Demo.form "/a" [.op .readAllProperties, .op .readProperty], .readProperty, by simp [Demo.badForms],
    ⟨[.readAllProperties, .readProperty], rfl, by decide⟩, by decide⟩, rfl⟩

/-! ### C05 -/

/-- C05: in a built Thing every form of an affordance has the default operations, or a non-empty list
of operations of the affordance's kind. -/
theorem C05_affordance_form_operations (hr : Reachable X title h b) (hb : b.build env = .ok t)
    {ctx : FormContext} {f : Form X} (hf : t.HasForm ctx f) (hc : ctx ≠ .thing) :
    f.op = .default ∨ ∃ ops, f.op = .custom ops ∧ ops ≠ [] ∧ ∀ o ∈ ops,
      match ctx with
      | .thing => False
      | .property => o ∈ [FormOperation.readProperty, .writeProperty, .observeProperty, .unobserveProperty]
      | .action => o ∈ [FormOperation.invokeAction, .queryAction, .cancelAction]
      | .event => o ∈ [FormOperation.subscribeEvent, .unsubscribeEvent] := by
  obtain ⟨g, hg, rfl⟩ := (hr.hasForm hb).1 hf
  have hv := hr.valid_of_build hb
  show g.op = .default ∨ ∃ ops, g.op = .custom ops ∧ _
  cases hop : g.op with
  | default => exact .inl rfl
  | custom ops =>
    refine .inr ⟨ops, rfl, fun he => (hr.formReach hg).facts.1 (he ▸ hop), fun o ho => ?_⟩
    have := hv.operations ctx g o hg ⟨ops, hop, ho⟩
    cases ctx with
    | thing => exact absurd rfl hc
    | _ => exact this

/-- C05: an operation of another kind makes `build` fail. -/
theorem C05_bad_form_fails (hr : Reachable X title h b) {ctx : FormContext} {f : FormBuilder X}
    (hf : History.HasForm h ctx f) {o : FormOperation} (ho : f.HasOp o) (hn : o ∉ operationsOf ctx) :
    ∃ e, b.build env = .error (.err e) := by
  obtain ⟨e, he, -⟩ := hr.fails (env := env) (e := .invalidOpInForm ctx o) ⟨hn, f, hf, ho⟩
  exact ⟨e, he⟩

/-- C05: `InvalidOpInForm { ctx, o }` is returned only if a form of that context has that operation,
which is not allowed there; it is returned for some such pair if wrong operations are all that is
wrong. -/
theorem C05_bad_form_error (hr : Reachable X title h b) :
    (∀ ctx o, b.build env = .error (.err (.invalidOpInForm ctx o)) →
      o ∉ operationsOf ctx ∧ ∃ f, History.HasForm h ctx f ∧ f.HasOp o) ∧
    ((∃ ctx f o, History.HasForm h ctx f ∧ f.HasOp o ∧ o ∉ operationsOf ctx) →
      (∀ e, History.Violates env h e → ∃ ctx o, e = .invalidOpInForm ctx o) →
      ∃ ctx o, b.build env = .error (.err (.invalidOpInForm ctx o))) := by
  constructor
  · intro ctx o hb
    obtain ⟨p, hp, -⟩ := hr.first_fault hb
    exact hr.fault_iff.1 ⟨p, hp⟩
  · rintro ⟨ctx, f, o, hf, ho, hn⟩ hsole
    obtain ⟨e, he, hv⟩ := hr.fails (env := env) (e := .invalidOpInForm ctx o) ⟨hn, f, hf, ho⟩
    obtain ⟨c, o', rfl⟩ := hsole e hv
    exact ⟨c, o', he⟩

/-- The hypotheses of C05 are met by forms of all three kinds of affordances. -/
example : (∃ f, Demo.thing.HasForm .property f ∧ f.op = .custom [.readProperty, .observeProperty]) ∧
    (∃ f, Demo.thing.HasForm .action f ∧ f.op = .default) ∧
    (∃ f, Demo.thing.HasForm .event f ∧ f.op = .custom [.subscribeEvent]) :=
  ⟨⟨_, (Demo.reachable.hasForm Demo.built).2 ⟨_, .property (n := "temperature") (p := Demo.property)
      (by simp [Demo.history]) (List.mem_singleton.2 rfl), rfl⟩, rfl⟩,
   ⟨_, (Demo.reachable.hasForm Demo.built).2 ⟨_, .action (n := "set") (a := Demo.action)
      (by simp [Demo.history]) (List.mem_singleton.2 rfl), rfl⟩, rfl⟩,
   ⟨_, (Demo.reachable.hasForm Demo.built).2 ⟨_, .event (n := "overheat") (e := Demo.event)
      (by simp [Demo.history]) (List.mem_singleton.2 rfl), rfl⟩, rfl⟩⟩

/-- A history with an event that has an operation of a property. -/
def Demo.badEvent : EventBuilder Demo.X :=
  EventBuilderF.apply (.empty () ())
    (.interaction (.form (Demo.form "/e" [.op .subscribeEvent, .op .readProperty])))

theorem Demo.badEvent_reachable :
    Reachable Demo.X "Lamp" [.event "e" Demo.badEvent] (Demo.run [.event "e" Demo.badEvent]) := by
  refine Demo.run_reachable _ fun op h => ?_
  cases List.mem_singleton.1 h
  exact EventReach.call _ (Demo.form_built _ _) (.empty () ())

/-- The hypotheses of the failing case of C05 are met. -/
example : History.HasForm [ThingOp.event "e" Demo.badEvent] .event
      (Demo.form "/e" [.op .subscribeEvent, .op .readProperty]) ∧
    FormBuilderF.HasOp (Demo.form "/e" [.op .subscribeEvent, .op .readProperty]) .readProperty ∧
    (Demo.run [.event "e" Demo.badEvent]).build Demo.env =
      .error (.err (.invalidOpInForm .event .readProperty)) :=
  ⟨.event (n := "e") (e := Demo.badEvent) (by simp) (List.mem_singleton.2 rfl),
   ⟨[.subscribeEvent, .readProperty], rfl, by decide⟩, rfl⟩

/-! ### C15 -/

/-- C15, for Thing-level forms: in a built Thing each schema named by an additional response of a
Thing-level form is a key of `schemaDefinitions`. (For forms of affordances this is false, see below;
the full property would be the same statement for all forms.) -/
theorem C15_response_schemas_partial (hr : Reachable X title h b) (hb : b.build env = .ok t)
    {fs : List (Form X)} (hfs : t.forms = some fs) {f : Form X} (hf : f ∈ fs)
    {rs : List AdditionalResponse} (hrs : f.additionalResponses = some rs) {r : AdditionalResponse}
    (hm : r ∈ rs) {n : String} (hn : r.schema = some n) : t.Declares n := by
  obtain ⟨g, hg, rfl⟩ := (hr.hasForm hb).1 (.thing hfs hf)
  have hu : g.UsesSchema n := by
    refine ⟨r, ?_, hn⟩
    simp only [FormBuilder.result] at hrs
    split at hrs
    · cases hrs
    · cases hrs; exact hm
  cases hg with
  | thing hg => exact (hr.declares hb).2 ((hr.valid_of_build hb).responseSchemas g n hg hu)

/-- C15: a Thing-level form naming an undeclared schema makes `build` fail; the error is
`MissingSchemaDefinition` of such a name if such names are all that is wrong. -/
theorem C15_undeclared_fails (hr : Reachable X title h b) {f : FormBuilder X} (hf : .form f ∈ h)
    {n : String} (hn : f.UsesSchema n) (hd : ¬ History.Declares h n) :
    ∃ e, b.build env = .error (.err e) ∧
      ((∀ e', History.Violates env h e' → ∃ m, e' = .missingSchemaDefinition m) →
       (∀ s ∈ History.securities h, ∀ m, s.subtype.References m → History.Defines h m) →
        ∃ m, e = .missingSchemaDefinition m ∧ ¬ History.Declares h m ∧
          ∃ g, .form g ∈ h ∧ g.UsesSchema m) := by
  obtain ⟨e, he, hv⟩ := hr.fails (env := env) (e := .missingSchemaDefinition n) (.inl ⟨hd, f, hf, hn⟩)
  refine ⟨e, he, fun hs hc => ?_⟩
  obtain ⟨m, rfl⟩ := hs e hv
  rcases hv with ⟨h1, h2⟩ | ⟨h1, s, h2, h3⟩
  · exact ⟨m, rfl, h1, h2⟩
  · exact absurd (hc s h2 m h3) h1

/-- The hypotheses of C15 are met by a Thing-level form with a response using the schema `err`. -/
example : ∃ f ∈ [FormBuilder.result Demo.thingForm], Demo.thing.forms = some [FormBuilder.result Demo.thingForm] ∧
    f.additionalResponses = some [{ schema := some "err" }] :=
  ⟨_, List.mem_singleton.2 rfl, rfl, rfl⟩

/-- A form with an additional response naming the schema `nosuch`. -/
def Demo.undeclaredForm : FormBuilder Demo.X := Demo.form "/a" [.additionalResponse [.schema "nosuch"]]

/-- An affordance of each kind with that form. -/
def Demo.undeclared : FormContext → ThingOp Demo.X
  | .thing => .form Demo.undeclaredForm
  | .property => .property "a" (PropertyBuilderF.apply (.empty () Demo.partialNumber ())
      (.interaction (.form Demo.undeclaredForm)))
  | .action => .action "a" (ActionBuilderF.apply (.empty () ())
      (.interaction (.form Demo.undeclaredForm)))
  | .event => .event "a" (EventBuilderF.apply (.empty () ())
      (.interaction (.form Demo.undeclaredForm)))

theorem Demo.undeclared_reachable (ctx : FormContext) :
    Reachable Demo.X "Lamp" [Demo.undeclared ctx] (Demo.run [Demo.undeclared ctx]) := by
  refine Demo.run_reachable _ fun op h => ?_
  cases List.mem_singleton.1 h
  cases ctx with
  | thing => exact Demo.form_built _ _
  | property => exact ⟨.call _ (Demo.form_built _ _) (.empty () _ ()), Demo.partialNumber_built⟩
  | action => exact ActionReach.call _ (Demo.form_built _ _) (.empty () ())
  | event => exact EventReach.call _ (Demo.form_built _ _) (.empty () ())

/-- C15 is false for forms of affordances of any kind: `build` accepts a form whose additional
response names a schema that is not declared. -/
theorem C15_affordance_forms_unchecked (ctx : FormContext) (hc : ctx ≠ .thing) :
    ∃ (h : List (ThingOp Demo.X)) (b : ThingBuilder Demo.X) (t : Thing Demo.X) (f : Form Demo.X),
      Reachable Demo.X "Lamp" h b ∧ b.build Demo.env = .ok t ∧ t.HasForm ctx f ∧
      f.additionalResponses = some [{ schema := some "nosuch" }] ∧ ¬ t.Declares "nosuch" := by
  have hr := Demo.undeclared_reachable ctx
  have hb : (Demo.run [Demo.undeclared ctx]).build Demo.env = .ok
      ((Demo.run [Demo.undeclared ctx]).result Demo.env) := by
    cases ctx with
    | thing => exact absurd rfl hc
    | property =>
      exact Demo.build_property_ok rfl (Demo.partialNumber_rules rfl) rfl
    | action => rfl
    | event => rfl
  refine ⟨_, _, _, _, hr, hb, (hr.hasForm hb).2 ⟨Demo.undeclaredForm, ?_, rfl⟩, rfl, ?_⟩
  · cases ctx with
    | thing => exact absurd rfl hc
    | property => exact .property (List.mem_singleton.2 rfl) (List.mem_singleton.2 rfl)
    | action => exact .action (List.mem_singleton.2 rfl) (List.mem_singleton.2 rfl)
    | event => exact .event (List.mem_singleton.2 rfl) (List.mem_singleton.2 rfl)
  · rintro ⟨m, hm, -⟩
    cases ctx with
    | thing => exact absurd rfl hc
    | _ => cases hm

/-- The hypotheses of the failing case of C15 are met, for a Thing-level form. -/
example : ThingOp.form Demo.undeclaredForm ∈ [Demo.undeclared .thing] ∧
    Demo.undeclaredForm.UsesSchema "nosuch" ∧ ¬ History.Declares [Demo.undeclared .thing] "nosuch" :=
  ⟨List.mem_singleton.2 rfl, ⟨{ schema := some "nosuch" }, List.mem_singleton.2 rfl, rfl⟩,
   fun ⟨_, h⟩ => by cases List.mem_singleton.1 h⟩

end Wot
