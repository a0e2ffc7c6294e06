import Verif.Lemmas.Valid
import Verif.Lemmas.Reach
/-
A concrete Thing builder that uses every kind of call, used to show that the hypotheses of the
property theorems are met.
-/
namespace Wot.Demo

/-- An environment: maps are iterated in key order and every language tag is accepted. -/
def env : Env := { iter := fun m => m, iter_perm := fun _ => .refl _, langParse := some }

/-- The same with the opposite iteration order. -/
def envRev : Env :=
  { iter := fun m => m.reverse, iter_perm := fun m => List.reverse_perm m, langParse := some }

/-- An environment whose parser accepts nothing. -/
def envNone : Env := { iter := fun m => m, iter_perm := fun _ => .refl _, langParse := fun _ => none }

abbrev X : ExtTypes := .nil
abbrev S := UncheckedDataSchema Unit Unit Unit

/-- A data schema builder used through a chain of calls. -/
def chain (b : DataSchemaBuilder Unit Unit Unit) (op : SpecOp Unit Unit Unit)
    (ops : List (KindOp Unit Unit Unit)) : Option (KindBuilder (DataSchemaBuilder Unit Unit Unit) Unit Unit Unit) :=
  ops.foldlM KindBuilder.apply (specialise b op)

theorem kindReach_foldlM {k k' : KindBuilder (DataSchemaBuilder Unit Unit Unit) Unit Unit Unit}
    {ops : List (KindOp Unit Unit Unit)} (hk : KindReach k)
    (h : ops.foldlM KindBuilder.apply k = some k') (ha : ∀ op ∈ ops, ∀ s ∈ op.args, SchemaBuilt s) :
    KindReach k' := by
  induction ops generalizing k with
  | nil => cases h; exact hk
  | cons op ops ih =>
    rw [List.foldlM_cons] at h
    cases h1 : k.apply op with
    | none => rw [h1] at h; cases h
    | some k1 =>
      rw [h1] at h
      exact ih (.step op hk (ha op (by simp)) h1) h fun o ho => ha o (by simp [ho])

theorem chain_built {op : SpecOp Unit Unit Unit} {ops : List (KindOp Unit Unit Unit)} {s : S}
    (h : (chain (.empty ()) op ops).map (·.toUnchecked) = some s) (h1 : ∀ s ∈ op.args, SchemaBuilt s)
    (h2 : ∀ o ∈ ops, ∀ s ∈ o.args, SchemaBuilt s) : SchemaBuilt s := by
  obtain ⟨k, hk, rfl⟩ := Option.map_eq_some_iff.1 h
  exact .conv (kindReach_foldlM (.start op (.empty _ _) h1) hk h2)

theorem args_built (l : List S) (h : ∀ s ∈ l, SchemaBuilt s) {ops : List (KindOp Unit Unit Unit)}
    (h1 : ∀ o ∈ ops, o.args ⊆ l) : ∀ o ∈ ops, ∀ s ∈ o.args, SchemaBuilt s :=
  fun o ho s hs => h s (h1 o ho hs)

def f0 : F64 := .ofBits 0
def fHalf : F64 := .ofBits 0x3FE0000000000000
def f100 : F64 := .ofBits 0x4059000000000000
def i0 : I64 := ⟨0, by decide⟩
def i10 : I64 := ⟨10, by decide⟩

/-- A number from 0 to 100 in steps of 0.5. -/
def numberSchema : S :=
  .mk { unit := some "celsius", other := () } none
    (some (.number { minimum := some (.inclusive f0), maximum := some (.inclusive f100),
                     multipleOf := some fHalf }))

theorem numberSchema_built : SchemaBuilt numberSchema :=
  chain_built (op := .number) (ops := [.unit "celsius", .fMinimum f0, .fMaximum f100, .fMultipleOf fHalf])
    rfl (by simp [SpecOp.args]) (by simp [KindOp.args])

/-- An integer strictly between 0 and 10. -/
def integerSchema : S :=
  .mk { other := () } none
    (some (.integer { minimum := some (.exclusive i0), maximum := some (.exclusive i10) }))

theorem integerSchema_built : SchemaBuilt integerSchema :=
  chain_built (op := .integer) (ops := [.iExclusiveMinimum i0, .iExclusiveMaximum i10])
    rfl (by simp [SpecOp.args]) (by simp [KindOp.args])

/-- A string. -/
def stringSchema : S := .mk { format := some "uri", other := () } none (some (.string {}))

theorem stringSchema_built : SchemaBuilt stringSchema :=
  chain_built (op := .string) (ops := [.format "uri"]) rfl (by simp [SpecOp.args]) (by simp [KindOp.args])

/-- An array of one to three numbers. -/
def vecSchema : S :=
  .mk { other := () } none
    (some (.array { items := some (.elem numberSchema), minItems := some 1, maxItems := some 3,
                    other := () }))

theorem vecSchema_built : SchemaBuilt vecSchema :=
  chain_built (op := .vec ()) (ops := [.setItem numberSchema, .minItems 1, .maxItems 3])
    rfl (by simp [SpecOp.args]) (args_built [numberSchema] (by simp [numberSchema_built]) (by simp [KindOp.args]))

/-- An object with a required integer and an array of numbers. -/
def objectSchema : S :=
  .mk { titles := some (.ofCalls [("en", "Reading"), ("it", "Lettura")]), other := () } none
    (some (.object { properties := some (HMap.collect [("level", integerSchema), ("temps", vecSchema)]),
                     required := some ["level"], other := () }))

theorem objectSchema_built : SchemaBuilt objectSchema :=
  chain_built (op := .object ())
    (ops := [.property "level" true integerSchema, .property "temps" false vecSchema,
      .info (.titles [("en", "Reading"), ("it", "Lettura")])])
    rfl (by simp [SpecOp.args]) 
    (args_built [integerSchema, vecSchema] (by simp [integerSchema_built, vecSchema_built]) (by simp [KindOp.args]))

/-- Either a string or an integer. -/
def oneOfSchema : S := .mk { other := () } (some [stringSchema, integerSchema]) none

theorem oneOfSchema_built : SchemaBuilt oneOfSchema :=
  chain_built (op := .oneOf stringSchema) (ops := [.oneOf integerSchema])
    rfl (by intro s hs; cases List.mem_singleton.1 hs; exact stringSchema_built)
    (args_built [integerSchema] (by simp [integerSchema_built]) (by simp [KindOp.args]))

/-- The builder obtained by some calls on a new one. -/
def run (h : List (ThingOp X)) : ThingBuilder X := (ThingBuilder.new (X := X) "Lamp" ()).finishExtend.run h

theorem run_reachable (h : List (ThingOp X)) (hb : ∀ op ∈ h, op.Built) :
    Reachable X "Lamp" h (run h) :=
  ⟨.extended (h := []) h (.new (X := X) "Lamp" ()), hb⟩

/-- What `build` does if there is just one property. -/
theorem build_property (n : String) (p : PropertyBuilder X) :
    (run [.property n p]).build env =
      (orFail (buildProperties env ([] : HMap SecurityScheme) [(n, p)])).bind fun ps =>
        .ok { (run [.property n p]).result env with properties := ps } := rfl

theorem build_property_ok {n : String} {p : PropertyBuilder X}
    (hi : p.interaction.check env ([] : HMap SecurityScheme) .property isPropertyOp = .ok ())
    (hc : AllRules p.schema) (hp : PropertyBuilder.build env p = .ok (PropertyBuilder.result env p)) :
    (run [.property n p]).build env = .ok ((run [.property n p]).result env) := by
  have hc : p.dataSchema.check env = .ok () :=
    (partial_check env p).trans ((check_ok_iff_rules env _).2 hc)
  rw [build_property]
  simp only [buildProperties, tryBuildAffordance, buildAffordances, List.isEmpty_cons, hi, hc, hp]
  rfl

/-! ### Forms, affordances -/

def form (href : String) (ops : List (FormOp X)) : FormBuilder X :=
  ops.foldl FormBuilderF.apply ((FormBuilderF.new (X := X) ()).setHref href)

theorem form_built (href : String) (ops : List (FormOp X)) : FormReach X (form href ops) := by
  suffices h : ∀ f : FormBuilder X, FormReach X f → FormReach X (ops.foldl FormBuilderF.apply f) from
    h _ (.href href (.new ()))
  induction ops with
  | nil => exact fun f h => h
  | cons op ops ih => exact fun f h => ih _ (.call op h)

def thingForm : FormBuilder X :=
  form "/all" [.op .readAllProperties, .security "basic", .additionalResponse [.schema "err"]]

def partialNumber : PartialDataSchema Unit Unit Unit :=
  { constant := none, default := none, unit := none, oneOf := none, enumeration := none,
    readOnly := true, writeOnly := false, format := none,
    subtype := some (.number { minimum := some (.inclusive f0), maximum := some (.inclusive f100) }),
    other := () }

theorem partialNumber_built : PartialBuilt partialNumber :=
  have h : PartialKindReach (specialise (.empty () : PartialDataSchemaBuilder Unit Unit Unit) .number) :=
    .start .number (.empty _ _) (by simp [SpecOp.args])
  have h1 := PartialKindReach.step (.fMinimum f0) h rfl (by simp [KindOp.args]) rfl
  have h2 := PartialKindReach.step (.fMaximum f100) h1 rfl (by simp [KindOp.args]) rfl
  have h3 := PartialKindReach.step .readOnly h2 rfl (by simp [KindOp.args]) rfl
  .conv h3

theorem propertyReach_foldl {D I O : Type} {b : PropertyBuilderF X D I O} {ops : List (PropertyOp X)}
    (hb : PropertyReach X b) (h : ∀ op ∈ ops, op.Built) :
    PropertyReach X (ops.foldl PropertyBuilderF.apply b) := by
  induction ops generalizing b with
  | nil => exact hb
  | cons op ops ih => exact ih (.call op (h op (by simp)) hb) fun o ho => h o (by simp [ho])

theorem actionReach_foldl {I O : Type} {b : ActionBuilderF X I O} {ops : List (ActionOp X)}
    (hb : ActionReach X b) (h : ∀ op ∈ ops, op.Built) :
    ActionReach X (ops.foldl ActionBuilderF.apply b) := by
  induction ops generalizing b with
  | nil => exact hb
  | cons op ops ih => exact ih (.call op (h op (by simp)) hb) fun o ho => h o (by simp [ho])

theorem eventReach_foldl {I O : Type} {b : EventBuilderF X I O} {ops : List (EventOp X)}
    (hb : EventReach X b) (h : ∀ op ∈ ops, op.Built) :
    EventReach X (ops.foldl EventBuilderF.apply b) := by
  induction ops generalizing b with
  | nil => exact hb
  | cons op ops ih => exact ih (.call op (h op (by simp)) hb) fun o ho => h o (by simp [ho])

def propertyOps : List (PropertyOp X) :=
  [.info (.title "Temperature"), .info (.titles [("en", "Temperature"), ("it", "Temperatura")]),
   .interaction (.form (form "/temp" [.op .readProperty, .op .observeProperty, .security "basic"])),
   .interaction (.uriVariable "unit" stringSchema), .observable true]

def property : PropertyBuilder X :=
  propertyOps.foldl PropertyBuilderF.apply (.empty () partialNumber ())

theorem property_built : property.Built :=
  ⟨propertyReach_foldl (.empty () partialNumber ()) (by
    intro op h
    simp only [propertyOps, List.mem_cons, List.not_mem_nil, or_false] at h
    rcases h with rfl | rfl | rfl | rfl | rfl
    · trivial
    · trivial
    · exact form_built _ _
    · exact stringSchema_built
    · trivial), partialNumber_built⟩

def actionOps : List (ActionOp X) :=
  [.input objectSchema, .output oneOfSchema, .interaction (.form (form "/set" [])), .safe]

def action : ActionBuilder X := actionOps.foldl ActionBuilderF.apply (.empty () ())

theorem action_built : ActionReach X action :=
  actionReach_foldl (.empty () ()) (by
    intro op h
    simp only [actionOps, List.mem_cons, List.not_mem_nil, or_false] at h
    rcases h with rfl | rfl | rfl | rfl
    · exact objectSchema_built
    · exact oneOfSchema_built
    · exact form_built _ _
    · trivial)

def eventOps : List (EventOp X) :=
  [.data vecSchema, .dataResponse stringSchema,
   .interaction (.form (form "/hot" [.op .subscribeEvent, .security "psk"]))]

def event : EventBuilder X := eventOps.foldl EventBuilderF.apply (.empty () ())

theorem event_built : EventReach X event :=
  eventReach_foldl (.empty () ()) (by
    intro op h
    simp only [eventOps, List.mem_cons, List.not_mem_nil, or_false] at h
    rcases h with rfl | rfl | rfl
    · exact vecSchema_built
    · exact stringSchema_built
    · exact form_built _ _)

/-! ### The Thing -/

def combo : SecuritySchemeBuilder SchemeSubtype :=
  { name := some "both", subtype := .known (.combo (.allOf ["basic", "psk"])) }
def basic : SecuritySchemeBuilder SchemeSubtype :=
  { subtype := .known (.basic {}), required := true,
    descriptions := some (.ofCalls [("en", "user and password")]) }
def psk : SecuritySchemeBuilder SchemeSubtype :=
  { subtype := .known (.psk {}), required := true }

def link : CommonOp := .linkWith [.rel "icon"] "/icon.png" [.sizes "16x16", .hreflang "en"]

def history : List (ThingOp X) :=
  [.common (.id "urn:lamp"), .common (.context "https://example.org"),
   .common (.titles [("en", "Lamp"), ("it", "Lampada")]),
   .common (.security combo), .common (.security basic), .common (.security psk),
   .common link, .common (.link "/manual"), .common (.profile "p"),
   .form thingForm, .schemaDefinition "err" objectSchema, .uriVariable "q" stringSchema,
   .property "temperature" property, .action "set" action, .event "overheat" event]

def builder : ThingBuilder X := run history

theorem history_built : ∀ op ∈ history, op.Built := by
  intro op h
  simp only [history, List.mem_cons, List.not_mem_nil, or_false] at h
  rcases h with rfl | rfl | rfl | rfl | rfl | rfl | rfl | rfl | rfl | rfl | rfl | rfl | rfl | rfl | rfl
  · trivial
  · trivial
  · trivial
  · exact ⟨[.combo, .allOf ["basic"], .push "psk", .name "both"], rfl⟩
  · exact ⟨[.basic, .required, .descriptions [("en", "user and password")]], rfl⟩
  · exact ⟨[.psk, .required], rfl⟩
  · trivial
  · trivial
  · trivial
  · exact form_built _ _
  · exact objectSchema_built
  · exact stringSchema_built
  · exact property_built
  · exact action_built
  · exact event_built

theorem reachable : Reachable X "Lamp" history builder := run_reachable history history_built

/-! ### Its validity -/

theorem allRules_iff {s : S} : AllRules s ↔ SchemaRule s ∧
    (∀ l, s.oneOf = some l → ∀ c ∈ l, AllRules c) ∧
    (∀ st, s.subtype = some st → ∀ c ∈ st.children, AllRules c) := by
  unfold AllRules
  constructor
  · intro h
    exact ⟨h s (.self s), fun l hl c hc x hx => h x (within_iff.2 (.inr (.inl ⟨l, hl, c, hc, hx⟩))),
      fun st hst c hc x hx => h x (within_iff.2 (.inr (.inr ⟨st, hst, c, hc, hx⟩)))⟩
  · rintro ⟨h1, h2, h3⟩ x hx
    rcases within_iff.1 hx with rfl | ⟨l, hl, c, hc, hx⟩ | ⟨st, hst, c, hc, hx⟩
    · exact h1
    · exact h2 l hl c hc x hx
    · exact h3 st hst c hc x hx

theorem numberSchema_rules : AllRules numberSchema := by
  rw [allRules_iff]
  refine ⟨?_, by simp [numberSchema, Schema.oneOf], by simp [numberSchema, Schema.subtype, SubtypeF.children]⟩
  simp only [SchemaRule, numberSchema, Schema.subtype, NumberRule, Option.some.injEq, forall_eq']
  exact ⟨by decide, by decide, fun lo hi h1 h2 => by cases h1; cases h2; exact ⟨trivial, by decide⟩,
    by decide⟩

theorem integerSchema_rules : AllRules integerSchema := by
  rw [allRules_iff]
  refine ⟨?_, by simp [integerSchema, Schema.oneOf], by simp [integerSchema, Schema.subtype, SubtypeF.children]⟩
  simp only [SchemaRule, integerSchema, Schema.subtype, IntegerRule, Option.some.injEq]
  intro lo hi h1 h2
  cases h1; cases h2; exact ⟨trivial, by decide⟩

theorem stringSchema_rules : AllRules stringSchema := by
  rw [allRules_iff]
  exact ⟨trivial, by simp [stringSchema, Schema.oneOf], by simp [stringSchema, Schema.subtype, SubtypeF.children]⟩

theorem vecSchema_rules : AllRules vecSchema := by
  rw [allRules_iff]
  refine ⟨?_, by simp [vecSchema, Schema.oneOf], ?_⟩
  · simp only [SchemaRule, vecSchema, Schema.subtype, ArrayRule, Option.some.injEq]
    intro lo hi h1 h2
    cases h1; cases h2; decide
  · simp [vecSchema, Schema.subtype, SubtypeF.children, ElemOrVec.toList, numberSchema_rules]

theorem objectSchema_rules : AllRules objectSchema := by
  rw [allRules_iff]
  refine ⟨trivial, by simp [objectSchema, Schema.oneOf], ?_⟩
  simp only [objectSchema, Schema.subtype, Option.some.injEq, forall_eq']
  intro c hc
  simp only [SubtypeF.children, Option.map_some, Option.getD_some, HMap.values, List.mem_map] at hc
  obtain ⟨⟨k, c'⟩, hc, rfl⟩ := hc
  rw [mem_collect_iff] at hc
  have := lastOf_mem hc
  simp only [History.named, List.mem_filterMap, List.mem_cons, List.not_mem_nil, or_false] at this
  obtain ⟨kv, rfl | rfl, h⟩ := this
  · split at h <;> cases h; exact integerSchema_rules
  · split at h <;> cases h; exact vecSchema_rules

theorem oneOfSchema_rules : AllRules oneOfSchema := by
  rw [allRules_iff]
  refine ⟨trivial, ?_, by simp [oneOfSchema, Schema.subtype]⟩
  simp [oneOfSchema, Schema.oneOf, stringSchema_rules, integerSchema_rules]

theorem partialNumber_rules {p : PropertyBuilder X} (hp : p.dataSchema = partialNumber) :
    AllRules p.schema := by
  refine (allRules_iff (s := p.schema)).2 ?_
  have h1 : p.schema.subtype = partialNumber.subtype := by rw [← hp]; rfl
  have h2 : p.schema.oneOf = none := show p.dataSchema.oneOf = none by rw [hp]; rfl
  refine ⟨?_, ?_, ?_⟩
  · unfold SchemaRule
    rw [h1]
    show NumberRule { minimum := some (.inclusive f0), maximum := some (.inclusive f100) }
    exact ⟨fun lo h => by cases h; decide, fun hi h => by cases h; decide,
      fun lo hi h1 h2 => by cases h1; cases h2; exact ⟨trivial, by decide⟩,
      fun x h => by cases h⟩
  · intro l hl; rw [h2] at hl; cases hl
  · intro st hst; rw [h1] at hst; cases hst; intro c hc; cases hc

theorem property_rules : AllRules property.schema := partialNumber_rules rfl

theorem mem_history {op : ThingOp X} (h : op ∈ history) :
    (∃ c, op = .common c) ∨ op = .form thingForm ∨ op = .schemaDefinition "err" objectSchema ∨
    op = .uriVariable "q" stringSchema ∨ op = .property "temperature" property ∨
    op = .action "set" action ∨ op = .event "overheat" event := by
  simp only [history, List.mem_cons, List.not_mem_nil, or_false] at h
  rcases h with rfl | rfl | rfl | rfl | rfl | rfl | rfl | rfl | rfl | rfl | rfl | rfl | rfl | rfl | rfl <;>
    simp

theorem history_form {f : FormBuilder X} (h : ThingOp.form f ∈ history) : f = thingForm := by
  rcases mem_history h with ⟨c, h⟩ | h | h | h | h | h | h <;> cases h <;> rfl

theorem history_property {n : String} {p : PropertyBuilder X} (h : ThingOp.property n p ∈ history) :
    p = property := by
  rcases mem_history h with ⟨c, h⟩ | h | h | h | h | h | h <;> cases h <;> rfl

theorem history_action {n : String} {p : ActionBuilder X} (h : ThingOp.action n p ∈ history) :
    p = action := by
  rcases mem_history h with ⟨c, h⟩ | h | h | h | h | h | h <;> cases h <;> rfl

theorem history_event {n : String} {p : EventBuilder X} (h : ThingOp.event n p ∈ history) :
    p = event := by
  rcases mem_history h with ⟨c, h⟩ | h | h | h | h | h | h <;> cases h <;> rfl

theorem history_hasForm {ctx : FormContext} {f : FormBuilder X} (h : History.HasForm history ctx f) :
    (ctx = .thing ∧ f = thingForm) ∨
    (ctx = .property ∧ f = form "/temp" [.op .readProperty, .op .observeProperty, .security "basic"]) ∨
    (ctx = .action ∧ f = form "/set" []) ∨
    (ctx = .event ∧ f = form "/hot" [.op .subscribeEvent, .security "psk"]) := by
  cases h with
  | thing h1 => exact .inl ⟨rfl, history_form h1⟩
  | property h1 h2 => cases history_property h1; cases List.mem_singleton.1 h2; simp
  | action h1 h2 => cases history_action h1; cases List.mem_singleton.1 h2; simp
  | event h1 h2 => cases history_event h1; cases List.mem_singleton.1 h2; simp

theorem history_defines {n : String} (h : n = "both" ∨ n = "basic" ∨ n = "psk") :
    History.Defines history n := by
  rcases h with rfl | rfl | rfl
  · exact ⟨combo, by simp [History.securities, history, link], rfl⟩
  · exact ⟨basic, by simp [History.securities, history, link], rfl⟩
  · exact ⟨psk, by simp [History.securities, history, link], rfl⟩

theorem history_valid (env : Env) (hl : ∀ k, ∃ t, env.langParse k = some t) :
    History.Valid env history where
  securityNames := by decide
  comboReferences := by
    intro s hs n hn
    have hs : s = combo ∨ s = basic ∨ s = psk := by
      simpa [History.securities, history, link] using hs
    obtain ⟨l, hl, hn⟩ := hn
    rcases hs with rfl | rfl | rfl
    · rcases hl with hl | hl
      · cases hl
      · cases hl
        simp only [List.mem_cons, List.not_mem_nil, or_false] at hn
        exact history_defines (.inr hn)
    · rcases hl with hl | hl <;> cases hl
    · rcases hl with hl | hl <;> cases hl
  formSecurity := by
    rintro ctx f n hf ⟨l, hl, hn⟩
    rcases history_hasForm hf with ⟨rfl, rfl⟩ | ⟨rfl, rfl⟩ | ⟨rfl, rfl⟩ | ⟨rfl, rfl⟩
    · cases hl; exact history_defines (.inr (.inl (List.mem_singleton.1 hn)))
    · cases hl; exact history_defines (.inr (.inl (List.mem_singleton.1 hn)))
    · cases hl
    · cases hl; exact history_defines (.inr (.inr (List.mem_singleton.1 hn)))
  thingForms := by
    intro f hf
    cases history_form hf
    intro h; cases h
  operations := by
    rintro ctx f n hf ⟨l, hl, hn⟩
    rcases history_hasForm hf with ⟨rfl, rfl⟩ | ⟨rfl, rfl⟩ | ⟨rfl, rfl⟩ | ⟨rfl, rfl⟩
    · cases hl; cases List.mem_singleton.1 hn; decide
    · cases hl
      simp only [List.mem_append, List.mem_cons, List.not_mem_nil, or_false] at hn
      rcases hn with rfl | rfl <;> decide
    · cases hl
    · cases hl; cases List.mem_singleton.1 hn; decide
  responseSchemas := by
    rintro f n hf ⟨r, hr, hn⟩
    cases history_form hf
    cases List.mem_singleton.1 hr
    cases hn
    exact ⟨objectSchema, by simp [history]⟩
  schemas := by
    intro p s hp hs
    cases hs with
    | property h1 => cases history_property h1; exact property_rules
    | input h1 h2 => cases history_action h1; cases h2; exact objectSchema_rules
    | output h1 h2 => cases history_action h1; cases h2; exact oneOfSchema_rules
    | subscription h1 h2 => cases history_event h1; cases h2
    | data h1 h2 => cases history_event h1; cases h2; exact vecSchema_rules
    | cancellation h1 h2 => cases history_event h1; cases h2
    | _ => exact hp.elim
  uriVariables := by
    have hstr : ¬ stringSchema.ArrayOrObject := by rintro (⟨a, h⟩ | ⟨a, h⟩) <;> cases h
    intro s hs
    cases hs with
    | uriVariable h1 =>
      have h2 := lastOf_mem h1
      simp only [History.named, List.mem_filterMap] at h2
      obtain ⟨kv, h3, h4⟩ := h2
      cases List.mem_singleton.1 (show kv ∈ [("q", stringSchema)] from h3)
      split at h4 <;> cases h4
      exact hstr
    | propertyUriVariable h1 h2 => cases history_property h1; cases List.mem_singleton.1 h2; exact hstr
    | actionUriVariable h1 h2 => cases history_action h1; cases h2
    | eventUriVariable h1 h2 => cases history_event h1; cases h2
  propertyNames := by decide
  actionNames := by decide
  eventNames := by decide
  languages := fun k _ => hl k
  linkSizes := by decide

/-- The Thing that is built. -/
def thing : Thing X := builder.result env

theorem built : builder.build env = .ok thing :=
  reachable.build_of_valid (history_valid env fun k => ⟨k, rfl⟩)

end Wot.Demo
