import Verif.Spec.Blank
import Verif.Props.Defaults
import Verif.Props.Members
/-
C60: default values are what documents and builders give when nothing is said.
-/
namespace Wot
variable {X : ExtTypes} {C : ExtCodecs X} {D : ExtDefaults X} {env : SerdeEnv} {es : Members}

private theorem NoneOf.rest {K L : List String} (h : NoneOf L es) : NoneOf L (rest K es) :=
  fun k hk => (h k hk).rest K

private theorem AllLeftOut.none {A : Type} {K : List String} (hl : AllLeftOut K es) {k : String} {de : Json → Option A}
    {a : Option A} (h : optional k de es = some a) (hk : k ∈ K := by decide) : a = .none :=
  (optional_isNone h).2 (hl k hk)

private theorem AllLeftOut.off {K : List String} (hl : AllLeftOut K es) {k : String} {b : Bool}
    (h : defaulted k false deBool es = some b) (hk : k ∈ K := by decide) : b = false := by
  cases b with
  | false => rfl
  | true => cases hl k hk _ ((flag_iff h).1 rfl)

private theorem AllLeftOut.stays {A : Type} {K : List String} (hl : AllLeftOut K es) {k : String} {d a : A}
    {de : Json → Option A} (h : defaulted k d de es = some a) (hn : de .null = .none := by rfl)
    (hk : k ∈ K := by decide) : a = d := by
  rcases defaulted_eq_some h with ⟨_, rfl⟩ | ⟨v, hv, e⟩
  · rfl
  · have hm : (k, v) ∈ es := mem_occ.1 (by rw [hv]; exact List.mem_singleton.2 rfl)
    rw [hl k hk v hm, hn] at e
    cases e

/-- A link of which only the target is given. -/
theorem C60_link {l : Link} (h : deLink env (.obj es) = some l)
    (hl : AllLeftOut ["type", "rel", "anchor", "sizes", "hreflang"] es) : l = { Link.default with href := l.href } := by
  have h := deLink_iff.1 h
  obtain ⟨_, _, _, _, _, _⟩ := l
  obtain ⟨-, h1, h2, h3, h4, h5⟩ := h
  cases hl.none h1; cases hl.none h2; cases hl.none h3; cases hl.none h4; cases hl.none h5
  rfl

/-- A version of which only the instance is given. -/
theorem C60_version {v : VersionInfo} (h : deVersion (.obj es) = some v) (hl : LeftOut "model" es) :
    v = { VersionInfo.default with instance_ := v.instance_ } := by
  obtain ⟨_, _⟩ := v
  cases (optional_isNone (deVersion_iff.1 h).model).2 hl
  rfl

/-- An additional response of which nothing is given. -/
theorem C60_additional {r : AdditionalResponse} (h : deAdditional (.obj es) = some r)
    (hl : AllLeftOut ["success", "contentType", "schema"] es) : r = .default := by
  have h := deAdditional_iff.1 h
  obtain ⟨_, _, _⟩ := r
  obtain ⟨h1, h2, h3⟩ := h
  cases hl.off h1; cases hl.none h2; cases hl.none h3
  rfl

/-- A response of which only the content type is given. -/
theorem C60_response {R : Type} {c : ExtCodec R} {d : R} (hc : Blank c d) {r : ExpectedResponse R}
    (h : deResponse c (.obj es) = some r) (hx : NoneOf c.keys es) :
    r = { ExpectedResponse.default d with contentType := r.contentType } := by
  have h := deResponse_iff.1 h
  obtain ⟨_, _⟩ := r
  obtain ⟨-, h1⟩ := h
  rw [hc _ hx.rest] at h1
  cases h1
  rfl

/-- A form of which only the target is given. -/
theorem C60_form (hc : Blank C.form D.form) {f : Form X} (h : deForm C (.obj es) = some f)
    (hl : AllLeftOut ["op", "contentType", "contentCoding", "subprotocol", "security", "scopes", "response",
      "additionalResponses"] es) (hx : NoneOf C.form.keys es) : f = { Form.default D with href := f.href } := by
  have h0 := (C37_form h).1.2 (hl _ (by decide))
  have h := deForm_iff.1 h
  obtain ⟨_, _, _, _, _, _, _, _, _, _⟩ := f
  obtain ⟨-, -, h1, h2, h3, h4, h5, h6, h7, h8⟩ := h
  cases h0; cases hl.none h1; cases hl.none h2; cases hl.none h3; cases hl.none h4; cases hl.none h5
  cases hl.none h6; cases hl.none h7
  rw [hc _ hx.rest] at h8
  cases h8
  rfl

private theorem schema_blank {DSx AS OS : Type} {c : ExtCodec DSx} {CA : ExtCodec AS} {CO : ExtCodec OS} {d : DSx}
    (hc : Blank c d) {sub : Json → Option (DataSchema DSx AS OS)} {s : DataSchema DSx AS OS}
    (h : deSchemaMembers c CA CO env sub es = some s)
    (hl : AllLeftOut ["@type", "title", "titles", "description", "descriptions", "const", "default", "unit", "oneOf",
      "enum", "readOnly", "writeOnly", "format"] es) (ht : Absent "type" es) (hx : NoneOf c.keys es) :
    s = .default d := by
  have h0 := (schema_defaults h).2.2.1 ht
  have h := deSchemaMembers_iff.1 h
  obtain ⟨⟨_, _, _, _, _, _, _, _, _, _, _, _, _⟩, _, _⟩ := s
  obtain ⟨h1, h2, h3, h4, h5, h6, h7, h8, h9, h10, h11, h12, h13, h14, -⟩ := h
  cases h0
  cases hl.none h1; cases hl.none h2; cases hl.none h3; cases hl.none h4; cases hl.none h5; cases hl.none h6
  cases hl.none h7; cases hl.none h8; cases hl.none h9; cases hl.none h10; cases hl.off h11; cases hl.off h12
  cases hl.none h13
  rw [hc _ hx.rest] at h14
  cases h14
  rfl

/-- A data schema of which nothing is given. -/
theorem C60_schema (hc : Blank C.dataSchema D.dataSchema) {s : DS X} (h : deDS C env (.obj es) = some s)
    (hl : AllLeftOut ["@type", "title", "titles", "description", "descriptions", "const", "default", "unit", "oneOf",
      "enum", "readOnly", "writeOnly", "format"] es) (ht : Absent "type" es) (hx : NoneOf C.dataSchema.keys es) :
    s = .default D.dataSchema := by
  rw [deDS, deSchema_obj] at h
  exact schema_blank hc h hl ht hx

private theorem AllLeftOut.rest' {K L : List String} (h : AllLeftOut L es) (hd : ∀ k ∈ L, k ∉ K) :
    AllLeftOut L (rest K es) := fun k hk => (LeftOut.rest (hd k hk)).2 (h k hk)

/-- What a data schema says about its kind, if only the type is given. -/
theorem C60_kinds {s : DS X} (h : deDS C env (.obj es) = some s)
    (hl : AllLeftOut ["maximum", "exclusiveMaximum", "minimum", "exclusiveMinimum", "multipleOf", "minLength", "maxLength",
      "pattern", "contentEncoding", "contentMediaType", "items", "min_items", "max_items", "properties", "required"] es) :
    (∀ x, s.subtype = some (.number x) → x = .default) ∧
    (∀ x, s.subtype = some (.integer x) → x = .default) ∧
    (∀ x, s.subtype = some (.string x) → x = .default) ∧
    (∀ x, s.subtype = some (.array x) → Blank C.arraySchema D.arraySchema → NoneOf C.arraySchema.keys es →
      x = .default D.arraySchema) ∧
    (∀ x, s.subtype = some (.object x) → Blank C.objectSchema D.objectSchema → NoneOf C.objectSchema.keys es →
      x = .default D.objectSchema) := by
  rw [deDS, deSchema_obj] at h
  have hs := (deSchemaMembers_iff.1 h).subtype
  have hr := (hl.rest' (K := schemaKeys) (by decide)).rest' (K := ["type"]) (by decide)
  have flat : ∀ {A B : Type} {table : List (String × (A → B))} {de : Json → Option A} {r : Members}, de .null = none →
      AllLeftOut (table.map (·.1)) r → deFlatEnum table de r = none := by
    intro A B table de r hn h
    unfold deFlatEnum
    cases hf : r.find? fun kv => (table.map (·.1)).contains kv.1 with
    | none => rfl
    | some kv =>
      have hm := List.mem_of_find?_eq_some hf
      have hk := List.find?_some hf
      rw [List.contains_iff_mem] at hk
      have : kv.2 = .null := h kv.1 hk kv.2 hm
      simp only [Option.bind_some, this, hn, Option.map_none]
      cases nameOf? table kv.1 <;> rfl
  have cut : ∀ {L : List String} {r : Members}, AllLeftOut ["maximum", "exclusiveMaximum", "minimum", "exclusiveMinimum",
      "multipleOf", "minLength", "maxLength", "pattern", "contentEncoding", "contentMediaType", "items", "min_items",
      "max_items", "properties", "required"] r → (∀ k ∈ L, k ∈ ["maximum", "exclusiveMaximum", "minimum",
      "exclusiveMinimum"]) → AllLeftOut L (rest ["multipleOf"] r) := by
    intro L r h hL
    have h1 : ∀ k ∈ ["maximum", "exclusiveMaximum", "minimum", "exclusiveMinimum"], LeftOut k r :=
      fun k hk => h k (by revert k; decide)
    exact AllLeftOut.rest' (fun k hk => h1 k (hL k hk)) fun k hk =>
      (by decide : ∀ k ∈ ["maximum", "exclusiveMaximum", "minimum", "exclusiveMinimum"], k ∉ ["multipleOf"]) k (hL k hk)
  rw [deSchemaSubtype] at hs
  refine ⟨fun x e => ?_, fun x e => ?_, fun x e => ?_, fun x e hb hx => ?_, fun x e hb hx => ?_⟩ <;>
    (rw [e] at hs; obtain ⟨tag, -, hs⟩ := Option.bind_eq_some_iff.1 hs; cases tag) <;>
    simp only [pure, Option.map_eq_some_iff, Option.some.injEq, reduceCtorEq, and_false, exists_false, SubtypeF.number.injEq,
      SubtypeF.integer.injEq, SubtypeF.string.injEq, SubtypeF.array.injEq, SubtypeF.object.injEq, exists_eq_right] at hs
  all_goals generalize hes : rest ["type"] (rest schemaKeys es) = r at hr hs
  · obtain ⟨a, h1, hs⟩ := Option.bind_eq_some_iff.1 hs
    cases hr.none h1
    cases hs
    simp only [deMaximum, deMinimum]
    rw [flat rfl (cut hr (by decide)), flat rfl (cut hr (by decide))]
    rfl
  · obtain ⟨a, h1, hs⟩ := Option.bind_eq_some_iff.1 hs
    cases hr.none h1
    cases hs
    simp only [deMaximum, deMinimum]
    rw [flat rfl (cut hr (by decide)), flat rfl (cut hr (by decide))]
    rfl
  · obtain ⟨_, h1, hs⟩ := Option.bind_eq_some_iff.1 hs
    obtain ⟨_, h2, hs⟩ := Option.bind_eq_some_iff.1 hs
    obtain ⟨_, h3, hs⟩ := Option.bind_eq_some_iff.1 hs
    obtain ⟨_, h4, hs⟩ := Option.bind_eq_some_iff.1 hs
    obtain ⟨_, h5, hs⟩ := Option.bind_eq_some_iff.1 hs
    cases hr.none h1; cases hr.none h2; cases hr.none h3; cases hr.none h4; cases hr.none h5
    cases hs; rfl
  · obtain ⟨_, h1, hs⟩ := Option.bind_eq_some_iff.1 hs
    obtain ⟨_, h2, hs⟩ := Option.bind_eq_some_iff.1 hs
    obtain ⟨_, h3, hs⟩ := Option.bind_eq_some_iff.1 hs
    obtain ⟨_, h4, hs⟩ := Option.bind_eq_some_iff.1 hs
    cases hr.none h1; cases hr.none h2; cases hr.none h3
    rw [← hes, hb _ hx.rest.rest.rest] at h4
    cases h4; cases hs; rfl
  · obtain ⟨_, h1, hs⟩ := Option.bind_eq_some_iff.1 hs
    obtain ⟨_, h2, hs⟩ := Option.bind_eq_some_iff.1 hs
    obtain ⟨_, h3, hs⟩ := Option.bind_eq_some_iff.1 hs
    cases hr.none h1; cases hr.none h2
    rw [← hes, hb _ hx.rest.rest.rest] at h3
    cases h3; cases hs; rfl

private theorem interaction_blank (hc : Blank C.interaction D.interaction) {i : Interaction X}
    (h : deInteraction C env es = some i)
    (hl : AllLeftOut ["@type", "title", "titles", "description", "descriptions", "uriVariables"] es)
    (hx : NoneOf C.interaction.keys es) : i = { Interaction.default D with forms := i.forms } := by
  have h := deInteraction_iff.1 h
  obtain ⟨_, _, _, _, _, _, _, _⟩ := i
  obtain ⟨h1, h2, h3, h4, h5, -, h6, h7⟩ := h
  cases hl.none h1; cases hl.none h2; cases hl.none h3; cases hl.none h4; cases hl.none h5; cases hl.none h6
  rw [hc _ hx.rest] at h7
  cases h7
  rfl

/-- A property of which only the forms are given. -/
theorem C60_property (hc : C.Blank D) {p : PropertyAffordance X} (h : deProperty C env (.obj es) = some p)
    (hl : AllLeftOut ["@type", "title", "titles", "description", "descriptions", "uriVariables", "const", "default",
      "unit", "oneOf", "enum", "readOnly", "writeOnly", "format", "observable"] es) (ht : Absent "type" es)
    (hx : NoneOf (C.interaction.keys ++ C.dataSchema.keys ++ C.property.keys) es) :
    p = { PropertyAffordance.default D with
          interaction := { Interaction.default D with forms := p.interaction.forms } } := by
  have h := deProperty_iff.1 h
  have hx1 : NoneOf C.interaction.keys es := fun k hk => hx k (by simp [hk])
  have hx2 : NoneOf C.dataSchema.keys es := fun k hk => hx k (by simp [hk])
  have hx3 : NoneOf C.property.keys es := fun k hk => hx k (by simp [hk])
  have h1 := interaction_blank hc.interaction h.interaction (AllLeftOut.rest' (fun k hk => hl k (by
    revert k; decide)) (by decide)) hx1.rest
  have h2 := schema_blank hc.dataSchema h.dataSchema (AllLeftOut.rest' (fun k hk => hl k (by
    revert k; decide)) (by decide)) (ht.rest _) hx2.rest
  obtain ⟨i, s, o, x⟩ := p
  cases hl.none h.observable
  have h3 := h.other
  rw [hc.property _ hx3.rest] at h3
  cases h3
  simp only at h1 h2
  rw [h2, ← h1]
  rfl

/-- An action of which only the forms are given. -/
theorem C60_action (hc : C.Blank D) {a : ActionAffordance X} (h : deAction C env (.obj es) = some a)
    (hl : AllLeftOut ["@type", "title", "titles", "description", "descriptions", "uriVariables", "input", "output",
      "safe", "idempotent", "synchronous"] es) (hx : NoneOf (C.interaction.keys ++ C.action.keys) es) :
    a = { ActionAffordance.default D with
          interaction := { Interaction.default D with forms := a.interaction.forms } } := by
  have h := deAction_iff.1 h
  have hx1 : NoneOf C.interaction.keys es := fun k hk => hx k (by simp [hk])
  have hx3 : NoneOf C.action.keys es := fun k hk => hx k (by simp [hk])
  have h1 := interaction_blank hc.interaction h.interaction (AllLeftOut.rest' (fun k hk => hl k (by
    revert k; decide)) (by decide)) hx1.rest
  obtain ⟨i, _, _, _, _, _, x⟩ := a
  cases hl.none h.input; cases hl.none h.output; cases hl.off h.safe; cases hl.off h.idempotent
  cases hl.none h.synchronous
  have h3 := h.other
  rw [hc.action _ hx3.rest] at h3
  cases h3
  simp only at h1
  rw [← h1]
  rfl

/-- An event of which only the forms are given. -/
theorem C60_event (hc : C.Blank D) {a : EventAffordance X} (h : deEvent C env (.obj es) = some a)
    (hl : AllLeftOut ["@type", "title", "titles", "description", "descriptions", "uriVariables", "subscription", "data",
      "data_response", "cancellation"] es) (hx : NoneOf (C.interaction.keys ++ C.event.keys) es) :
    a = { EventAffordance.default D with
          interaction := { Interaction.default D with forms := a.interaction.forms } } := by
  have h := deEvent_iff.1 h
  have hx1 : NoneOf C.interaction.keys es := fun k hk => hx k (by simp [hk])
  have hx3 : NoneOf C.event.keys es := fun k hk => hx k (by simp [hk])
  have h1 := interaction_blank hc.interaction h.interaction (AllLeftOut.rest' (fun k hk => hl k (by
    revert k; decide)) (by decide)) hx1.rest
  obtain ⟨i, _, _, _, _, x⟩ := a
  cases hl.none h.subscription; cases hl.none h.data; cases hl.none h.dataResponse; cases hl.none h.cancellation
  have h3 := h.other
  rw [hc.event _ hx3.rest] at h3
  cases h3
  simp only at h1
  rw [← h1]
  rfl

/-- A security scheme of which only the name of the scheme is given, and the `flow` or `qop` it cannot do without. -/
theorem C60_security {s : SecurityScheme} (h : deSecurity env (.obj es) = some s)
    (hl : AllLeftOut ["@type", "description", "descriptions", "proxy"] es) :
    s = { SecurityScheme.default with subtype := s.subtype } ∧
    (AllLeftOut ["in", "name", "alg", "format", "authorization", "identity", "token", "refresh", "scopes"] es →
      (∀ x, s.subtype = .known (.basic x) → x = .default) ∧
      (∀ x, s.subtype = .known (.apiKey x) → x = .default) ∧
      (∀ x, s.subtype = .known (.bearer x) → x = .default) ∧
      (∀ x, s.subtype = .known (.psk x) → x = .default) ∧
      (∀ x, s.subtype = .known (.digest x) → x = { DigestScheme.default with qop := x.qop }) ∧
      (∀ x, s.subtype = .known (.oauth2 x) → x = { OAuth2Scheme.default with flow := x.flow })) := by
  have h' := deSecurity_iff.1 h
  constructor
  · obtain ⟨_, _, _, _, _⟩ := s
    cases hl.none h'.attype; cases hl.none h'.description; cases hl.none h'.descriptions; cases hl.none h'.proxy
    rfl
  · intro hb
    have hb : AllLeftOut ["in", "name", "alg", "format", "authorization", "identity", "token", "refresh", "scopes"]
        (rest (securityKeys ++ ["scheme"]) es) := hb.rest' (by decide)
    have cut : rest ["scheme"] (rest securityKeys es) = rest (securityKeys ++ ["scheme"]) es := rest_rest _ _
    refine ⟨fun x hs => ?_, fun x hs => ?_, fun x hs => ?_, fun x hs => ?_, fun x hs => ?_,
      fun x hs => ?_⟩ <;> obtain ⟨tag, hr⟩ := readTag_of h'.subtype hs <;> rw [cut] at hr <;>
      cases tag <;> simp only [readTag, pure, Option.map_eq_some_iff, Option.some.injEq, reduceCtorEq, and_false,
        exists_false, KnownScheme.basic.injEq, KnownScheme.digest.injEq, KnownScheme.bearer.injEq,
        KnownScheme.apiKey.injEq, KnownScheme.psk.injEq, KnownScheme.oauth2.injEq, exists_eq_right] at hr
    · have h := deBasic_iff.1 hr
      obtain ⟨_, _⟩ := x
      cases hb.stays h.location; cases hb.none h.name; rfl
    · have h := deApiKey_iff.1 hr
      obtain ⟨_, _⟩ := x
      cases hb.stays h.location; cases hb.none h.name; rfl
    · have h := deBearer_iff.1 hr
      obtain ⟨_, _, _, _, _⟩ := x
      cases hb.stays h.location; cases hb.none h.name; cases hb.none h.authorization
      cases hb.stays h.alg; cases hb.stays h.format; rfl
    · have h := dePsk_iff.1 hr
      obtain ⟨_⟩ := x
      cases hb.none h.identity; rfl
    · have h := deDigest_iff.1 hr
      obtain ⟨_, _, _⟩ := x
      cases hb.stays h.location; cases hb.none h.name; rfl
    · have h := deOAuth2_iff.1 hr
      obtain ⟨_, _, _, _, _⟩ := x
      cases hb.none h.authorization; cases hb.none h.token; cases hb.none h.refresh; cases hb.none h.scopes; rfl

/-- A Thing of which only the title and the security are given: the default but for the context. -/
theorem C60_thing_partial (hc : C.Blank D) {t : Thing X} (h : deThing C env (.obj es) = some t)
    (hl : AllLeftOut ["id", "@type", "titles", "description", "descriptions", "version", "created", "modified",
      "support", "base", "properties", "actions", "events", "links", "forms", "uriVariables", "profile",
      "schemaDefinitions"] es) (hn : Absent "@context" es) (hx : NoneOf C.thing.keys es) :
    t = { Thing.default D with
          context := .str "https://www.w3.org/2022/wot/td/v1.1", title := t.title, security := t.security,
          securityDefinitions := t.securityDefinitions } := by
  have hcx := (C37_thing h).1 hn
  have h := deThing_iff.1 h
  obtain ⟨_, _, _, _, _, _, _, _, _, _, _, _, _, _, _, _, _, _, _, _, _, _, _⟩ := t
  cases hcx
  cases hl.none h.id; cases hl.none h.attype; cases hl.none h.titles; cases hl.none h.description
  cases hl.none h.descriptions; cases hl.none h.version; cases hl.none h.created; cases hl.none h.modified
  cases hl.none h.support; cases hl.none h.base; cases hl.none h.properties; cases hl.none h.actions
  cases hl.none h.events; cases hl.none h.links; cases hl.none h.forms; cases hl.none h.uriVariables
  cases hl.none h.profile; cases hl.none h.schemaDefinitions
  have h3 := h.other
  rw [hc.thing _ hx.rest] at h3
  cases h3
  rfl

/-- The context of the default Thing is `null`, which neither a built Thing has nor one read from a document that
gives none. -/
theorem C60_context : (Thing.default D).context = .null ∧
    (∀ {env : Env} {title h} {b : ThingBuilder X} {t : Thing X}, Reachable X title h b → b.build env = .ok t →
      t.context ≠ (Thing.default D).context) ∧
    (∀ {t : Thing X}, deThing C env (.obj es) = some t → Absent "@context" es →
      t.context ≠ (Thing.default D).context) := by
  refine ⟨rfl, fun hr hb e => ?_, fun h hn e => ?_⟩
  · rw [C21_context hr hb] at e
    split at e <;> cases e
  · rw [(C37_thing h).1 hn] at e
    cases e

/-- What builders give when nothing but the mandatory part is said. -/
theorem C60_builder (env : Env) (title href : String) :
    (ThingBuilder.new title D.thing).build env =
      .ok { Thing.default D with context := .str "https://www.w3.org/2022/wot/td/v1.1", title } ∧
    PropertyBuilder.build env (.empty D.interaction (.emptyDefault D.dataSchema) D.property) =
      .ok (PropertyAffordance.default D) ∧
    ActionBuilder.build env (.empty D.interaction D.action) = .ok (ActionAffordance.default D) ∧
    EventBuilder.build env (.empty D.interaction D.event) = .ok (EventAffordance.default D) ∧
    FormBuilder.toForm ((FormBuilderF.new D.form).setHref href) = { Form.default D with href } ∧
    (UncheckedLink.ofCalls [] href []).tryInto env = .ok { Link.default with href } ∧
    AdditionalResponse.ofCalls [] = .default ∧
    Schema.tryInto env (UncheckedDataSchema.default D.dataSchema : UDS X) = .ok (.default D.dataSchema) := by
  refine ⟨?_, rfl, rfl, rfl, rfl, rfl, rfl, rfl⟩
  have hi : ∀ {V : Type}, env.iter ([] : HMap V) = [] := fun {V} => (env.iter_perm ([] : HMap V)).eq_nil
  unfold ThingBuilder.build
  simp only [ThingBuilder.new, buildSecDefs, checkCombos, tryMapVals, hi, orFail, bind, Except.bind,
    List.flatMap_nil]
  rfl

/-- What the builders of security schemes give when only the scheme is chosen, and the `flow` it cannot do without:
the `Default` of the scheme, and for digest schemes the quality of protection `auth`. -/
theorem C60_scheme_builder (flow : String) :
    (SecuritySchemeBuilder.ofCalls [.noSec]).map (·.scheme.subtype) = some .default ∧
    (SecuritySchemeBuilder.ofCalls [.basic]).map (·.scheme.subtype) = some (.known (.basic .default)) ∧
    (SecuritySchemeBuilder.ofCalls [.digest]).map (·.scheme.subtype) = some (.known (.digest .default)) ∧
    (SecuritySchemeBuilder.ofCalls [.bearer]).map (·.scheme.subtype) = some (.known (.bearer .default)) ∧
    (SecuritySchemeBuilder.ofCalls [.psk]).map (·.scheme.subtype) = some (.known (.psk .default)) ∧
    (SecuritySchemeBuilder.ofCalls [.apiKey]).map (·.scheme.subtype) = some (.known (.apiKey .default)) ∧
    (SecuritySchemeBuilder.ofCalls [.oauth2 flow]).map (·.scheme.subtype) =
      some (.known (.oauth2 { OAuth2Scheme.default with flow })) ∧
    (∀ b op, b ∈ SecuritySchemeBuilder.ofCalls [op] →
      b.attype = none ∧ b.description = none ∧ b.descriptions = none ∧ b.proxy = none) ∧
    DigestScheme.default.qop = .auth := by
  refine ⟨rfl, rfl, rfl, rfl, rfl, rfl, rfl, fun b op h => ?_, rfl⟩
  cases op <;> first | (cases h; exact ⟨rfl, rfl, rfl, rfl⟩) | cases h

/-- What the builders of data schemas give when only the kind is chosen. -/
theorem C60_kind_builder (env : Env) {op : SpecOp X.dataSchema X.arraySchema X.objectSchema}
    {k : SubtypeF X.arraySchema X.objectSchema (DS X)}
    (h : (op, k) ∈ [(.number, .number .default), (.integer, .integer .default), (.string, .string .default),
      (.vec D.arraySchema, .array (.default D.arraySchema)), (.object D.objectSchema, .object (.default D.objectSchema)),
      (.bool, .boolean), (.null, .default)]) :
    Schema.tryInto env (specialise (DataSchemaBuilder.empty D.dataSchema).finishExtend op).toUnchecked =
      .ok (.mk (DataSchema.default (AS := X.arraySchema) (OS := X.objectSchema) D.dataSchema).head none (some k)) := by
  simp only [List.mem_cons, List.not_mem_nil, or_false, Prod.mk.injEq] at h
  rcases h with ⟨rfl, rfl⟩ | ⟨rfl, rfl⟩ | ⟨rfl, rfl⟩ | ⟨rfl, rfl⟩ | ⟨rfl, rfl⟩ | ⟨rfl, rfl⟩ | ⟨rfl, rfl⟩ <;> rfl

/-! ### Extensions -/

private theorem blank_nil : Blank ExtCodec.nil () := fun _ _ => rfl

private theorem blank_cons {A B : Type} {a : ExtCodec A} {b : ExtCodec B} {x : A} {y : B} (ha : Blank a x)
    (hb : Blank b y) : Blank (.cons a b) ⟨x, y⟩ := by
  intro es h
  have h1 := ha es fun k hk => h k (List.mem_append_left _ hk)
  have h2 := hb (if a.takes then Wot.rest a.keys es else es) fun k hk => by
    have := h k (List.mem_append_right _ hk)
    split
    · exact this.rest _
    · exact this
  simp only [ExtCodec.cons, h1, h2, bind, pure, Option.bind_some]

theorem C60_nil : ExtCodecs.Blank .nil .nil :=
  ⟨blank_nil, blank_nil, blank_nil, blank_nil, blank_nil, blank_nil, blank_nil⟩

/-- Lists of extensions, given that the extensions do. -/
theorem C60_cons {T U : ExtTypes} {a : ExtCodecs T} {b : ExtCodecs U} {d : ExtDefaults T} {e : ExtDefaults U}
    (ha : a.Blank d) (hb : b.Blank e) : (ExtCodecs.cons a b).Blank (.cons d e) :=
  ⟨blank_cons ha.thing hb.thing, blank_cons ha.interaction hb.interaction, blank_cons ha.property hb.property,
    blank_cons ha.action hb.action, blank_cons ha.event hb.event, blank_cons ha.form hb.form,
    blank_cons ha.dataSchema hb.dataSchema⟩

private theorem optional_absent' {A : Type} {k : String} {de : Json → Option A} (h : Absent k es) :
    optional k de es = some none := by rw [optional, defaulted, occ_eq_nil.2 h]

private theorem defaulted_absent' {A : Type} {k : String} {d : A} {de : Json → Option A} (h : Absent k es) :
    defaulted k d de es = some d := by rw [defaulted, occ_eq_nil.2 h]

/-- The protocol bindings do. -/
theorem C60_protocols : Http.codecs.Blank Http.defaults ∧ Coap.codecs.Blank Coap.defaults ∧
    Mqtt.codecs.Blank Mqtt.defaults ∧ Blank Coap.codecs.response Coap.defaults.response := by
  refine ⟨⟨blank_nil, blank_nil, blank_nil, blank_nil, blank_nil, fun es h => ?_, blank_nil⟩,
    ⟨blank_nil, blank_nil, blank_nil, blank_nil, blank_nil, fun es h => ?_, blank_nil⟩,
    ⟨blank_nil, blank_nil, blank_nil, blank_nil, blank_nil, fun es h => ?_, blank_nil⟩, fun es h => ?_⟩
  · simp only [Http.codecs, Http.form, NoneOf, List.mem_cons, List.not_mem_nil, or_false, forall_eq] at h ⊢
    rw [optional_absent' h]; rfl
  · simp only [Coap.codecs, Coap.form, NoneOf, List.mem_cons, List.not_mem_nil, or_false, forall_eq,
      forall_eq_or_imp] at h ⊢
    obtain ⟨h1, h2, h3, h4, h5, h6⟩ := h
    rw [optional_absent' h1, optional_absent' h2, optional_absent' h3, optional_absent' h4, optional_absent' h5,
      optional_absent' h6]; rfl
  · simp only [Mqtt.codecs, Mqtt.form, NoneOf, List.mem_cons, List.not_mem_nil, or_false, forall_eq,
      forall_eq_or_imp] at h ⊢
    obtain ⟨h1, h2, h3, h4, h5⟩ := h
    rw [defaulted_absent' h1, optional_absent' h2, optional_absent' h3, optional_absent' h4, defaulted_absent' h5]; rfl
  · simp only [Coap.codecs, Coap.response, NoneOf, List.mem_cons, List.not_mem_nil, or_false, forall_eq] at h ⊢
    rw [optional_absent' h]; rfl

/-- The answers of the HTTP binding do not: their headers must be there, even if there are none. -/
theorem C60_http_response : ¬ Blank Http.codecs.response Http.defaults.response :=
  fun h => nomatch h [] fun _ _ hm => nomatch hm

namespace Demo

/-- The shortest document, with the three protocol bindings. -/
example : ∃ t, deThing (.cons Http.codecs (.cons Coap.codecs (.cons Mqtt.codecs .nil))) senv
    (.obj (document (.str "none"))) = some t ∧
    t = { Thing.default (.cons Http.defaults (.cons Coap.defaults (.cons Mqtt.defaults .nil))) with
          context := .str "https://www.w3.org/2022/wot/td/v1.1", title := t.title, security := t.security,
          securityDefinitions := t.securityDefinitions } := by
  refine ⟨_, rfl, C60_thing_partial (env := senv) (es := document (.str "none"))
    (C60_cons C60_protocols.1 (C60_cons C60_protocols.2.1 (C60_cons C60_protocols.2.2.1 C60_nil))) rfl ?_ ?_ ?_⟩
  · intro k hk v hm; revert k; simp [document]
  · simp [Absent, document]
  · intro k hk; cases hk

/-- A form of the MQTT binding of which only the target is given. -/
example : ∃ f, deForm Mqtt.codecs (.obj [("href", .str "x")]) = some f ∧
    f = { Form.default Mqtt.defaults with href := "x" } :=
  ⟨_, rfl, (C60_form (D := Mqtt.defaults) C60_protocols.2.2.1.form (es := [("href", .str "x")]) rfl
    (by intro k hk v hm; revert k; simp) (by intro k hk; revert k; simp [Absent, Mqtt.codecs, Mqtt.form]))⟩

/-- An action and an event of which only the forms are given, one member being `null`. -/
example : ∃ a e, deAction ExtCodecs.nil senv (.obj [("title", .null), ("forms", .arr [])]) = some a ∧
    deEvent ExtCodecs.nil senv (.obj [("forms", .arr [])]) = some e ∧
    a = { ActionAffordance.default .nil with
          interaction := { Interaction.default .nil with forms := a.interaction.forms } } ∧
    e = { EventAffordance.default .nil with
          interaction := { Interaction.default .nil with forms := e.interaction.forms } } :=
  ⟨_, _, rfl, rfl,
    C60_action (env := senv) (es := [("title", .null), ("forms", .arr [])]) C60_nil rfl
      (by intro k hk v hm; revert k; simp) (by intro k hk; cases hk),
    C60_event (env := senv) (es := [("forms", .arr [])]) C60_nil rfl
      (by intro k hk v hm; revert k; simp) (by intro k hk; cases hk)⟩

/-- A property of which only the forms are given, and a schema of which nothing is. -/
example : ∃ p s, deProperty ExtCodecs.nil senv (.obj [("forms", .arr [])]) = some p ∧
    deDS ExtCodecs.nil senv (.obj []) = some s ∧ s = DataSchema.default () ∧
    p = { PropertyAffordance.default .nil with
          interaction := { Interaction.default .nil with forms := p.interaction.forms } } :=
  ⟨_, _, rfl, rfl,
    C60_schema (D := .nil) (env := senv) (es := []) C60_nil.dataSchema rfl (by intro k hk v hm; cases hm)
      (by simp [Absent]) (by intro k hk; cases hk),
    C60_property (env := senv) (es := [("forms", .arr [])]) C60_nil rfl
      (by intro k hk v hm; revert k; simp) (by simp [Absent]) (by intro k hk; cases hk)⟩

/-- A number of which nothing but the type is said, one bound being `null`, and an array. -/
example : ∃ s a x y, deDS ExtCodecs.nil senv (.obj [("type", .str "number"), ("maximum", .null)]) = some s ∧
    deDS ExtCodecs.nil senv (.obj [("type", .str "array")]) = some a ∧
    s.subtype = some (.number x) ∧ x = .default ∧ a.subtype = some (.array y) ∧ y = .default () :=
  ⟨_, _, _, _, rfl, rfl, rfl,
    (C60_kinds (C := .nil) (D := .nil) (env := senv) (es := [("type", .str "number"), ("maximum", .null)]) rfl
      (by intro k hk v hm; revert k; simp)).1 _ rfl, rfl,
    (C60_kinds (C := .nil) (D := .nil) (env := senv) (es := [("type", .str "array")]) rfl
      (by intro k hk v hm; revert k; simp)).2.2.2.1 _ rfl (fun _ _ => rfl) (by intro k hk; cases hk)⟩

/-- A bearer token of which nothing is said. -/
example : ∃ s x, deSecurity senv (.obj [("scheme", .str "bearer")]) = some s ∧ s.subtype = .known (.bearer x) ∧
    x = .default :=
  have h := C60_security (env := senv) (es := [("scheme", .str "bearer")]) (s := _) rfl
    (by intro k hk v hm; revert k; simp)
  ⟨_, _, rfl, rfl, (h.2 (by intro k hk v hm; revert k; simp)).2.2.1 _ rfl⟩

end Demo
end Wot
