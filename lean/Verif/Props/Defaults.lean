import Verif.Lemmas.Defaults
import Verif.Lemmas.Spelled
import Verif.Lemmas.EditLaws
import Verif.Props.Documents
/-
C37: what is read when members are left out.
-/
namespace Wot

variable {X : ExtTypes} {C : ExtCodecs X} {env : SerdeEnv} {es es' : Members} {k : String} {v : Json}

/-! ### What is read -/

/-- A Thing without context has that of TD 1.1, otherwise the one that is given. Every optional member is absent in
the Thing iff it is left out in the document. -/
theorem C37_thing {t : Thing X} (h : deThing C env (.obj es) = some t) :
    (Absent "@context" es → t.context = .str "https://www.w3.org/2022/wot/td/v1.1") ∧
    (∀ v, ("@context", v) ∈ es → t.context = v.norm) ∧
    ∀ e ∈ [("id", t.id.isNone), ("@type", t.attype.isNone), ("titles", t.titles.isNone),
      ("description", t.description.isNone), ("descriptions", t.descriptions.isNone), ("version", t.version.isNone),
      ("created", t.created.isNone), ("modified", t.modified.isNone), ("support", t.support.isNone),
      ("base", t.base.isNone), ("properties", t.properties.isNone), ("actions", t.actions.isNone),
      ("events", t.events.isNone), ("links", t.links.isNone), ("forms", t.forms.isNone),
      ("uriVariables", t.uriVariables.isNone), ("profile", t.profile.isNone),
      ("schemaDefinitions", t.schemaDefinitions.isNone)], e.2 = true ↔ LeftOut e.1 es := by
  have h := deThing_iff.1 h
  refine ⟨fun ha => ?_, fun v hv => ?_, ?_⟩
  · have := h.context
    rw [defaulted, occ_eq_nil.2 ha] at this
    exact (Option.some.inj this).symm
  · rcases defaulted_eq_some h.context with ⟨ha, _⟩ | ⟨w, hw, e⟩
    · exact absurd (List.mem_map.2 ⟨_, hv, rfl⟩) ha
    · have := mem_occ.2 hv
      rw [hw] at this
      cases List.mem_singleton.1 this
      exact (Option.some.inj e).symm
  · simp only [List.mem_cons, List.not_mem_nil, or_false, forall_eq_or_imp, forall_eq, Option.isNone_iff_eq_none]
    exact ⟨optional_isNone h.id, optional_isNone h.attype, optional_isNone h.titles, optional_isNone h.description,
      optional_isNone h.descriptions, optional_isNone h.version, optional_isNone h.created, optional_isNone h.modified,
      optional_isNone h.support, optional_isNone h.base, optional_isNone h.properties, optional_isNone h.actions,
      optional_isNone h.events, optional_isNone h.links, optional_isNone h.forms, optional_isNone h.uriVariables,
      optional_isNone h.profile, optional_isNone h.schemaDefinitions⟩

/-- A form has the default operations iff `op` is left out. -/
theorem C37_form {f : Form X} (h : deForm C (.obj es) = some f) :
    (f.op = .default ↔ LeftOut "op" es) ∧
    ∀ e ∈ [("contentType", f.contentType.isNone), ("contentCoding", f.contentCoding.isNone),
      ("subprotocol", f.subprotocol.isNone), ("security", f.security.isNone), ("scopes", f.scopes.isNone),
      ("response", f.response.isNone), ("additionalResponses", f.additionalResponses.isNone)],
      e.2 = true ↔ LeftOut e.1 es := by
  have h := deForm_iff.1 h
  refine ⟨?_, ?_⟩
  · have h0 : optional "op" deOperations es = some (match f.op with
        | .default => none
        | .custom l => some l) := by
      have := h.op
      unfold optional
      rcases defaulted_eq_some this with ⟨ha, e⟩ | ⟨v, hv, e⟩
      · rw [defaulted, occ_eq_nil.2 ha, e]
      · rw [defaulted, hv]
        unfold deOps at e
        obtain ⟨o, ho, e⟩ := Option.map_eq_some_iff.1 e
        cases o <;> (simp only at e; rw [← e]; exact ho)
    rw [← optional_isNone h0]
    cases f.op <;> simp
  · simp only [List.mem_cons, List.not_mem_nil, or_false, forall_eq_or_imp, forall_eq, Option.isNone_iff_eq_none]
    exact ⟨optional_isNone h.contentType, optional_isNone h.contentCoding, optional_isNone h.subprotocol,
      optional_isNone h.security, optional_isNone h.scopes, optional_isNone h.response,
      optional_isNone h.additionalResponses⟩

/-- An additional response is one of success only if it says so. -/
theorem C37_additional {r : AdditionalResponse} (h : deAdditional (.obj es) = some r) :
    (r.success = true ↔ ("success", .bool true) ∈ es) ∧
    (r.contentType = none ↔ LeftOut "contentType" es) ∧ (r.schema = none ↔ LeftOut "schema" es) :=
  have h := deAdditional_iff.1 h
  ⟨flag_iff h.success, optional_isNone h.contentType, optional_isNone h.schema⟩

/-- Links have no defaults. -/
theorem C37_link {l : Link} (h : deLink env (.obj es) = some l) :
    ∀ e ∈ [("type", l.ty.isNone), ("rel", l.rel.isNone), ("anchor", l.anchor.isNone), ("sizes", l.sizes.isNone),
      ("hreflang", l.hreflang.isNone)], e.2 = true ↔ LeftOut e.1 es := by
  have h := deLink_iff.1 h
  simp only [List.mem_cons, List.not_mem_nil, or_false, forall_eq_or_imp, forall_eq, Option.isNone_iff_eq_none]
  exact ⟨optional_isNone h.ty, optional_isNone h.rel, optional_isNone h.anchor, optional_isNone h.sizes,
    optional_isNone h.hreflang⟩

theorem schema_defaults {DSx AS OS : Type} {c : ExtCodec DSx} {CA : ExtCodec AS} {CO : ExtCodec OS}
    {sub : Json → Option (DataSchema DSx AS OS)} {s : DataSchema DSx AS OS}
    (h : deSchemaMembers c CA CO env sub es = some s) :
    (s.head.readOnly = true ↔ ("readOnly", .bool true) ∈ es) ∧
    (s.head.writeOnly = true ↔ ("writeOnly", .bool true) ∈ es) ∧ (Absent "type" es → s.subtype = none) ∧
    ∀ e ∈ [("@type", s.head.attype.isNone), ("title", s.head.title.isNone), ("titles", s.head.titles.isNone),
      ("description", s.head.description.isNone), ("descriptions", s.head.descriptions.isNone),
      ("const", s.head.constant.isNone), ("default", s.head.default.isNone), ("unit", s.head.unit.isNone),
      ("oneOf", s.oneOf.isNone), ("enum", s.head.enumeration.isNone), ("format", s.head.format.isNone)],
      e.2 = true ↔ LeftOut e.1 es := by
  have h := deSchemaMembers_iff.1 h
  refine ⟨flag_iff h.readOnly, flag_iff h.writeOnly, fun ha => ?_, ?_⟩
  · rw [← h.subtype, deSchemaSubtype]
    simp only [bind, required, occ_rest_of (k := "type") (K := schemaKeys) (by decide), occ_eq_nil.2 ha]
    rfl
  · simp only [List.mem_cons, List.not_mem_nil, or_false, forall_eq_or_imp, forall_eq, Option.isNone_iff_eq_none]
    exact ⟨optional_isNone h.attype, optional_isNone h.title, optional_isNone h.titles, optional_isNone h.description,
      optional_isNone h.descriptions, optional_isNone h.constant, optional_isNone h.default, optional_isNone h.unit,
      optional_isNone h.oneOf, optional_isNone h.enumeration, optional_isNone h.format⟩

/-- A data schema is read-only or write-only only if it says so, and it has no type if `type` is missing. -/
theorem C37_schema {s : DS X} (h : deDS C env (.obj es) = some s) :
    (s.head.readOnly = true ↔ ("readOnly", .bool true) ∈ es) ∧
    (s.head.writeOnly = true ↔ ("writeOnly", .bool true) ∈ es) ∧ (Absent "type" es → s.subtype = none) ∧
    ∀ e ∈ [("@type", s.head.attype.isNone), ("title", s.head.title.isNone), ("titles", s.head.titles.isNone),
      ("description", s.head.description.isNone), ("descriptions", s.head.descriptions.isNone),
      ("const", s.head.constant.isNone), ("default", s.head.default.isNone), ("unit", s.head.unit.isNone),
      ("oneOf", s.oneOf.isNone), ("enum", s.head.enumeration.isNone), ("format", s.head.format.isNone)],
      e.2 = true ↔ LeftOut e.1 es := by
  rw [deDS, deSchema_obj] at h
  exact schema_defaults h

theorem LeftOut.rest {K : List String} (hk : k ∉ K) : LeftOut k (rest K es) ↔ LeftOut k es := by
  unfold LeftOut
  exact forall_congr' fun v => by rw [mem_rest_iff hk]

theorem interaction_defaults {K : List String} (hK : ∀ k ∈ Names.interaction, k ∉ K) {i : Interaction X}
    (h : deInteraction C env (rest K es) = some i) :
    ∀ e ∈ [("@type", i.attype.isNone), ("title", i.title.isNone), ("titles", i.titles.isNone),
      ("description", i.description.isNone), ("descriptions", i.descriptions.isNone),
      ("uriVariables", i.uriVariables.isNone)], e.2 = true ↔ LeftOut e.1 es := by
  have h := deInteraction_iff.1 h
  simp only [List.mem_cons, List.not_mem_nil, or_false, forall_eq_or_imp, forall_eq, Option.isNone_iff_eq_none]
  exact ⟨(optional_isNone h.attype).trans (LeftOut.rest (hK _ (by decide))),
    (optional_isNone h.title).trans (LeftOut.rest (hK _ (by decide))),
    (optional_isNone h.titles).trans (LeftOut.rest (hK _ (by decide))),
    (optional_isNone h.description).trans (LeftOut.rest (hK _ (by decide))),
    (optional_isNone h.descriptions).trans (LeftOut.rest (hK _ (by decide))),
    (optional_isNone h.uriVariables).trans (LeftOut.rest (hK _ (by decide)))⟩

/-- A property: as for its data schema. -/
theorem C37_property {p : PropertyAffordance X} (h : deProperty C env (.obj es) = some p) :
    (p.dataSchema.head.readOnly = true ↔ ("readOnly", .bool true) ∈ es) ∧
    (p.dataSchema.head.writeOnly = true ↔ ("writeOnly", .bool true) ∈ es) ∧
    (p.observable = none ↔ LeftOut "observable" es) ∧
    ∀ e ∈ [("@type", p.interaction.attype.isNone), ("title", p.interaction.title.isNone),
      ("titles", p.interaction.titles.isNone), ("description", p.interaction.description.isNone),
      ("descriptions", p.interaction.descriptions.isNone), ("uriVariables", p.interaction.uriVariables.isNone)],
      e.2 = true ↔ LeftOut e.1 es := by
  have h := deProperty_iff.1 h
  obtain ⟨h1, h2, _⟩ := schema_defaults h.dataSchema
  rw [mem_rest_iff (by simp)] at h1 h2
  exact ⟨h1, h2, optional_isNone h.observable, interaction_defaults (by decide) h.interaction⟩

/-- An action is safe or idempotent only if it says so. -/
theorem C37_action {a : ActionAffordance X} (h : deAction C env (.obj es) = some a) :
    (a.safe = true ↔ ("safe", .bool true) ∈ es) ∧ (a.idempotent = true ↔ ("idempotent", .bool true) ∈ es) ∧
    ∀ e ∈ [("input", a.input.isNone), ("output", a.output.isNone), ("synchronous", a.synchronous.isNone),
      ("@type", a.interaction.attype.isNone), ("title", a.interaction.title.isNone),
      ("titles", a.interaction.titles.isNone), ("description", a.interaction.description.isNone),
      ("descriptions", a.interaction.descriptions.isNone), ("uriVariables", a.interaction.uriVariables.isNone)],
      e.2 = true ↔ LeftOut e.1 es := by
  have h := deAction_iff.1 h
  refine ⟨flag_iff h.safe, flag_iff h.idempotent, ?_⟩
  have h' := interaction_defaults (K := actionKeys) (by decide) h.interaction
  simp only [List.mem_cons, List.not_mem_nil, or_false, forall_eq_or_imp, forall_eq, Option.isNone_iff_eq_none] at h' ⊢
  exact ⟨optional_isNone h.input, optional_isNone h.output, optional_isNone h.synchronous, h'⟩

/-- Events have no defaults. -/
theorem C37_event {a : EventAffordance X} (h : deEvent C env (.obj es) = some a) :
    ∀ e ∈ [("subscription", a.subscription.isNone), ("data", a.data.isNone), ("data_response", a.dataResponse.isNone),
      ("cancellation", a.cancellation.isNone),
      ("@type", a.interaction.attype.isNone), ("title", a.interaction.title.isNone),
      ("titles", a.interaction.titles.isNone), ("description", a.interaction.description.isNone),
      ("descriptions", a.interaction.descriptions.isNone), ("uriVariables", a.interaction.uriVariables.isNone)],
      e.2 = true ↔ LeftOut e.1 es := by
  have h := deEvent_iff.1 h
  have h' := interaction_defaults (K := eventKeys) (by decide) h.interaction
  simp only [List.mem_cons, List.not_mem_nil, or_false, forall_eq_or_imp, forall_eq, Option.isNone_iff_eq_none] at h' ⊢
  exact ⟨optional_isNone h.subscription, optional_isNone h.data, optional_isNone h.dataResponse,
    optional_isNone h.cancellation, h'⟩

theorem readTag_of {s : SchemeSubtype} {n : KnownScheme} (h : deSubtype es = some s) (hs : s = .known n) :
    ∃ tag, readTag (rest ["scheme"] es) tag = some n := by
  subst hs
  unfold deSubtype at h
  cases hk : deKnown es with
  | none =>
    rw [hk] at h
    simp only [deUnknown, bind, pure] at h
    obtain ⟨_, _, h⟩ := Option.bind_eq_some_iff.1 h
    cases h
  | some k =>
    rw [hk] at h
    cases h
    rw [deKnown_eq] at hk
    obtain ⟨tag, _, h⟩ := Option.bind_eq_some_iff.1 hk
    exact ⟨tag, h⟩

theorem defaulted_absent_eq {α : Type} {d r : α} {de : Json → Option α} {K : List String}
    (h : defaulted k d de (rest K es) = some r) (ha : Absent k es) : r = d := by
  rw [defaulted, occ_eq_nil.2 (ha.rest K)] at h
  exact (Option.some.inj h).symm

/-- The location of credentials is the header, for API keys the query; bearer tokens are ES256 JWTs. -/
theorem C37_security {s : SecurityScheme} (h : deSecurity env (.obj es) = some s) :
    (∀ b, s.subtype = .known (.basic b) → Absent "in" es → b.location = .header) ∧
    (∀ b, s.subtype = .known (.digest b) → Absent "in" es → b.location = .header) ∧
    (∀ b, s.subtype = .known (.bearer b) → Absent "in" es → b.location = .header) ∧
    (∀ b, s.subtype = .known (.apiKey b) → Absent "in" es → b.location = .query) ∧
    (∀ b, s.subtype = .known (.bearer b) → Absent "alg" es → b.alg = "ES256") ∧
    (∀ b, s.subtype = .known (.bearer b) → Absent "format" es → b.format = "jwt") := by
  have h' := (deSecurity_iff.1 h).subtype
  have cut : rest ["scheme"] (rest securityKeys es) = rest (securityKeys ++ ["scheme"]) es := rest_rest _ _
  refine ⟨fun b hs ha => ?_, fun b hs ha => ?_, fun b hs ha => ?_, fun b hs ha => ?_, fun b hs ha => ?_,
    fun b hs ha => ?_⟩ <;> obtain ⟨tag, hr⟩ := readTag_of h' hs <;> rw [cut] at hr <;>
    cases tag <;> simp only [readTag, pure, Option.map_eq_some_iff, Option.some.injEq, reduceCtorEq, and_false,
      exists_false, KnownScheme.basic.injEq, KnownScheme.digest.injEq, KnownScheme.bearer.injEq,
      KnownScheme.apiKey.injEq, exists_eq_right] at hr
  · exact defaulted_absent_eq (deBasic_iff.1 hr).location ha
  · exact defaulted_absent_eq (deDigest_iff.1 hr).location ha
  · exact defaulted_absent_eq (deBearer_iff.1 hr).location ha
  · exact defaulted_absent_eq (deApiKey_iff.1 hr).location ha
  · exact defaulted_absent_eq (deBearer_iff.1 hr).alg ha
  · exact defaulted_absent_eq (deBearer_iff.1 hr).format ha

/-! ### Spelling out a default changes nothing

The tables are in `Spec/Defaults.lean`. -/

theorem C37_spelled_thing (hd : (k, v) ∈ Defaults.thing) (ha : Absent k es) (hi : Inserted k v es es') :
    deThing C env (.obj es) = deThing C env (.obj es') := Filled.thing ⟨hi, ha, hd⟩

theorem C37_spelled_form (hd : (k, v) ∈ Defaults.form) (ha : Absent k es) (hi : Inserted k v es es') :
    deForm C (.obj es) = deForm C (.obj es') := Filled.form ⟨hi, ha, hd⟩

theorem C37_spelled_parts (ha : Absent k es) (hi : Inserted k v es es') :
    ((k, v) ∈ Defaults.additional → deAdditional (.obj es) = deAdditional (.obj es')) ∧
    ((k, v) ∈ Defaults.version → deVersion (.obj es) = deVersion (.obj es')) ∧
    ((k, v) ∈ Defaults.link → deLink env (.obj es) = deLink env (.obj es')) :=
  ⟨fun hd => Filled.additional ⟨hi, ha, hd⟩, fun hd => Filled.version ⟨hi, ha, hd⟩, fun hd => Filled.link ⟨hi, ha, hd⟩⟩

/-- Extensions read members of their own only. -/
theorem C37_spelled_schema (loc : C.Local) (sep : C.Separate) (hd : (k, v) ∈ Defaults.schema) (ha : Absent k es)
    (hi : Inserted k v es es') : deDS C env (.obj es) = deDS C env (.obj es') := Filled.schema loc sep ⟨hi, ha, hd⟩

theorem C37_spelled_affordances (loc : C.Local) (sep : C.Separate) (ha : Absent k es) (hi : Inserted k v es es') :
    ((k, v) ∈ Defaults.property → deProperty C env (.obj es) = deProperty C env (.obj es')) ∧
    ((k, v) ∈ Defaults.action → deAction C env (.obj es) = deAction C env (.obj es')) ∧
    ((k, v) ∈ Defaults.event → deEvent C env (.obj es) = deEvent C env (.obj es')) :=
  ⟨fun hd => Filled.property loc sep ⟨hi, ha, hd⟩, fun hd => Filled.action loc sep ⟨hi, ha, hd⟩,
    fun hd => Filled.event loc sep ⟨hi, ha, hd⟩⟩

theorem C37_spelled_security (hd : (k, v) ∈ Defaults.security) (ha : Absent k es) (hi : Inserted k v es es') :
    deSecurity env (.obj es) = deSecurity env (.obj es') := Filled.security ⟨hi, ha, hd⟩

/-- The defaults of a predefined scheme. -/
theorem C37_spelled_scheme {s : SecurityScheme} {n : KnownScheme} (h : deSecurity env (.obj es) = some s)
    (hs : s.subtype = .known n) (hd : (k, v) ∈ Defaults.scheme n) (ha : Absent k es) (hi : Inserted k v es es') :
    deSecurity env (.obj es') = some s := Filled.scheme ⟨hi, ha, hd⟩ h hs

namespace Demo

/-- A bearer token of which nothing is said. -/
example : ∃ s, deSecurity senv (.obj [("scheme", .str "bearer")]) = some s ∧
    s.subtype = .known (.bearer ⟨none, "ES256", "jwt", .header, none⟩) ∧
    deSecurity senv (.obj [("alg", .str "ES256"), ("scheme", .str "bearer")]) = some s :=
  ⟨_, rfl, rfl, C37_spelled_scheme (es := [("scheme", .str "bearer")]) rfl rfl (k := "alg") (v := .str "ES256")
    (by simp [Defaults.scheme]) (by simp [Absent]) ⟨[], [_], rfl, rfl⟩⟩

/-- An API key of which nothing is said. -/
example : ∃ s, deSecurity senv (.obj [("scheme", .str "apikey")]) = some s ∧
    s.subtype = .known (.apiKey ⟨.query, none⟩) ∧ Absent "in" [("scheme", Json.str "apikey")] :=
  ⟨_, rfl, rfl, by simp [Absent]⟩

/-- The shortest document. -/
example : ∃ t, deThing .nil senv (.obj (document (.str "none"))) = some t ∧ t.id = none ∧
    t.context = .str "https://www.w3.org/2022/wot/td/v1.1" ∧
    deThing .nil senv (.obj (("@context", .str "https://www.w3.org/2022/wot/td/v1.1") :: document (.str "none"))) =
      some t := by
  have e := C37_spelled_thing (C := .nil) (env := senv) (es := document (.str "none")) (List.mem_cons_self ..)
    (by simp [Absent, document]) ⟨[], _, rfl, rfl⟩
  obtain ⟨h, _, h'⟩ := C37_thing (C := .nil) (env := senv) (es := document (.str "none")) (t := _) rfl
  exact ⟨_, rfl, rfl, h (by simp [Absent, document]), e ▸ rfl⟩

/-- An action of which nothing but its forms is said. -/
example : ∃ a, deAction ExtCodecs.nil senv (.obj [("forms", .arr [])]) = some a ∧ a.safe = false ∧
    deAction ExtCodecs.nil senv (.obj [("forms", .arr []), ("safe", .bool false)]) = some a :=
  ⟨_, rfl, rfl, ((C37_spelled_affordances (C := .nil) (env := senv) ExtCodecs.nil_local nil_separate
    (es := [("forms", .arr [])]) (by simp [Absent]) ⟨[_], [], rfl, rfl⟩).2.1 (List.mem_cons_self ..)).symm.trans rfl⟩

/-- A read-only schema, and one that is neither. -/
example : ∃ s s', deDS ExtCodecs.nil senv (.obj [("readOnly", .bool true), ("type", .str "null")]) = some s ∧
    deDS ExtCodecs.nil senv (.obj [("type", .str "null")]) = some s' ∧
    s.head.readOnly = true ∧ s'.head.readOnly = false ∧ s'.head.unit = none := ⟨_, _, rfl, rfl, rfl, rfl, rfl⟩

end Demo
end Wot
