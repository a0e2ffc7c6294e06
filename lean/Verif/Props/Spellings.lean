import Verif.Lemmas.Reading
import Verif.Props.DemoStore
/-
C33: members that are one value or an array of values.
-/
namespace Wot

variable {X : ExtTypes} {C : ExtCodecs X} {env : SerdeEnv}

/-! ### Writing -/

theorem spelled_members {L : List (String × Option Json)} {k : String} {l : List Json} {o : Members}
    (h : (k, some (serOneOrMany l)) ∈ L) : Spelled (members L ++ o) k l := by
  have hm : (k, serOneOrMany l) ∈ members L := List.mem_filterMap.2 ⟨_, h, rfl⟩
  constructor
  · rintro v rfl
    exact List.mem_append_left _ hm
  · intro hl
    have : serOneOrMany l = .arr l := by
      match l, hl with
      | [], _ => rfl
      | _ :: _ :: _, _ => rfl
    rw [this] at hm
    exact List.mem_append_left _ hm

/-- The lists of a Thing are written as one value if they have one element, and as an array otherwise. -/
theorem C33_thing_written {t : Thing X} {j : Json} (h : toText C env t = some j) :
    ∃ m, j = .obj m ∧ Spelled m "security" (t.security.map .str) ∧
      (∀ l, t.attype = some l → Spelled m "@type" (l.map .str)) ∧
      ∀ l, t.profile = some l → Spelled m "profile" (l.map .str) := by
  simp only [toText, serThing, bind, pure] at h
  obtain ⟨_, _, h⟩ := Option.bind_eq_some_iff.1 h
  obtain ⟨_, _, h⟩ := Option.bind_eq_some_iff.1 h
  obtain ⟨_, _, h⟩ := Option.bind_eq_some_iff.1 h
  obtain ⟨_, _, h⟩ := Option.bind_eq_some_iff.1 h
  obtain ⟨_, _, h⟩ := Option.bind_eq_some_iff.1 h
  obtain ⟨_, _, h⟩ := Option.bind_eq_some_iff.1 h
  obtain ⟨_, _, h⟩ := Option.bind_eq_some_iff.1 h
  obtain ⟨_, _, h⟩ := Option.bind_eq_some_iff.1 h
  obtain ⟨_, _, h⟩ := Option.bind_eq_some_iff.1 h
  obtain ⟨_, _, h⟩ := Option.bind_eq_some_iff.1 h
  cases h
  refine ⟨_, rfl, spelled_members (by simp [serStrings]), fun l hl => spelled_members ?_,
    fun l hl => spelled_members ?_⟩
  · simp [hl, serStrings]
  · simp [hl, serStrings]

/-- The same for forms; operations are always an array. -/
theorem C33_form_written {f : Form X} {j : Json} (h : serForm C f = some j) :
    ∃ m, j = .obj m ∧ (∀ l, f.security = some l → Spelled m "security" (l.map .str)) ∧
      (∀ l, f.scopes = some l → Spelled m "scopes" (l.map .str)) ∧
      (∀ l, f.additionalResponses = some l → Spelled m "additionalResponses" (l.map serAdditional)) ∧
      ∀ o l, f.op = .custom (o :: l) → ("op", .arr ((o :: l).map serOperation)) ∈ m := by
  simp only [serForm, bind, pure] at h
  obtain ⟨_, _, h⟩ := Option.bind_eq_some_iff.1 h
  obtain ⟨_, _, h⟩ := Option.bind_eq_some_iff.1 h
  cases h
  refine ⟨_, rfl, fun l hl => spelled_members ?_, fun l hl => spelled_members ?_,
    fun l hl => spelled_members ?_, fun o l hl => List.mem_append_left _ (List.mem_filterMap.2
      ⟨("op", opMember f.op), by simp, by simp [hl, opMember, serOps]⟩)⟩
  · simp [hl, serStrings]
  · simp [hl, serStrings]
  · simp [hl]

/-! ### Reading -/

/-- Whether a text is in brackets or not does not matter for `@type`, `security` and `profile` of a Thing,
whatever the rest of the document is. -/
theorem C33_thing_read {k s : String} (hk : k ∈ ["@type", "security", "profile"]) {es es' : Members}
    (h : Replaced k (.str s) (.arr [.str s]) es es') : deThing C env (.obj es) = deThing C env (.obj es') := by
  have hd : ∀ {α : Type} (k' : String) (d : α) (de : Json → Option α), k' ≠ k →
    defaulted k' d de es = defaulted k' d de es' := h.defaulted_ne
  have hr : ∀ {α : Type} (k' : String) (de : Json → Option α), k' ≠ k →
    required k' de es = required k' de es' := h.required_ne
  have h1 := h.defaulted none (optStrings_one s)
  have h2 := h.required (strings_one s)
  have h3 : rest thingKeys es = rest thingKeys es' := h.rest_eq (by
    simp only [List.mem_cons, List.not_mem_nil, or_false] at hk
    rcases hk with rfl | rfl | rfl <;> decide)
  simp only [List.mem_cons, List.not_mem_nil, or_false] at hk
  rcases hk with rfl | rfl | rfl
  · simp (disch := decide) only [deThing, optional, hd, hr, h1, h3]
  · simp (disch := decide) only [deThing, optional, hd, hr, h2, h3]
  · simp (disch := decide) only [deThing, optional, hd, hr, h1, h3]

/-- The same for `security` and `scopes` of a form. -/
theorem C33_form_read {k s : String} (hk : k ∈ ["security", "scopes"]) {es es' : Members}
    (h : Replaced k (.str s) (.arr [.str s]) es es') : deForm C (.obj es) = deForm C (.obj es') := by
  have hd : ∀ {α : Type} (k' : String) (d : α) (de : Json → Option α), k' ≠ k →
    defaulted k' d de es = defaulted k' d de es' := h.defaulted_ne
  have hr : ∀ {α : Type} (k' : String) (de : Json → Option α), k' ≠ k →
    required k' de es = required k' de es' := h.required_ne
  have h1 := h.defaulted none (optStrings_one s)
  simp only [List.mem_cons, List.not_mem_nil, or_false] at hk
  rcases hk with rfl | rfl
  · simp (disch := decide) only [deForm, optional, hd, hr, h1, h.rest_eq (K := formKeys) (by decide)]
  · simp (disch := decide) only [deForm, optional, hd, hr, h1, h.rest_eq (K := formKeys) (by decide)]

/-- The same for the operations of a form. -/
theorem C33_form_op_read {o : FormOperation} {es es' : Members}
    (h : Replaced "op" (.str o.display) (.arr [.str o.display]) es es') :
    deForm C (.obj es) = deForm C (.obj es') := by
  have hd : ∀ {α : Type} (k' : String) (d : α) (de : Json → Option α), k' ≠ "op" →
    defaulted k' d de es = defaulted k' d de es' := h.defaulted_ne
  have hr : ∀ {α : Type} (k' : String) (de : Json → Option α), k' ≠ "op" →
    required k' de es = required k' de es' := h.required_ne
  have h1 : defaulted "op" .default deOps es = defaulted "op" .default deOps es' :=
    h.defaulted _ (by cases o <;> rfl)
  simp (disch := decide) only [deForm, optional, hd, hr, h1, h.rest_eq (K := formKeys) (by decide)]

/-- The same for an additional response, which is an object. -/
theorem C33_form_response_read {m es es' : Members}
    (h : Replaced "additionalResponses" (.obj m) (.arr [.obj m]) es es') :
    deForm C (.obj es) = deForm C (.obj es') := by
  have hd : ∀ {α : Type} (k' : String) (d : α) (de : Json → Option α), k' ≠ "additionalResponses" →
    defaulted k' d de es = defaulted k' d de es' := h.defaulted_ne
  have hr : ∀ {α : Type} (k' : String) (de : Json → Option α), k' ≠ "additionalResponses" →
    required k' de es = required k' de es' := h.required_ne
  have h1 := h.defaulted none (de := deOption (deOneOrMany deAdditional)) (by
    cases e : deAdditional (.obj m) with
    | some a => exact option_one e rfl nofun
    | none =>
      have : deAdditional (.arr [.obj m]) = none := rfl
      simp [deOption, deOneOrMany, e, this, deVec, mapOpt])
  simp (disch := decide) only [deForm, optional, hd, hr, h1, h.rest_eq (K := formKeys) (by decide)]

/-- The same for the language of a link. -/
theorem C33_link_read {s : String} {es es' : Members}
    (h : Replaced "hreflang" (.str s) (.arr [.str s]) es es') :
    deLink env (.obj es) = deLink env (.obj es') := by
  have hd : ∀ {α : Type} (k' : String) (d : α) (de : Json → Option α), k' ≠ "hreflang" →
    defaulted k' d de es = defaulted k' d de es' := h.defaulted_ne
  have hr : ∀ {α : Type} (k' : String) (de : Json → Option α), k' ≠ "hreflang" →
    required k' de es = required k' de es' := h.required_ne
  have h1 := h.defaulted none (de := deOption (deOneOrMany (deTagText env))) (by
    cases e : deTagText env (.str s) with
    | some a => exact option_one e rfl nofun
    | none =>
      have : deTagText env (.arr [.str s]) = none := rfl
      simp [deOption, deOneOrMany, e, this, deVec, mapOpt])
  simp (disch := decide) only [deLink, optional, hd, hr, h1]

/-- The same for `@type` of a data schema. -/
theorem C33_schema_read {s : String} {es es' : Members}
    (h : Replaced "@type" (.str s) (.arr [.str s]) es es') : deDS C env (.obj es) = deDS C env (.obj es') := by
  have hd : ∀ {α : Type} (k' : String) (d : α) (de : Json → Option α), k' ≠ "@type" →
    defaulted k' d de es = defaulted k' d de es' := h.defaulted_ne
  have h1 := h.defaulted none (optStrings_one s)
  simp (disch := decide) only [deDS, deSchema_obj, deSchemaMembers, optional, hd, h1,
    h.rest_eq (K := schemaKeys) (by decide)]

theorem type_interaction {s : String} {es es' : Members}
    (h : Replaced "@type" (.str s) (.arr [.str s]) es es') : deInteraction C env es = deInteraction C env es' := by
  have hd : ∀ {α : Type} (k' : String) (d : α) (de : Json → Option α), k' ≠ "@type" →
    defaulted k' d de es = defaulted k' d de es' := h.defaulted_ne
  have hr : ∀ {α : Type} (k' : String) (de : Json → Option α), k' ≠ "@type" →
    required k' de es = required k' de es' := h.required_ne
  have h1 := h.defaulted none (optStrings_one s)
  simp (disch := decide) only [deInteraction, optional, hd, hr, h1, h.rest_eq (K := interactionKeys) (by decide)]

/-- The same for `@type` of properties, actions and events, if extensions have names of their own. -/
theorem C33_affordance_read (sep : C.Separate) (loc : C.Local) {s : String} {es es' : Members}
    (h : Replaced "@type" (.str s) (.arr [.str s]) es es') :
    deProperty C env (.obj es) = deProperty C env (.obj es') ∧
    deAction C env (.obj es) = deAction C env (.obj es') ∧
    deEvent C env (.obj es) = deEvent C env (.obj es') := by
  have hd : ∀ {α : Type} (k' : String) (d : α) (de : Json → Option α), k' ≠ "@type" →
    defaulted k' d de es = defaulted k' d de es' := h.defaulted_ne
  refine ⟨?_, ?_, ?_⟩
  · have h0 := h.rest (K := ["observable"]) (by decide)
    have e1 : C.property.de (rest ["observable"] es) = C.property.de (rest ["observable"] es') :=
      loc.property _ _ fun k hk => h0.occ_ne k fun e => sep.property k hk (by simp [e, Names.interaction])
    have e2 := type_interaction (C := C) (env := env) h0
    have e3 : deSchemaMembers C.dataSchema C.arraySchema C.objectSchema env (deDS C env) (rest ["observable"] es) =
        deSchemaMembers C.dataSchema C.arraySchema C.objectSchema env (deDS C env) (rest ["observable"] es') := by
      have := C33_schema_read (C := C) (env := env) h0
      rwa [deDS, deSchema_obj, deSchema_obj] at this
    simp (disch := decide) only [deProperty, optional, hd, e1, e2, e3]
  · have h0 := h.rest (K := actionKeys) (by decide)
    have e1 : C.action.de (rest actionKeys es) = C.action.de (rest actionKeys es') :=
      loc.action _ _ fun k hk => h0.occ_ne k fun e => sep.action k hk (by simp [e, Names.interaction])
    simp (disch := decide) only [deAction, optional, hd, e1, type_interaction (C := C) (env := env) h0]
  · have h0 := h.rest (K := eventKeys) (by decide)
    have e1 : C.event.de (rest eventKeys es) = C.event.de (rest eventKeys es') :=
      loc.event _ _ fun k hk => h0.occ_ne k fun e => sep.event k hk (by simp [e, Names.interaction])
    simp (disch := decide) only [deEvent, optional, hd, e1, type_interaction (C := C) (env := env) h0]

/-- The same for `@type` of a security definition. -/
theorem C33_security_read {s : String} {es es' : Members}
    (h : Replaced "@type" (.str s) (.arr [.str s]) es es') :
    deSecurity env (.obj es) = deSecurity env (.obj es') := by
  have hd : ∀ {α : Type} (k' : String) (d : α) (de : Json → Option α), k' ≠ "@type" →
    defaulted k' d de es = defaulted k' d de es' := h.defaulted_ne
  have h1 := h.defaulted none (optStrings_one s)
  simp (disch := decide) only [deSecurity, optional, hd, h1, h.rest_eq (K := securityKeys) (by decide)]

/-- The same for the scopes of OAuth2 and the schemes of a combination, in definitions that are read as
predefined ones. (A custom scheme keeps the value as it is.) -/
theorem C33_scheme_read {k s : String} (hk : k ∈ ["scopes", "oneOf", "allOf"]) {es es' : Members}
    (h : Replaced k (.str s) (.arr [.str s]) es es') {d : SecurityScheme} {n : KnownScheme}
    (hs : d.subtype = .known n) :
    deSecurity env (.obj es) = some d ↔ deSecurity env (.obj es') = some d := by
  have hks : k ∉ securityKeys := by
    simp only [List.mem_cons, List.not_mem_nil, or_false] at hk
    rcases hk with rfl | rfl | rfl <;> decide
  have hd : ∀ {α : Type} (k' : String) (d : α) (de : Json → Option α), k' ≠ k →
    defaulted k' d de es = defaulted k' d de es' := h.defaulted_ne
  have e1 : deKnown (rest securityKeys es) = deKnown (rest securityKeys es') := by
    have h1 := h.rest hks
    generalize rest securityKeys es = fs at h1
    generalize rest securityKeys es' = fs' at h1
    have h2 : Replaced k (.str s) (.arr [.str s]) (rest ["scheme"] fs) (rest ["scheme"] fs') := h1.rest (by
      simp only [List.mem_cons, List.not_mem_nil, or_false] at hk
      rcases hk with rfl | rfl | rfl <;> decide)
    have hr : required "scheme" (deTag schemeTable) fs = required "scheme" (deTag schemeTable) fs' :=
      h1.required_ne _ _ (by
        simp only [List.mem_cons, List.not_mem_nil, or_false] at hk
        rcases hk with rfl | rfl | rfl <;> decide)
    have hcombo : deCombo (rest ["scheme"] fs) = deCombo (rest ["scheme"] fs') := by
      obtain ⟨a, b, ha, hb⟩ := h2
      rw [ha, hb]
      match a, b with
      | [], [] =>
        simp only [List.nil_append, deCombo, strings_one]
      | _ :: _, _ => simp [deCombo]
      | [], _ :: _ => simp [deCombo]
    simp only [deKnown, hr]
    generalize rest ["scheme"] fs = gs at h2 hcombo ⊢
    generalize rest ["scheme"] fs' = gs' at h2 hcombo ⊢
    have hd2 : ∀ {α : Type} (k' : String) (d : α) (de : Json → Option α), k' ≠ k →
      defaulted k' d de gs = defaulted k' d de gs' := h2.defaulted_ne
    have hr2 : ∀ {α : Type} (k' : String) (de : Json → Option α), k' ≠ k →
      required k' de gs = required k' de gs' := h2.required_ne
    have h3 : defaulted "scopes" none (deOption deStrings) gs = defaulted "scopes" none (deOption deStrings) gs' := by
      by_cases e : k = "scopes"
      · subst e; exact h2.defaulted none (optStrings_one s)
      · exact hd2 _ _ _ (Ne.symm e)
    have hne : ∀ k' ∈ ["in", "name", "qop", "authorization", "alg", "format", "identity", "token", "refresh",
        "flow"], k' ≠ k := by
      simp only [List.mem_cons, List.not_mem_nil, or_false] at hk
      rcases hk with rfl | rfl | rfl <;> decide
    have g1 : deBasic gs = deBasic gs' := by
      simp only [deBasic, optional, hd2 _ _ _ (hne "in" (by decide)), hd2 _ _ _ (hne "name" (by decide))]
    have g2 : deDigest gs = deDigest gs' := by
      simp only [deDigest, optional, hr2 _ _ (hne "qop" (by decide)), hd2 _ _ _ (hne "in" (by decide)),
        hd2 _ _ _ (hne "name" (by decide))]
    have g3 : deBearer gs = deBearer gs' := by
      simp only [deBearer, optional, hd2 _ _ _ (hne "authorization" (by decide)),
        hd2 _ _ _ (hne "alg" (by decide)), hd2 _ _ _ (hne "format" (by decide)),
        hd2 _ _ _ (hne "in" (by decide)), hd2 _ _ _ (hne "name" (by decide))]
    have g4 : dePsk gs = dePsk gs' := by
      simp only [dePsk, optional, hd2 _ _ _ (hne "identity" (by decide))]
    have g5 : deOAuth2 gs = deOAuth2 gs' := by
      simp only [deOAuth2, optional, hd2 _ _ _ (hne "authorization" (by decide)),
        hd2 _ _ _ (hne "token" (by decide)), hd2 _ _ _ (hne "refresh" (by decide)), h3,
        hr2 _ _ (hne "flow" (by decide))]
    have g6 : deApiKey gs = deApiKey gs' := by
      simp only [deApiKey, optional, hd2 _ _ _ (hne "in" (by decide)), hd2 _ _ _ (hne "name" (by decide))]
    simp only [hcombo, g1, g2, g3, g4, g5, g6]
  have hd' : ∀ k' ∈ securityKeys, ∀ {α : Type} (d : α) (de : Json → Option α),
      defaulted k' d de es = defaulted k' d de es' := fun k' hk' _ d de =>
    hd k' d de fun e => hks (e ▸ hk')
  have g1 := hd' "@type" (by decide) none (deOption deStrings)
  have g2 := hd' "description" (by decide) none (deOption deStr)
  have g3 := hd' "descriptions" (by decide) none (deOption (deLang env))
  have g4 := hd' "proxy" (by decide) none (deOption deStr)
  have key : ∀ fs fs', deKnown fs = deKnown fs' → ∀ n,
      deSubtype fs = some (.known n) → deSubtype fs' = some (.known n) := by
    intro fs fs' e n h
    unfold deSubtype at h ⊢
    rw [← e]
    cases e1 : deKnown fs with
    | some k => rw [e1] at h; exact h
    | none =>
      rw [e1] at h
      simp only [deUnknown, bind, pure] at h
      obtain ⟨_, _, h⟩ := Option.bind_eq_some_iff.1 h
      cases h
  have sub : ∀ fs fs', (∀ n, deSubtype fs = some (.known n) → deSubtype fs' = some (.known n)) →
      ∀ a b c e, ((deSubtype fs).bind fun st =>
        some ({ attype := a, description := b, descriptions := c, proxy := e, subtype := st } : SecurityScheme)) = some d →
      ((deSubtype fs').bind fun st =>
        some ({ attype := a, description := b, descriptions := c, proxy := e, subtype := st } : SecurityScheme)) = some d := by
    intro fs fs' h a b c e h1
    obtain ⟨st, h2, h3⟩ := Option.bind_eq_some_iff.1 h1
    cases h3
    simp only at hs
    rw [hs] at h2
    rw [h n h2, hs]
    rfl
  simp only [deSecurity, optional, g1, g2, g3, g4, bind, pure]
  constructor
  · intro h
    obtain ⟨a, ha, h⟩ := Option.bind_eq_some_iff.1 h
    obtain ⟨b, hb, h⟩ := Option.bind_eq_some_iff.1 h
    obtain ⟨c, hc, h⟩ := Option.bind_eq_some_iff.1 h
    obtain ⟨e, he, h⟩ := Option.bind_eq_some_iff.1 h
    simp only [ha, hb, hc, he, Option.bind_some]
    exact sub _ _ (key _ _ e1) a b c e h
  · intro h
    obtain ⟨a, ha, h⟩ := Option.bind_eq_some_iff.1 h
    obtain ⟨b, hb, h⟩ := Option.bind_eq_some_iff.1 h
    obtain ⟨c, hc, h⟩ := Option.bind_eq_some_iff.1 h
    obtain ⟨e, he, h⟩ := Option.bind_eq_some_iff.1 h
    simp only [ha, hb, hc, he, Option.bind_some]
    exact sub _ _ (key _ _ e1.symm) a b c e h

/-! ### An example -/

/-- A minimal document of a Thing. -/
def Demo.document (sec : Json) : Members :=
  [("title", .str "Lamp"), ("security", sec),
   ("securityDefinitions", .obj [("none", .obj [("scheme", .str "nosec")])])]

example : ∃ t, deThing .nil Demo.senv (.obj (Demo.document (.str "none"))) = some t ∧
    deThing .nil Demo.senv (.obj (Demo.document (.arr [.str "none"]))) = some t ∧ t.security = ["none"] := by
  have h := C33_thing_read (C := .nil) (env := Demo.senv) (k := "security") (s := "none") (by decide)
    (es := Demo.document (.str "none")) (es' := Demo.document (.arr [.str "none"])) ⟨[_], [_], rfl, rfl⟩
  rw [← h]
  exact ⟨_, rfl, rfl, rfl⟩

/-- No extensions: they depend on nothing. -/
example : (ExtCodecs.nil).Local :=
  ⟨fun _ _ _ => rfl, fun _ _ _ => rfl, fun _ _ _ => rfl, fun _ _ _ => rfl, fun _ _ _ => rfl,
   fun _ _ _ => rfl, fun _ _ _ => rfl, fun _ _ _ => rfl, fun _ _ _ => rfl, fun _ _ _ => rfl⟩

/-- The other places are met as well: these documents are read, with one spelling and the other. -/
example : ∃ f, deForm .nil (.obj [("href", .str "/a"), ("op", .str "readproperty"), ("scopes", .str "s")]) = some f ∧
    deForm .nil (.obj [("href", .str "/a"), ("op", .arr [.str "readproperty"]), ("scopes", .str "s")]) = some f ∧
    deForm .nil (.obj [("href", .str "/a"), ("op", .str "readproperty"), ("scopes", .arr [.str "s"])]) = some f := by
  have h1 := C33_form_op_read (C := .nil) (o := .readProperty)
    (es := [("href", .str "/a"), ("op", .str "readproperty"), ("scopes", .str "s")]) ⟨[_], [_], rfl, rfl⟩
  have h2 := C33_form_read (C := .nil) (k := "scopes") (s := "s") (by decide)
    (es := [("href", .str "/a"), ("op", .str "readproperty"), ("scopes", .str "s")]) ⟨[_, _], [], rfl, rfl⟩
  exact ⟨_, rfl, h1.symm.trans rfl, h2.symm.trans rfl⟩

example : ∃ f, deForm .nil (.obj [("additionalResponses", .obj [("schema", .str "s")]), ("href", .str "/a")]) = some f ∧
    deForm .nil (.obj [("additionalResponses", .arr [.obj [("schema", .str "s")]]), ("href", .str "/a")]) = some f :=
  ⟨_, rfl, (C33_form_response_read (C := .nil)
    (es := [("additionalResponses", .obj [("schema", .str "s")]), ("href", .str "/a")]) ⟨[], [_], rfl, rfl⟩).symm.trans rfl⟩

example : ∃ l, deLink Demo.senv (.obj [("href", .str "/a"), ("hreflang", .str "en")]) = some l ∧
    deLink Demo.senv (.obj [("href", .str "/a"), ("hreflang", .arr [.str "en"])]) = some l ∧ l.hreflang = some ["en"] :=
  ⟨_, rfl, (C33_link_read (es := [("href", .str "/a"), ("hreflang", .str "en")]) ⟨[_], [], rfl, rfl⟩).symm.trans rfl, rfl⟩

example : ∃ s, deDS .nil Demo.senv (.obj [("@type", .str "x:y"), ("type", .str "string")]) = some s ∧
    deDS .nil Demo.senv (.obj [("@type", .arr [.str "x:y"]), ("type", .str "string")]) = some s :=
  ⟨_, rfl, (C33_schema_read (C := .nil) (env := Demo.senv) (es := [("@type", .str "x:y"), ("type", .str "string")])
    ⟨[], [_], rfl, rfl⟩).symm.trans rfl⟩

example : ∃ s n, deSecurity Demo.senv (.obj [("scheme", .str "combo"), ("oneOf", .str "a")]) = some s ∧ s.subtype = .known n ∧
    deSecurity Demo.senv (.obj [("scheme", .str "combo"), ("oneOf", .arr [.str "a"])]) = some s :=
  ⟨_, _, rfl, rfl, (C33_scheme_read (k := "oneOf") (s := "a") (by decide)
    (es := [("scheme", .str "combo"), ("oneOf", .str "a")]) ⟨[_], [], rfl, rfl⟩ rfl).1 rfl⟩

end Wot
