import Verif.Lemmas.Grammar
import Verif.Props.Spellings
/-
C51 — which documents are read. C39 — required members are required.
-/
namespace Wot

variable {X : ExtTypes} {C : ExtCodecs X} {env : SerdeEnv}

/-! ### C51: which documents are read -/

/-- C51: a document is read as a Thing iff it follows the grammar. -/
theorem C51_thing (d : Json) : (∃ t, deThing C env d = some t) ↔ Doc.Object (Doc.Thing env C) d :=
  Acc.thing d

theorem C51_property (d : Json) : (∃ p, deProperty C env d = some p) ↔ Doc.Object (Doc.Property env C) d :=
  Acc.property d

theorem C51_action (d : Json) : (∃ a, deAction C env d = some a) ↔ Doc.Object (Doc.Action env C) d :=
  Acc.action d

theorem C51_event (d : Json) : (∃ e, deEvent C env d = some e) ↔ Doc.Object (Doc.Event env C) d :=
  Acc.event d

theorem C51_schema (d : Json) : (∃ s, deDS C env d = some s) ↔ Doc.DS env C d :=
  Acc.ds d

theorem C51_form (d : Json) : (∃ f, deForm C d = some f) ↔ Doc.Object (Doc.Form C) d :=
  Acc.form d

theorem C51_link (d : Json) : (∃ l, deLink env d = some l) ↔ Doc.Link env d :=
  Acc.link d

theorem C51_security (d : Json) : (∃ s, deSecurity env d = some s) ↔ Doc.Object (Doc.Security env) d :=
  Acc.security d

/-- A security definition is read as one of a predefined scheme iff its name is that of a predefined scheme, or the
number of one, and its members can be those of the scheme. Otherwise it is read as a custom scheme of this name,
with all other members as its data. -/
theorem C51_scheme {es : Members} {s : SecurityScheme} (h : deSecurity env (.obj es) = some s) :
    ((∃ k, s.subtype = .known k) ∧ ∃ name v, occ "scheme" es = [v] ∧
      (v = .str name ∨ ∃ n, v = .num (.pos n) ∧ Doc.schemes[n]? = some name) ∧
      Doc.Predefined name (Doc.schemeMembers es)) ∨
    ∃ name, occ "scheme" es = [.str name] ∧ ¬ Doc.Predefined name (Doc.schemeMembers es) ∧
      s.subtype = .unknown name (Json.obj (Doc.schemeMembers es)).norm := by
  have h' := (deSecurity_iff.1 h).subtype
  have o : occ "scheme" (rest securityKeys es) = occ "scheme" es := occ_rest_of (by decide)
  unfold deSubtype at h'
  cases hk : deKnown (rest securityKeys es) with
  | some k =>
    rw [hk] at h'
    refine .inl ⟨⟨k, (Option.some.inj h').symm⟩, ?_⟩
    obtain ⟨name, v, hv, h1, h2⟩ := acc_known.1 ⟨k, hk⟩
    exact ⟨name, v, o ▸ hv, h1, schemeMembers_eq ▸ h2⟩
  | none =>
    rw [hk] at h'
    simp only [deUnknown, bind, pure] at h'
    obtain ⟨name, hn, h'⟩ := Option.bind_eq_some_iff.1 h'
    have hv : occ "scheme" es = [.str name] := by
      rw [← o]
      unfold required at hn
      split at hn
      · rename_i v hv
        cases v <;> simp_all [deStr]
      · cases hn
    refine .inr ⟨name, hv, fun hp => ?_, by
      rw [← schemeMembers_eq]; exact (Option.some.inj h').symm⟩
    have := (acc_known (es := rest securityKeys es)).2
      ⟨name, _, o.trans hv, .inl rfl, schemeMembers_eq.symm ▸ hp⟩
    rw [hk] at this
    obtain ⟨_, h⟩ := this
    cases h

/-! ### C39: required members are required -/

theorem HasOne.not_absent {k : String} {es : Members} {P : Json → Prop} (h : HasOne k es P) : ¬ Absent k es := by
  intro ha
  obtain ⟨v, hv, _⟩ := h
  rw [occ_eq_nil.2 ha] at hv
  cases hv

/-- C39: a Thing without title, security or security definitions is not read. -/
theorem C39_thing {es : Members} {k : String} (hk : k ∈ ["title", "security", "securityDefinitions"])
    (h : Absent k es) : deThing C env (.obj es) = none := by
  refine Option.eq_none_iff_forall_ne_some.2 fun t ht => ?_
  obtain ⟨_, e, hd⟩ := (C51_thing _).1 ⟨t, ht⟩
  cases e
  simp only [List.mem_cons, List.not_mem_nil, or_false] at hk
  rcases hk with rfl | rfl | rfl
  · exact hd.title.not_absent h
  · exact hd.security.not_absent h
  · exact hd.securityDefinitions.not_absent h

/-- A form without `href` is not read. -/
theorem C39_form {es : Members} (h : Absent "href" es) : deForm C (.obj es) = none := by
  refine Option.eq_none_iff_forall_ne_some.2 fun t ht => ?_
  obtain ⟨_, e, hd⟩ := (C51_form _).1 ⟨t, ht⟩
  cases e
  exact hd.href.not_absent h

/-- The response of a form must have a content type. -/
theorem C39_response {A : Type} {c : ExtCodec A} {es : Members} (h : Absent "contentType" es) :
    deResponse c (.obj es) = none := by
  refine Option.eq_none_iff_forall_ne_some.2 fun t ht => ?_
  obtain ⟨_, e, hd⟩ := (Acc.response _).1 ⟨t, ht⟩
  cases e
  exact hd.contentType.not_absent h

/-- A link without `href` is not read. -/
theorem C39_link {es : Members} (h : Absent "href" es) : deLink env (.obj es) = none := by
  refine Option.eq_none_iff_forall_ne_some.2 fun t ht => ?_
  obtain ⟨_, e, hd, _⟩ | ⟨_, _, _, _, _, _, e, _⟩ := (C51_link _).1 ⟨t, ht⟩
  · cases e
    exact hd.not_absent h
  · cases e

/-- An affordance without `forms` is not read. -/
theorem C39_property {es : Members} (h : Absent "forms" es) : deProperty C env (.obj es) = none := by
  refine Option.eq_none_iff_forall_ne_some.2 fun t ht => ?_
  obtain ⟨_, e, hd⟩ := (C51_property _).1 ⟨t, ht⟩
  cases e
  exact hd.interaction.forms.not_absent h

theorem C39_action {es : Members} (h : Absent "forms" es) : deAction C env (.obj es) = none := by
  refine Option.eq_none_iff_forall_ne_some.2 fun t ht => ?_
  obtain ⟨_, e, hd⟩ := (C51_action _).1 ⟨t, ht⟩
  cases e
  exact hd.interaction.forms.not_absent h

theorem C39_event {es : Members} (h : Absent "forms" es) : deEvent C env (.obj es) = none := by
  refine Option.eq_none_iff_forall_ne_some.2 fun t ht => ?_
  obtain ⟨_, e, hd⟩ := (C51_event _).1 ⟨t, ht⟩
  cases e
  exact hd.interaction.forms.not_absent h

/-- A security definition without `scheme` is not read. -/
theorem C39_security {es : Members} (h : Absent "scheme" es) : deSecurity env (.obj es) = none := by
  refine Option.eq_none_iff_forall_ne_some.2 fun t ht => ?_
  obtain ⟨_, e, hd⟩ := (C51_security _).1 ⟨t, ht⟩
  cases e
  cases hd.scheme with
  | text hs => exact hs.not_absent h
  | number _ _ hs => exact hs.not_absent h

theorem AtMostOne.mem {k : String} {es : Members} {P : Json → Prop} (h : AtMostOne k es P) {v : Json}
    (hv : (k, v) ∈ es) : v = .null ∨ P v := by
  have : v ∈ occ k es := List.mem_filterMap.2 ⟨_, hv, by simp⟩
  obtain h | ⟨w, hw, h⟩ := h
  · rw [h] at this; cases this
  · rw [hw] at this
    cases List.mem_singleton.1 this
    exact h

theorem HasOne.mem {k : String} {es : Members} {P : Json → Prop} (h : HasOne k es P) {v : Json}
    (hv : (k, v) ∈ es) : P v := by
  have : v ∈ occ k es := List.mem_filterMap.2 ⟨_, hv, by simp⟩
  obtain ⟨w, hw, h⟩ := h
  rw [hw] at this
  cases List.mem_singleton.1 this
  exact h

/-- What makes a part of a document unreadable makes the document unreadable: an affordance of a Thing, a security
definition, a form or link of a Thing, a form of an affordance. -/
theorem C39_parts {es : Members} {v : Json} :
    (∀ n m, ("properties", .obj m) ∈ es → (n, v) ∈ m → deProperty C env v = none → deThing C env (.obj es) = none) ∧
    (∀ n m, ("actions", .obj m) ∈ es → (n, v) ∈ m → deAction C env v = none → deThing C env (.obj es) = none) ∧
    (∀ n m, ("events", .obj m) ∈ es → (n, v) ∈ m → deEvent C env v = none → deThing C env (.obj es) = none) ∧
    (∀ n m, ("securityDefinitions", .obj m) ∈ es → (n, v) ∈ m → deSecurity env v = none → deThing C env (.obj es) = none) ∧
    (∀ l, ("forms", .arr l) ∈ es → v ∈ l → deForm C v = none →
      deThing C env (.obj es) = none ∧ deProperty C env (.obj es) = none ∧ deAction C env (.obj es) = none ∧
      deEvent C env (.obj es) = none) ∧
    (∀ l, ("links", .arr l) ∈ es → v ∈ l → deLink env v = none → deThing C env (.obj es) = none) := by
  have map : ∀ {n m α} {de : Json → Option α} {P}, Acc de P → (n, v) ∈ m → de v = none →
      ¬ (Json.obj m = .null ∨ Doc.MapOf P (.obj m)) := by
    rintro _ _ α de P ha hv hn (h | ⟨_, e, h⟩)
    · cases h
    · cases e
      obtain ⟨_, h⟩ := (ha v).2 (h _ hv)
      rw [hn] at h
      cases h
  have arr : ∀ {l α} {de : Json → Option α} {P}, Acc de P → v ∈ l → de v = none →
      ¬ (Json.arr l = .null ∨ Doc.ArrayOf P (.arr l)) := by
    rintro _ α de P ha hv hn (h | ⟨_, e, h⟩)
    · cases h
    · cases e
      obtain ⟨_, h⟩ := (ha v).2 (h _ hv)
      rw [hn] at h
      cases h
  have thing : ¬ Doc.Thing env C es → deThing C env (.obj es) = none := fun h =>
    Option.eq_none_iff_forall_ne_some.2 fun t ht => by
      obtain ⟨_, e, hd⟩ := (C51_thing _).1 ⟨t, ht⟩
      cases e
      exact h hd
  refine ⟨fun _ _ h1 h2 h3 => thing fun hd => map Acc.property h2 h3 (hd.properties.mem h1),
    fun _ _ h1 h2 h3 => thing fun hd => map Acc.action h2 h3 (hd.actions.mem h1),
    fun _ _ h1 h2 h3 => thing fun hd => map Acc.event h2 h3 (hd.events.mem h1),
    fun _ _ h1 h2 h3 => thing fun hd => map Acc.security h2 h3 (.inr (hd.securityDefinitions.mem h1)),
    fun _ h1 h2 h3 => ⟨thing fun hd => arr Acc.form h2 h3 (hd.forms.mem h1), ?_, ?_, ?_⟩,
    fun _ h1 h2 h3 => thing fun hd => arr Acc.link h2 h3 (hd.links.mem h1)⟩
  · refine Option.eq_none_iff_forall_ne_some.2 fun t ht => ?_
    obtain ⟨_, e, hd⟩ := (C51_property _).1 ⟨t, ht⟩
    cases e
    exact arr Acc.form h2 h3 (.inr (hd.interaction.forms.mem h1))
  · refine Option.eq_none_iff_forall_ne_some.2 fun t ht => ?_
    obtain ⟨_, e, hd⟩ := (C51_action _).1 ⟨t, ht⟩
    cases e
    exact arr Acc.form h2 h3 (.inr (hd.interaction.forms.mem h1))
  · refine Option.eq_none_iff_forall_ne_some.2 fun t ht => ?_
    obtain ⟨_, e, hd⟩ := (C51_event _).1 ⟨t, ht⟩
    cases e
    exact arr Acc.form h2 h3 (.inr (hd.interaction.forms.mem h1))

/-- What is required of a predefined security scheme is not required: without `qop` a digest scheme is read as a custom
scheme called `digest`, and without `flow` an OAuth2 scheme as a custom scheme called `oauth2`. -/
theorem C39_scheme_members {es : Members} {s : SecurityScheme} (h : deSecurity env (.obj es) = some s) :
    (("scheme", .str "digest") ∈ es → Absent "qop" es →
      s.subtype = .unknown "digest" (Json.obj (Doc.schemeMembers es)).norm) ∧
    (("scheme", .str "oauth2") ∈ es → Absent "flow" es →
      s.subtype = .unknown "oauth2" (Json.obj (Doc.schemeMembers es)).norm) := by
  have abs : ∀ {k P}, Absent k es → ¬ HasOne k (Doc.schemeMembers es) P := by
    intro k P ha h
    refine h.not_absent fun hm => ha ?_
    obtain ⟨kv, hkv, e⟩ := List.mem_map.1 hm
    exact List.mem_map.2 ⟨kv, (List.mem_filter.1 hkv).1, e⟩
  have dig : ∀ {k s es'}, s = k → Doc.Predefined s es' → (k = "digest" → HasOne "qop" es' (IsNameIn ["auth", "auth-int"])) ∧
      (k = "oauth2" → HasOne "flow" es' IsText) := by
    rintro k s es' rfl h
    cases h <;> simp_all
  have key : ∀ name : String, ("scheme", .str name) ∈ es → ¬ Doc.Predefined name (Doc.schemeMembers es) →
      s.subtype = .unknown name (Json.obj (Doc.schemeMembers es)).norm := by
    intro name hn hp
    have hm : Json.str name ∈ occ "scheme" es := List.mem_filterMap.2 ⟨_, hn, by simp⟩
    rcases C51_scheme h with ⟨_, name', v, hv, hn', hp'⟩ | ⟨name', hv, hp', e⟩
    · rw [hv] at hm
      cases List.mem_singleton.1 hm
      rcases hn' with e | ⟨_, e, _⟩
      · cases e
        exact absurd hp' hp
      · cases e
    · rw [hv] at hm
      cases List.mem_singleton.1 hm
      exact e
  exact ⟨fun h1 h2 => key _ h1 fun hp => abs h2 ((dig rfl hp).1 rfl),
    fun h1 h2 => key _ h1 fun hp => abs h2 ((dig rfl hp).2 rfl)⟩

/-! ### Examples -/

/-- A document of a Thing with a property, an action, an event, a form and a link. -/
def Demo.fullDocument : Members :=
  [("title", .str "Lamp"), ("security", .arr [.str "none", .str "key"]),
   ("securityDefinitions", .obj [("none", .obj [("scheme", .str "nosec")]),
     ("key", .obj [("name", .str "k"), ("scheme", .str "digest")]),
     ("odd", .obj [("scheme", .num (.pos 8)), ("in", .str "cookie")])]),
   ("properties", .obj [("on", .obj [("forms", .arr [.obj [("href", .str "/on"), ("op", .str "readproperty")]]),
     ("type", .str "boolean"), ("readOnly", .bool true), ("oneOf", .arr [.obj [("const", .null)]])])]),
   ("actions", .obj [("toggle", .obj [("forms", .arr []), ("input", .obj [("type", .str "integer")])])]),
   ("events", .obj [("burnt", .obj [("forms", .arr [])])]),
   ("links", .arr [.obj [("href", .str "/doc")], .arr [.str "/m", .null, .str "item", .null, .null]]),
   ("forms", .arr [.obj [("href", .str "/all"), ("unknown", .num (.pos 1))]]),
   ("version", .arr [.str "1.0", .null])]

example : ∃ t, deThing .nil Demo.senv (.obj Demo.fullDocument) = some t := ⟨_, rfl⟩

/-- So it follows the grammar. -/
example : Doc.Thing Demo.senv .nil Demo.fullDocument := by
  obtain ⟨_, e, h⟩ := (C51_thing (C := .nil) (env := Demo.senv) (.obj Demo.fullDocument)).1 ⟨_, rfl⟩
  cases e
  exact h

/-- Its digest scheme, which has no `qop`, is read as a custom scheme. -/
example : ∃ s, deSecurity Demo.senv (.obj [("name", .str "k"), ("scheme", .str "digest")]) = some s ∧
    s.subtype = .unknown "digest" (.obj [("name", .str "k")]) :=
  ⟨_, rfl, (C39_scheme_members (env := Demo.senv) (es := [("name", .str "k"), ("scheme", .str "digest")])
    rfl).1 (by simp) (by simp [Absent])⟩

/-- A document with a form without `href`, in a property, is not read. -/
example : deThing .nil Demo.senv (.obj (Demo.document (.str "none") ++
    [("properties", .obj [("on", .obj [("forms", .arr [.obj [("op", .str "readproperty")]])])])])) = none :=
  C39_parts.1 _ _ (List.mem_append_right _ (List.mem_singleton.2 rfl)) (List.mem_singleton.2 rfl)
    (C39_parts.2.2.2.2.1 _ (List.mem_singleton.2 rfl) (List.mem_singleton.2 rfl) (C39_form (by simp [Absent]))).2.1

end Wot
