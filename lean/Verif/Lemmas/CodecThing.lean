import Verif.Lemmas.CodecSchema
/-
Forms, links, affordances and Things are read back from what they are written as.
-/
namespace Wot

variable {X : ExtTypes} {C : ExtCodecs X} {env : SerdeEnv}

/-! ### Forms and links -/

theorem operation_rt (o : FormOperation) : RT (.str o.name) deOperation o := by
  cases o <;> exact enum_rt (by rfl)

theorem operation_rt_buffered (o : FormOperation) : RT (.str o.name) (deEnumBuffered operationTable) o := by
  cases o <;> exact enum_rt_buffered (by rfl)

theorem ops_rt (o : FormOps) : RT (serOps o) deOps o.stored := by
  intro d hd
  match o with
  | .default =>
    rw [hd.null]
    rfl
  | .custom [] =>
    rw [hd.null]
    rfl
  | .custom (a :: l) =>
    have h1 : deOperations d = some (a :: l) := by
      obtain ⟨l', rfl, _⟩ := hd.arr
      have : deOperation (.arr l') = none := rfl
      unfold deOperations
      rw [this]
      exact vec_rt (pointwise_map_self fun o _ => operation_rt_buffered o) _ hd
    obtain ⟨l', rfl, _⟩ := hd.arr
    simp only [deOps, deOption, h1, Option.map_some, FormOps.stored]

theorem response_rt {r : ExpectedResponse X.response} {j : Json} (ap : Apart C.response.keys ["contentType"])
    (hr : C.response.Reads r.other) (hw : serResponse C.response r = some j) :
    RT j (deResponse C.response) r := by
  intro d hd
  obtain ⟨other, ho, rfl⟩ := Option.map_eq_some_iff.1 hw
  obtain ⟨es, rfl, _, hc⟩ := hd.obj
  have own := hr.own _ ho
  have h0 : occ "contentType" other = [] :=
    occ_none_of_keys own fun h => ap _ h (by simp)
  have g1 : required "contentType" deStr es = some r.contentType :=
    required_rt (hc "contentType") (by rw [occ_cons, if_pos rfl, h0]; rfl) (str_rt _)
  have g2 : C.response.de (rest ["contentType"] es) = some r.other := by
    refine hr.read _ _ ho fun k hk => Carries.rest ((hc k).congr ?_) (ap k hk)
    rw [occ_cons, if_neg]
    intro e
    exact ap k hk (by simp [e])
  simp only [deResponse, bind, Option.bind_some, pure, g1, g2]

theorem serResponse_ne_null {r : ExpectedResponse X.response} {j : Json}
    (hw : serResponse C.response r = some j) : j ≠ .null := by
  obtain ⟨other, ho, rfl⟩ := Option.map_eq_some_iff.1 hw
  nofun

theorem additional_rt (r : AdditionalResponse) : RT (serAdditional r) deAdditional r := by
  intro d hd
  obtain ⟨es, rfl, _, hc⟩ := hd.obj
  have hf : ∀ {k : String} {v : Option Json}, fieldOf k _ = v → _ ∧ _ :=
    fun {k v} h2 => And.intro (hc k) ((hc k).field (by names) h2)
  have h1 := hf (k := "success") (by simp [fieldOf]; rfl)
  have h2 := hf (k := "contentType") (by simp [fieldOf]; rfl)
  have h3 := hf (k := "schema") (by simp [fieldOf]; rfl)
  have g1 : defaulted "success" false deBool es = some r.success := by
    have e := h1.2
    cases hs : r.success with
    | true =>
      simp only [hs, if_true] at e h1
      exact defaulted_rt h1.1 e (bool_rt true)
    | false =>
      simp only [hs] at e h1
      exact defaulted_absent h1.1 e
  have g2 := optional_field h2.1 h2.2 Option.map_str_rt
  have g3 := optional_field h3.1 h3.2 Option.map_str_rt
  simp only [deAdditional, bind, Option.bind_some, pure, g1, g2, g3]

theorem deAdditional_of_objs {l : List Json} (h : ∀ j ∈ l, ∃ m, j = .obj m) :
    deAdditional (.arr l) = none := by
  match l with
  | [a, b, c] =>
    obtain ⟨m, rfl⟩ := h a (by simp)
    rfl
  | [] => rfl
  | [_] => rfl
  | [_, _] => rfl
  | _ :: _ :: _ :: _ :: _ => rfl

theorem additionals_rt (l : List AdditionalResponse) :
    RT (serOneOrMany (l.map serAdditional)) (deOneOrMany deAdditional) l :=
  oneOrMany_rt (fun a _ => additional_rt a) fun _ d hd => by
    obtain ⟨l', rfl, hp⟩ := hd.arr
    refine deAdditional_of_objs fun j hj => ?_
    obtain ⟨b, hb, hr⟩ := hp.exists_right hj
    obtain ⟨r, _, rfl⟩ := List.mem_map.1 hb
    obtain ⟨es, rfl, _⟩ := Represents.obj hr
    exact ⟨es, rfl⟩

theorem serOneOrMany_ne_null {l : List Json} (h : ∀ j ∈ l, j ≠ .null) : serOneOrMany l ≠ .null := by
  match l with
  | [] => nofun
  | [a] => exact h a (by simp)
  | _ :: _ :: _ => nofun

theorem additionals_field {x : Option (List AdditionalResponse)} :
    ∀ a, x = some a → serOneOrMany (a.map serAdditional) ≠ .null ∧
      RT (serOneOrMany (a.map serAdditional)) (deOneOrMany deAdditional) a := fun a _ =>
  ⟨serOneOrMany_ne_null fun j hj => by
    obtain ⟨r, _, rfl⟩ := List.mem_map.1 hj
    nofun, additionals_rt a⟩

theorem form_rt (sep : C.Separate) {f : Form X} {j : Json} (hst : FormKept C f)
    (hw : serForm C f = some j) : j ≠ .null ∧ RT j (deForm C) f.stored := by
  simp only [serForm, bind, pure, Option.bind_eq_some_iff] at hw
  obtain ⟨response, hre, other, ho, hw⟩ := hw
  injection hw with hw
  subst hw
  refine ⟨nofun, fun d hd => ?_⟩
  obtain ⟨es, rfl, _, hc⟩ := hd.obj
  have own := hst.other.own _ ho
  have hf : ∀ {k : String} {v : Option Json}, k ∈ Names.form → fieldOf k _ = v → _ ∧ _ :=
    fun {k v} h1 h2 =>
    have := (hc k).left (occ_none_of_keys own fun h => sep.form k h h1)
    And.intro this (this.field (by names) h2)
  have h1 := hf (k := "op") (by decide) (by simp [fieldOf]; rfl)
  have h2 := hf (k := "href") (by decide) (by simp [fieldOf]; rfl)
  have h3 := hf (k := "contentType") (by decide) (by simp [fieldOf]; rfl)
  have h4 := hf (k := "contentCoding") (by decide) (by simp [fieldOf]; rfl)
  have h5 := hf (k := "subprotocol") (by decide) (by simp [fieldOf]; rfl)
  have h6 := hf (k := "security") (by decide) (by simp [fieldOf]; rfl)
  have h7 := hf (k := "scopes") (by decide) (by simp [fieldOf]; rfl)
  have h8 := hf (k := "response") (by decide) (by simp [fieldOf]; rfl)
  have h9 := hf (k := "additionalResponses") (by decide) (by simp [fieldOf]; rfl)
  have g1 : defaulted "op" .default deOps es = some f.op.stored := by
    have e := h1.2
    cases hop : f.op with
    | default => exact defaulted_absent h1.1 (e.trans (by rw [hop]; rfl))
    | custom l =>
      exact defaulted_rt h1.1 (e.trans (by rw [hop]; rfl)) (ops_rt (.custom l))
  have g2 := required_rt h2.1 h2.2 (str_rt _)
  have g3 := optional_field h3.1 h3.2 Option.map_str_rt
  have g4 := optional_field h4.1 h4.2 Option.map_str_rt
  have g5 := optional_field h5.1 h5.2 Option.map_str_rt
  have g6 := optional_field h6.1 h6.2 strings_field
  have g7 := optional_field h7.1 h7.2 strings_field
  have g8 := optional_rel h8.1 (optOpt_eq_some.1 hre) h8.2 fun r j e hj =>
    ⟨serResponse_ne_null hj, response_rt sep.response (hst.response r e) hj⟩
  have g9 := optional_field h9.1 h9.2 additionals_field
  have g10 : C.form.de (rest formKeys es) = some f.other := by
    refine hst.other.read _ _ ho fun k hk => Carries.rest ((hc k).right ?_) (sep.form k hk)
    exact occ_none_of_keys (members_keys rfl) (sep.form k hk)
  simp only [deForm, bind, Option.bind_some, pure, g1, g2, g3, g4, g5, g6, g7, g8, g9, g10,
    Form.stored]

theorem forms_rt (sep : C.Separate) {l : List (Form X)} {js : List Json}
    (hst : ∀ f ∈ l, FormKept C f) (hw : mapOpt (serForm C) l = some js) :
    RT (.arr js) (deVec (deForm C)) (l.map Form.stored) := by
  refine vec_rt (pointwise_map_right.2 ?_)
  rw [← List.map_id l, mapOpt_map] at hw
  exact (mapOpt_id_map (f := serForm C) (l := l) (by rw [mapOpt_map]; exact hw)).imp_mem
    fun j _ f hf h => (form_rt sep (hst f hf) h).2

theorem link_rt {l : Link} (hst : LinkKept env l) : RT (serLink l) (deLink env) l := by
  intro d hd
  obtain ⟨es, rfl, _, hc⟩ := hd.obj
  have hf : ∀ {k : String} {v : Option Json}, fieldOf k _ = v → _ ∧ _ :=
    fun {k v} h2 => And.intro (hc k) ((hc k).field (by names) h2)
  have h1 := hf (k := "href") (by simp [fieldOf]; rfl)
  have h2 := hf (k := "type") (by simp [fieldOf]; rfl)
  have h3 := hf (k := "rel") (by simp [fieldOf]; rfl)
  have h4 := hf (k := "anchor") (by simp [fieldOf]; rfl)
  have h5 := hf (k := "sizes") (by simp [fieldOf]; rfl)
  have h6 := hf (k := "hreflang") (by simp [fieldOf]; rfl)
  have g1 := required_rt h1.1 h1.2 (str_rt _)
  have g2 := optional_field h2.1 h2.2 Option.map_str_rt
  have g3 := optional_field h3.1 h3.2 Option.map_str_rt
  have g4 := optional_field h4.1 h4.2 Option.map_str_rt
  have g5 := optional_field h5.1 h5.2 Option.map_str_rt
  have g6 := optional_field (de := deOneOrMany (deTagText env)) h6.1 h6.2 fun tags e =>
    ⟨serStrings_ne_null tags, oneOrMany_rt (f := Json.str)
      (fun t ht d hd => by rw [hd.str]; exact hst tags e t ht) fun _ d hd => by
        obtain ⟨l', rfl, _⟩ := hd.arr
        rfl⟩
  simp only [deLink, bind, Option.bind_some, pure, g1, g2, g3, g4, g5, g6]

/-! ### Affordances -/

theorem ds_rt (sep : C.Separate) {s : DS X} (hst : DSKept env C s) {j : Json}
    (hw : serDS C env.toEnv s = some j) : j ≠ .null ∧ RT j (deDS C env) s.stored :=
  ⟨serSchema_is_obj hw, schema_rt sep.schemas s hst j hw⟩

theorem schemas_field (sep : C.Separate) {o : Option (HMap (DS X))} (hst : SchemasKept env C o) :
    ∀ m j, o = some m → serMap env.toEnv (serDS C env.toEnv) m = some j →
      j ≠ .null ∧ RT j (deMap (deDS C env)) (HMap.mapVals Schema.stored m) := fun m _ e hw =>
  ⟨serMap_ne_null hw, serMap_rt (hst m e).1 hw fun kv hkv _ hj => (ds_rt sep ((hst m e).2 kv hkv) hj).2⟩

theorem names_ia : ∀ k ∈ Names.interaction, k ∉ Names.action := by decide

theorem names_ie : ∀ k ∈ Names.interaction, k ∉ Names.event := by decide

/-- What is known of the members an interaction is written as. -/
structure InteractionParts (C : ExtCodecs X) (env : SerdeEnv) (i : Interaction X) (m : Members) where
  forms : List Json
  hforms : mapOpt (serForm C) i.forms = some forms
  uris : Option Json
  huris : OptRel (fun a j => serMap env.toEnv (serDS C env.toEnv) a = some j) i.uriVariables uris
  other : Members
  hother : C.interaction.ser i.other = some other
  eq : m = members [("@type", i.attype.map serStrings), ("title", i.title.map .str),
      ("titles", i.titles.map (serLang env.toEnv)), ("description", i.description.map .str),
      ("descriptions", i.descriptions.map (serLang env.toEnv)), ("forms", some (.arr forms)),
      ("uriVariables", uris)] ++ other

theorem InteractionParts.of {i : Interaction X} {m : Members}
    (hw : serInteraction C env.toEnv i = some m) : Nonempty (InteractionParts C env i m) := by
  simp only [serInteraction, bind, pure, Option.bind_eq_some_iff] at hw
  obtain ⟨forms, h1, uris, h2, other, h3, h4⟩ := hw
  injection h4 with h4
  exact ⟨⟨forms, h1, uris, optOpt_eq_some.1 h2, other, h3, h4.symm⟩⟩

theorem InteractionParts.keys {i : Interaction X} {m : Members} (p : InteractionParts C env i m)
    (hst : C.interaction.Reads i.other) :
    ∀ kv ∈ m, kv.1 ∈ Names.interaction ++ C.interaction.keys := by
  rw [p.eq]
  intro kv hkv
  rcases List.mem_append.1 hkv with h | h
  · exact List.mem_append_left _ (members_keys rfl kv h)
  · exact List.mem_append_right _ (hst.own _ p.hother kv h)

theorem interaction_rt (sep : C.Separate) {i : Interaction X} {m es : Members}
    (hst : InteractionKept env C i) (hw : serInteraction C env.toEnv i = some m)
    (hc : ∀ k ∈ Names.interaction ++ C.interaction.keys, Carries es m k) :
    deInteraction C env es = some i.stored := by
  obtain ⟨p⟩ := InteractionParts.of hw
  have own := hst.other.own _ p.hother
  rw [p.eq] at hc
  have hf : ∀ {k : String} {v : Option Json}, k ∈ Names.interaction → fieldOf k _ = v → _ ∧ _ :=
    fun {k v} h1 h2 =>
    have := (hc k (List.mem_append_left _ h1)).left
      (occ_none_of_keys own fun h => sep.interaction k h h1)
    And.intro this (this.field (by names) h2)
  have h1 := hf (k := "@type") (by decide) (by simp [fieldOf]; rfl)
  have h2 := hf (k := "title") (by decide) (by simp [fieldOf]; rfl)
  have h3 := hf (k := "titles") (by decide) (by simp [fieldOf]; rfl)
  have h4 := hf (k := "description") (by decide) (by simp [fieldOf]; rfl)
  have h5 := hf (k := "descriptions") (by decide) (by simp [fieldOf]; rfl)
  have h6 := hf (k := "forms") (by decide) (by simp [fieldOf]; rfl)
  have h7 := hf (k := "uriVariables") (by decide) (by simp [fieldOf]; rfl)
  have g1 := optional_field h1.1 h1.2 strings_field
  have g2 := optional_field h2.1 h2.2 Option.map_str_rt
  have g3 := optional_field h3.1 h3.2 (lang_field hst.titles)
  have g4 := optional_field h4.1 h4.2 Option.map_str_rt
  have g5 := optional_field h5.1 h5.2 (lang_field hst.descriptions)
  have g6 := required_rt h6.1 h6.2 (forms_rt sep hst.forms p.hforms)
  have g7 := optional_map h7.1 p.huris h7.2 (schemas_field sep hst.uriVariables)
  have g8 : C.interaction.de (rest interactionKeys es) = some i.other := by
    refine hst.other.read _ _ p.hother fun k hk => ?_
    refine Carries.rest ((hc k (List.mem_append_right _ hk)).right ?_) (sep.interaction k hk)
    exact occ_none_of_keys (members_keys rfl) (sep.interaction k hk)
  simp only [deInteraction, bind, Option.bind_some, pure, g1, g2, g3, g4, g5, g6, g7, g8,
    Interaction.stored]

theorem optional_ds (sep : C.Separate) {es m : Members} {k : String} {x : Option (DS X)} {y : Option Json}
    (h : Carries es m k ∧ lastOf (occ k m) = y) (hy : optOpt (serDS C env.toEnv) x = some y)
    (hst : ∀ s, x = some s → DSKept env C s) : optional k (deDS C env) es = some (x.map Schema.stored) :=
  optional_map h.1 (optOpt_eq_some.1 hy) h.2 fun s _ e hj => ds_rt sep (hst s e) hj

theorem action_rt (sep : C.Separate) {a : ActionAffordance X} {j : Json} (hst : ActionKept env C a)
    (hw : serAction C env.toEnv a = some j) : RT j (deAction C env) a.stored := by
  intro d hd
  simp only [serAction, bind, pure, Option.bind_eq_some_iff] at hw
  obtain ⟨mi, hmi, input, hin, output, hout, other, ho, hw⟩ := hw
  injection hw with hw
  subst hw
  obtain ⟨es, rfl, _, hc⟩ := hd.obj
  obtain ⟨p⟩ := InteractionParts.of hmi
  have ik := p.keys hst.interaction.other
  have own := hst.other.own _ ho
  have hi_no : ∀ k ∈ Names.action, occ k mi = [] := fun k hk => occ_none_of_keys ik fun h => by
    rcases List.mem_append.1 h with h | h
    · exact names_ia k h hk
    · exact sep.interactionAction k h hk
  have ho_no : ∀ k ∈ Names.interaction ++ C.interaction.keys ++ Names.action, occ k other = [] :=
    fun k hk => occ_none_of_keys own fun h => sep.action k h hk
  have hA_no : ∀ k, k ∉ Names.action → occ k (members [("input", input), ("output", output),
      ("safe", some (.bool a.safe)), ("idempotent", some (.bool a.idempotent)),
      ("synchronous", a.synchronous.map .bool)]) = [] := fun k hk =>
    occ_none_of_keys (members_keys rfl) hk
  have hf : ∀ {k : String} {v : Option Json}, k ∈ Names.action → fieldOf k _ = v → _ ∧ _ :=
    fun {k v} h1 h2 =>
    have := ((hc k).left (ho_no k (List.mem_append_right _ h1))).right (hi_no k h1)
    And.intro this (this.field (by names) h2)
  have h1 := hf (k := "input") (by decide) (by simp [fieldOf]; rfl)
  have h2 := hf (k := "output") (by decide) (by simp [fieldOf]; rfl)
  have h3 := hf (k := "safe") (by decide) (by simp [fieldOf]; rfl)
  have h4 := hf (k := "idempotent") (by decide) (by simp [fieldOf]; rfl)
  have h5 := hf (k := "synchronous") (by decide) (by simp [fieldOf]; rfl)
  have g1 := optional_ds sep h1 hin hst.input
  have g2 := optional_ds sep h2 hout hst.output
  have g3 := defaulted_rt (d := false) h3.1 h3.2 (bool_rt a.safe)
  have g4 := defaulted_rt (d := false) h4.1 h4.2 (bool_rt a.idempotent)
  have g5 := optional_field h5.1 h5.2 bool_field
  have hdis : ∀ k ∈ Names.interaction ++ C.interaction.keys, k ∉ Names.action := fun k hk => by
    rcases List.mem_append.1 hk with h | h
    · exact names_ia k h
    · exact sep.interactionAction k h
  have g6 : deInteraction C env (rest actionKeys es) = some a.interaction.stored := by
    refine interaction_rt sep hst.interaction hmi fun k hk => Carries.rest ?_ (hdis k hk)
    exact ((hc k).left (ho_no k (List.mem_append_left _ hk))).left (hA_no k (hdis k hk))
  have g7 : C.action.de (rest actionKeys es) = some a.other := by
    refine hst.other.read _ _ ho fun k hk => ?_
    have hk' := sep.action k hk
    simp only [List.mem_append, not_or] at hk'
    refine Carries.rest ((hc k).right ?_) hk'.2
    rw [occ_append, hA_no k hk'.2, List.append_nil]
    exact occ_none_of_keys ik fun h => by
      rcases List.mem_append.1 h with h | h
      · exact hk'.1.1 h
      · exact hk'.1.2 h
  simp only [deAction, bind, Option.bind_some, pure, g1, g2, g3, g4, g5, g6, g7,
    ActionAffordance.stored]

theorem event_rt (sep : C.Separate) {e : EventAffordance X} {j : Json} (hst : EventKept env C e)
    (hw : serEvent C env.toEnv e = some j) : RT j (deEvent C env) e.stored := by
  intro d hd
  simp only [serEvent, bind, pure, Option.bind_eq_some_iff] at hw
  obtain ⟨mi, hmi, sub, hsub, data, hdata, dr, hdr, can, hcan, other, ho, hw⟩ := hw
  injection hw with hw
  subst hw
  obtain ⟨es, rfl, _, hc⟩ := hd.obj
  obtain ⟨p⟩ := InteractionParts.of hmi
  have ik := p.keys hst.interaction.other
  have own := hst.other.own _ ho
  have hi_no : ∀ k ∈ Names.event, occ k mi = [] := fun k hk => occ_none_of_keys ik fun h => by
    rcases List.mem_append.1 h with h | h
    · exact names_ie k h hk
    · exact sep.interactionEvent k h hk
  have ho_no : ∀ k ∈ Names.interaction ++ C.interaction.keys ++ Names.event, occ k other = [] :=
    fun k hk => occ_none_of_keys own fun h => sep.event k h hk
  have hA_no : ∀ k, k ∉ Names.event → occ k (members [("subscription", sub), ("data", data),
      ("data_response", dr), ("cancellation", can)]) = [] := fun k hk =>
    occ_none_of_keys (members_keys rfl) hk
  have hf : ∀ {k : String} {v : Option Json}, k ∈ Names.event → fieldOf k _ = v → _ ∧ _ :=
    fun {k v} h1 h2 =>
    have := ((hc k).left (ho_no k (List.mem_append_right _ h1))).right (hi_no k h1)
    And.intro this (this.field (by names) h2)
  have h1 := hf (k := "subscription") (by decide) (by simp [fieldOf]; rfl)
  have h2 := hf (k := "data") (by decide) (by simp [fieldOf]; rfl)
  have h3 := hf (k := "data_response") (by decide) (by simp [fieldOf]; rfl)
  have h4 := hf (k := "cancellation") (by decide) (by simp [fieldOf]; rfl)
  have g1 := optional_ds sep h1 hsub hst.subscription
  have g2 := optional_ds sep h2 hdata hst.data
  have g3 := optional_ds sep h3 hdr hst.dataResponse
  have g4 := optional_ds sep h4 hcan hst.cancellation
  have hdis : ∀ k ∈ Names.interaction ++ C.interaction.keys, k ∉ Names.event := fun k hk => by
    rcases List.mem_append.1 hk with h | h
    · exact names_ie k h
    · exact sep.interactionEvent k h
  have g6 : deInteraction C env (rest eventKeys es) = some e.interaction.stored := by
    refine interaction_rt sep hst.interaction hmi fun k hk => Carries.rest ?_ (hdis k hk)
    exact ((hc k).left (ho_no k (List.mem_append_left _ hk))).left (hA_no k (hdis k hk))
  have g7 : C.event.de (rest eventKeys es) = some e.other := by
    refine hst.other.read _ _ ho fun k hk => ?_
    have hk' := sep.event k hk
    simp only [List.mem_append, not_or] at hk'
    refine Carries.rest ((hc k).right ?_) hk'.2
    rw [occ_append, hA_no k hk'.2, List.append_nil]
    exact occ_none_of_keys ik fun h => by
      rcases List.mem_append.1 h with h | h
      · exact hk'.1.1 h
      · exact hk'.1.2 h
  simp only [deEvent, bind, Option.bind_some, pure, g1, g2, g3, g4, g6, g7, EventAffordance.stored]

/-- The names written both by the interaction and by the data schema of a property. -/
def sharedNames : List String := ["@type", "title", "titles", "description", "descriptions"]

theorem shared_interaction : ∀ k ∈ sharedNames, k ∈ Names.interaction := by decide

theorem names_is : ∀ k ∈ Names.interaction, k ∈ Names.schema → k ∈ sharedNames := by decide

theorem SchemaParts.keys {s : DS X} {m : Members}
    (p : SchemaParts C.dataSchema C.arraySchema C.objectSchema env s m)
    (hst : DSKept env C s) :
    ∀ kv ∈ m, kv.1 ∈ Names.schema ++ (C.dataSchema.keys ++ (C.arraySchema.keys ++ C.objectSchema.keys)) := by
  have hn := hst s (.self s)
  rw [p.eq]
  intro kv hkv
  rcases List.mem_append.1 hkv with h | h
  · rcases List.mem_append.1 h with h | h
    · exact List.mem_append_left _ (List.mem_append_left _ (members_keys rfl kv h))
    · rcases List.mem_append.1 (p.st_keys hn kv h) with h | h
      · exact List.mem_append_left _ (List.mem_append_right _ h)
      · exact List.mem_append_right _ (List.mem_append_right _ h)
  · exact List.mem_append_right _ (List.mem_append_left _ (hn.other.own _ p.hother kv h))

theorem shared_eq (sep : C.Separate) {p : PropertyAffordance X} (hst : PropertyKept env C p)
    (hag : p.Agrees) {mi ms : Members} (pi : InteractionParts C env p.interaction mi)
    (ps : SchemaParts C.dataSchema C.arraySchema C.objectSchema env p.dataSchema ms) :
    ∀ k ∈ sharedNames, lastOf (occ k mi) = lastOf (occ k ms) := by
  intro k hk
  have hkH : k ∈ Names.schemaHead := by revert k; decide
  have hkI : k ∈ Names.interaction := by revert k; decide
  have hn := hst.dataSchema _ (.self _)
  have hi : lastOf (occ k mi) = fieldOf k [("@type", p.interaction.attype.map serStrings),
      ("title", p.interaction.title.map .str),
      ("titles", p.interaction.titles.map (serLang env.toEnv)),
      ("description", p.interaction.description.map .str),
      ("descriptions", p.interaction.descriptions.map (serLang env.toEnv)),
      ("forms", some (.arr pi.forms)), ("uriVariables", pi.uris)] := by
    rw [congrArg (occ k) pi.eq, occ_append, occ_none_of_keys (hst.interaction.other.own _ pi.hother)
      (fun h => sep.interaction k h hkI), List.append_nil]
    exact last_members (by names) k
  have hs : lastOf (occ k ms) = fieldOf k [("@type", p.dataSchema.head.attype.map serStrings),
      ("title", p.dataSchema.head.title.map .str),
      ("titles", p.dataSchema.head.titles.map (serLang env.toEnv)),
      ("description", p.dataSchema.head.description.map .str),
      ("descriptions", p.dataSchema.head.descriptions.map (serLang env.toEnv)),
      ("const", p.dataSchema.head.constant),
      ("default", p.dataSchema.head.default), ("unit", p.dataSchema.head.unit.map .str),
      ("oneOf", ps.oneOf),
      ("enum", p.dataSchema.head.enumeration.map .arr),
      ("readOnly", some (.bool p.dataSchema.head.readOnly)),
      ("writeOnly", some (.bool p.dataSchema.head.writeOnly)),
      ("format", p.dataSchema.head.format.map .str)] := by
    have h1 : occ k (ps.st.getD []) = [] := occ_none_of_keys (ps.st_keys hn) fun h => by
      rcases List.mem_append.1 h with h | h
      · exact schema_type_head k h hkH
      · rcases List.mem_append.1 h with h | h
        · exact sep.schemas.array k h (List.mem_append_left _ (List.mem_append_left _ hkH))
        · exact sep.schemas.object k h (List.mem_append_left _ (List.mem_append_left _ hkH))
    have h2 : occ k ps.other = [] := occ_none_of_keys (hn.other.own _ ps.hother) fun h =>
      sep.schemas.schema k h (List.mem_append_left _ hkH)
    rw [congrArg (occ k) ps.eq, occ_append, occ_append, h1, h2, List.append_nil, List.append_nil]
    exact last_members (by names) k
  rw [hi, hs, hag.attype, hag.title, hag.titles, hag.description, hag.descriptions]
  simp only [sharedNames, List.mem_cons, List.not_mem_nil, or_false] at hk
  rcases hk with rfl | rfl | rfl | rfl | rfl <;> simp [fieldOf]

/-- A property whose parts agree is read back. -/
theorem property_rt_agrees (sep : C.Separate) {p : PropertyAffordance X} {j : Json}
    (hst : PropertyKept env C p) (hag : p.Agrees) (hw : serProperty C env.toEnv p = some j) :
    RT j (deProperty C env)
      { p with interaction := p.interaction.stored, dataSchema := p.dataSchema.stored } := by
  intro d hd
  simp only [serProperty, bind, pure, Option.bind_eq_some_iff] at hw
  obtain ⟨mi, hmi, ms, hms, other, ho, hw⟩ := hw
  injection hw with hw
  subst hw
  obtain ⟨es, rfl, _, hc⟩ := hd.obj
  obtain ⟨pi⟩ := InteractionParts.of hmi
  obtain ⟨ps⟩ := SchemaParts.of hms
  have ik := pi.keys hst.interaction.other
  have sk := ps.keys hst.dataSchema
  have own := hst.other.own _ ho
  have hsh := shared_eq sep hst hag pi ps
  -- the names of the parts
  have apP := sep.property
  have apI := sep.interactionProperty
  have apD := sep.dataSchemaProperty
  have apA := sep.arraySchemaProperty
  have apO := sep.objectSchemaProperty
  have hobs_i : ∀ k ∈ Names.interaction ++ C.interaction.keys, k ≠ "observable" := by
    rintro k hk rfl
    rcases List.mem_append.1 hk with h | h
    · exact absurd h (by decide)
    · exact apI _ h (by simp)
  have hobs_s : ∀ k ∈ Names.schema ++ (C.dataSchema.keys ++ (C.arraySchema.keys ++ C.objectSchema.keys)),
      k ≠ "observable" := by
    rintro k hk rfl
    rcases List.mem_append.1 hk with h | h
    · exact absurd h (by decide)
    · rcases List.mem_append.1 h with h | h
      · exact apD _ h (by simp)
      · rcases List.mem_append.1 h with h | h
        · exact apA _ h (by simp)
        · exact apO _ h (by simp)
  have hother_no : ∀ k, k = "observable" ∨ k ∈ Names.interaction ++ C.interaction.keys ∨
      k ∈ Names.schema ++ (C.dataSchema.keys ++ (C.arraySchema.keys ++ C.objectSchema.keys)) →
      occ k other = [] := by
    intro k hk
    refine occ_none_of_keys own fun h => apP k h ?_
    simp only [List.cons_append, List.mem_cons, List.mem_append] at hk ⊢
    grind
  have hob : ∀ k, k ≠ "observable" → occ k (members [("observable", p.observable.map .bool)]) = [] :=
    fun k hk => occ_none_of_keys (members_keys rfl) (by simpa using hk)
  have hlast : ∀ k, k ≠ "observable" → occ k other = [] →
      lastOf (occ k (mi ++ ms ++ members [("observable", p.observable.map .bool)] ++ other)) =
        (lastOf (occ k ms)).or (lastOf (occ k mi)) := by
    intro k hk h0
    rw [occ_append, occ_append, occ_append, hob k hk, h0, List.append_nil, List.append_nil,
      lastOf_append_list]
  -- the observable flag
  have g1 : optional "observable" deBool es = some p.observable := by
    have h1 := ((hc "observable").left (hother_no _ (.inl rfl))).right
      (by
        rw [occ_append, occ_none_of_keys ik fun h => hobs_i _ h rfl,
          occ_none_of_keys sk fun h => hobs_s _ h rfl]
        rfl)
    exact optional_field h1 (h1.field (by names) (by simp [fieldOf])) bool_field
  -- the interaction part
  have g2 : deInteraction C env (rest ["observable"] es) = some p.interaction.stored := by
    refine interaction_rt sep hst.interaction hmi fun k hk => ?_
    have hko := hobs_i k hk
    refine Carries.rest ((hc k).congr ?_) (by simpa using hko)
    rw [hlast k hko (hother_no k (.inr (.inl hk)))]
    by_cases hs : k ∈ sharedNames
    · rw [← hsh k hs]
      cases lastOf (occ k mi) <;> rfl
    · have : occ k ms = [] := occ_none_of_keys sk fun h => by
        rcases List.mem_append.1 hk with h1 | h1
        · rcases List.mem_append.1 h with h | h
          · exact hs (names_is k h1 h)
          · rcases List.mem_append.1 h with h | h
            · exact apD k h (List.mem_cons_of_mem _ h1)
            · rcases List.mem_append.1 h with h | h
              · exact apA k h (List.mem_cons_of_mem _ h1)
              · exact apO k h (List.mem_cons_of_mem _ h1)
        · refine apI k h1 ?_
          simp only [List.cons_append, List.mem_cons, List.mem_append] at h ⊢
          grind
      rw [this]
      rfl
  -- the data schema part
  have g3 : deSchemaMembers C.dataSchema C.arraySchema C.objectSchema env (deDS C env)
      (rest ["observable"] es) = some p.dataSchema.stored := by
    refine schemaMembers_rt sep.schemas (hst.dataSchema _ (.self _)) ?_ ?_ hms fun k hk => ?_
    · intro l e c hcl j hcj
      exact schema_rt sep.schemas c (fun x hx => hst.dataSchema x (.oneOf e hcl hx)) j hcj
    · intro st e c hcl j hcj
      exact schema_rt sep.schemas c (fun x hx => hst.dataSchema x (within_child e hcl hx)) j hcj
    · have hko := hobs_s k hk
      refine Carries.rest ((hc k).congr ?_) (by simpa using hko)
      rw [hlast k hko (hother_no k (.inr (.inr hk)))]
      by_cases hs : k ∈ sharedNames
      · rw [hsh k hs]
        cases lastOf (occ k ms) <;> rfl
      · have : occ k mi = [] := occ_none_of_keys ik fun h => by
          rcases List.mem_append.1 h with h1 | h1
          · rcases List.mem_append.1 hk with h | h
            · exact hs (names_is k h1 h)
            · rcases List.mem_append.1 h with h | h
              · exact apD k h (List.mem_cons_of_mem _ h1)
              · rcases List.mem_append.1 h with h | h
                · exact apA k h (List.mem_cons_of_mem _ h1)
                · exact apO k h (List.mem_cons_of_mem _ h1)
          · refine apI k h1 ?_
            simp only [List.cons_append, List.mem_cons, List.mem_append] at hk ⊢
            grind
        rw [this]
        cases lastOf (occ k ms) <;> rfl
  have g4 : C.property.de (rest ["observable"] es) = some p.other := by
    refine hst.other.read _ _ ho fun k hk => ?_
    have hk' := apP k hk
    simp only [List.cons_append, List.mem_cons, List.mem_append, not_or] at hk'
    refine Carries.rest ((hc k).right ?_) (by simpa using hk'.1)
    rw [occ_append, occ_append, hob k hk'.1, occ_none_of_keys ik (k := k) (by
      simp only [List.mem_append]; grind), occ_none_of_keys sk (k := k) (by
      simp only [List.mem_append]; grind)]
    rfl
  simp only [deProperty, bind, Option.bind_some, pure, g1, g2, g3, g4]

theorem Schema.withInfo_head (s : DS X) (n : Info) : (s.withInfo n).head =
    { s.head with attype := n.attype, title := n.title, titles := n.titles,
                  description := n.description, descriptions := n.descriptions } := rfl

theorem within_withInfo {s x : DS X} {n : Info} (h : Within x (s.withInfo n)) :
    x = s.withInfo n ∨ Within x s := by
  cases h with
  | self => exact .inl rfl
  | oneOf h1 h2 h3 => exact .inr (.oneOf h1 h2 h3)
  | item h1 h2 h3 => exact .inr (.item h1 h2 h3)
  | items h1 h2 h3 h4 => exact .inr (.items h1 h2 h3 h4)
  | property h1 h2 h3 h4 => exact .inr (.property h1 h2 h3 h4)

theorem LangKept.or {a b : Option MultiLanguage} (ha : LangKept env a) (hb : LangKept env b) :
    LangKept env (a.or b) := by
  cases a with
  | none => exact hb
  | some _ => exact ha

theorem PropertyKept.merged {p : PropertyAffordance X} (h : PropertyKept env C p) :
    PropertyKept env C p.merged where
  interaction :=
    { titles := LangKept.or (h.dataSchema _ (.self _)).titles h.interaction.titles
      descriptions := LangKept.or (h.dataSchema _ (.self _)).descriptions h.interaction.descriptions
      forms := h.interaction.forms
      uriVariables := h.interaction.uriVariables
      other := h.interaction.other }
  dataSchema := fun x hx => by
    rcases within_withInfo hx with rfl | hx
    · have hs := h.dataSchema _ (.self _)
      exact
        { constant := hs.constant, default := hs.default, enumeration := hs.enumeration
          other := hs.other, otherArray := hs.otherArray, otherObject := hs.otherObject
          titles := LangKept.or hs.titles h.interaction.titles
          descriptions := LangKept.or hs.descriptions h.interaction.descriptions
          properties := hs.properties }
    · exact h.dataSchema x hx
  other := h.other

theorem PropertyAffordance.merged_agrees (p : PropertyAffordance X) : p.merged.Agrees :=
  ⟨rfl, rfl, rfl, rfl, rfl⟩

/-- A property and the property with merged information are written as documents that say the same. -/
theorem serProperty_merged (sep : C.Separate) {p : PropertyAffordance X} {j : Json}
    (hst : C.interaction.Reads p.interaction.other) (hw : serProperty C env.toEnv p = some j) :
    ∃ j', serProperty C env.toEnv p.merged = some j' ∧ j.norm = j'.norm := by
  simp only [serProperty, serInteraction, serSchemaMembers, serSchemaStep, bind, pure,
    Option.bind_eq_some_iff, Option.some.injEq] at hw
  obtain ⟨mi, ⟨forms, hforms, uris, huris, io, hio, rfl⟩, ms, ⟨oneOf, hoo, st, hst', so, hso, rfl⟩,
    other, ho, rfl⟩ := hw
  refine ⟨_, by
    simp only [serProperty, serInteraction, serSchemaMembers, serSchemaStep, bind, pure,
      PropertyAffordance.merged, Interaction.withInfo, Schema.withInfo, Schema.head, Schema.oneOf,
      Schema.subtype]
    rw [hforms, huris, hio, Option.bind_some, Option.bind_some, Option.bind_some, Option.bind_some]
    erw [hoo, hst', hso, ho]
    rfl, norm_obj_eq fun k => ?_⟩
  have hi0 : k ∈ sharedNames → occ k io = [] := fun hk =>
    occ_none_of_keys (hst.own _ hio) fun h => sep.interaction k h (shared_interaction k hk)
  simp only [occ_append, lastOf_append_list]
  rw [last_members (by names), last_members (by names), last_members (by names), last_members (by names),
    last_members (by names)]
  by_cases hk : k ∈ sharedNames
  · rw [hi0 hk]
    simp only [sharedNames, List.mem_cons, List.not_mem_nil, or_false] at hk
    rcases hk with rfl | rfl | rfl | rfl | rfl <;>
      simp [fieldOf, lastOf, PropertyAffordance.info, Option.map_or, Option.or_assoc]
  · simp only [sharedNames, List.mem_cons, List.not_mem_nil, or_false, not_or] at hk
    simp [fieldOf, Ne.symm hk.1, Ne.symm hk.2.1, Ne.symm hk.2.2.1, Ne.symm hk.2.2.2.1,
      Ne.symm hk.2.2.2.2]
    rfl

/-- What is left of a property is read back. -/
theorem property_rt (sep : C.Separate) {p : PropertyAffordance X} {j : Json}
    (hst : PropertyKept env C p) (hw : serProperty C env.toEnv p = some j) :
    RT j (deProperty C env) p.stored := by
  intro d hd
  obtain ⟨j', h1, h2⟩ := serProperty_merged sep hst.interaction.other hw
  exact property_rt_agrees sep hst.merged p.merged_agrees h1 d ⟨hd.1, hd.2.trans h2⟩

/-! ### Things -/

theorem version_rt (v : VersionInfo) : RT (serVersion v) deVersion v := by
  intro d hd
  obtain ⟨es, rfl, _, hc⟩ := hd.obj
  have g1 : required "instance" deStr es = some v.instance_ :=
    required_rt (hc "instance") (by simp [occ_cons, occ_nil, lastOf]) (str_rt _)
  have g2 : optional "model" deStr es = some v.model := by
    have e : lastOf (occ "model" [("instance", Json.str v.instance_),
        ("model", (v.model.map Json.str).getD .null)]) = some ((v.model.map Json.str).getD .null) := by
      simp [occ_cons, occ_nil, lastOf]
    refine defaulted_rt (hc "model") e ?_
    cases v.model with
    | none => intro d hd; rw [hd.null]; rfl
    | some s => exact deOption_rt nofun (str_rt s)
  simp only [deVersion, bind, Option.bind_some, pure, g1, g2]

theorem time_field {x : Option OffsetDateTime} (hst : TimeKept env x) :
    ∀ d j, x = some d → (env.timeFormat d).map Json.str = some j →
      j ≠ .null ∧ RT j (deTime env) d := by
  intro d j e hj
  obtain ⟨s, hs, rfl⟩ := Option.map_eq_some_iff.1 hj
  refine ⟨nofun, fun d' hd' => ?_⟩
  rw [hd'.str]
  exact hst d s e hs

theorem map_field {α : Type} {x : Option (HMap α)} {f : α → Option Json} {r : α → α}
    {de : Json → Option α}
    (hst : ∀ m, x = some m → m.Sorted ∧ ∀ kv ∈ m, ∀ j, f kv.2 = some j → RT j de (r kv.2)) :
    ∀ m j, x = some m → serMap env.toEnv f m = some j →
      j ≠ .null ∧ RT j (deMap de) (HMap.mapVals r m) := fun m _ e hw =>
  ⟨serMap_ne_null hw, serMap_rt (hst m e).1 hw (hst m e).2⟩

/-- What is left of a Thing is read from every document that says the same as what it is written as. -/
theorem thing_stored (sep : C.Separate) {t : Thing X} {j : Json} (hst : Kept env C t)
    (hw : serThing C env t = some j) : RT j (deThing C env) t.stored := by
  intro d hd
  simp only [serThing, bind, pure, Option.bind_eq_some_iff] at hw
  obtain ⟨created, hcr, modified, hmo, properties, hpr, actions, hac, events, hev, forms, hfo,
    secs, hsec, uris, huri, schemas, hsch, other, ho, hw⟩ := hw
  injection hw with hw
  subst hw
  obtain ⟨es, rfl, _, hc⟩ := hd.obj
  have own := hst.other.own _ ho
  have hf : ∀ {k : String} {v : Option Json}, k ∈ Names.thing → fieldOf k _ = v → _ ∧ _ :=
    fun {k v} h1 h2 =>
    have := (hc k).left (occ_none_of_keys own fun h => sep.thing k h h1)
    And.intro this (this.field (by names) h2)
  have h1 := hf (k := "@context") (by decide) (by simp [fieldOf]; rfl)
  have h2 := hf (k := "id") (by decide) (by simp [fieldOf]; rfl)
  have h3 := hf (k := "@type") (by decide) (by simp [fieldOf]; rfl)
  have h4 := hf (k := "title") (by decide) (by simp [fieldOf]; rfl)
  have h5 := hf (k := "titles") (by decide) (by simp [fieldOf]; rfl)
  have h6 := hf (k := "description") (by decide) (by simp [fieldOf]; rfl)
  have h7 := hf (k := "descriptions") (by decide) (by simp [fieldOf]; rfl)
  have h8 := hf (k := "version") (by decide) (by simp [fieldOf]; rfl)
  have h9 := hf (k := "created") (by decide) (by simp [fieldOf]; rfl)
  have h10 := hf (k := "modified") (by decide) (by simp [fieldOf]; rfl)
  have h11 := hf (k := "support") (by decide) (by simp [fieldOf]; rfl)
  have h12 := hf (k := "base") (by decide) (by simp [fieldOf]; rfl)
  have h13 := hf (k := "properties") (by decide) (by simp [fieldOf]; rfl)
  have h14 := hf (k := "actions") (by decide) (by simp [fieldOf]; rfl)
  have h15 := hf (k := "events") (by decide) (by simp [fieldOf]; rfl)
  have h16 := hf (k := "links") (by decide) (by simp [fieldOf]; rfl)
  have h17 := hf (k := "forms") (by decide) (by simp [fieldOf]; rfl)
  have h18 := hf (k := "security") (by decide) (by simp [fieldOf]; rfl)
  have h19 := hf (k := "securityDefinitions") (by decide) (by simp [fieldOf]; rfl)
  have h20 := hf (k := "uriVariables") (by decide) (by simp [fieldOf]; rfl)
  have h21 := hf (k := "profile") (by decide) (by simp [fieldOf]; rfl)
  have h22 := hf (k := "schemaDefinitions") (by decide) (by simp [fieldOf]; rfl)
  have g1 := defaulted_rt (d := Json.str tdContext11) h1.1 h1.2 (value_rt hst.context)
  have g2 := optional_field h2.1 h2.2 Option.map_str_rt
  have g3 := optional_field h3.1 h3.2 strings_field
  have g4 := required_rt h4.1 h4.2 (str_rt _)
  have g5 := optional_field h5.1 h5.2 (lang_field hst.titles)
  have g6 := optional_field h6.1 h6.2 Option.map_str_rt
  have g7 := optional_field h7.1 h7.2 (lang_field hst.descriptions)
  have g8 := optional_field h8.1 h8.2 fun v _ => ⟨nofun, version_rt v⟩
  have g9 := optional_rel h9.1 (optOpt_eq_some.1 hcr) h9.2 (time_field hst.created)
  have g10 := optional_rel h10.1 (optOpt_eq_some.1 hmo) h10.2 (time_field hst.modified)
  have g11 := optional_field h11.1 h11.2 Option.map_str_rt
  have g12 := optional_field h12.1 h12.2 Option.map_str_rt
  have g13 := optional_map h13.1 (optOpt_eq_some.1 hpr) h13.2 (map_field fun m e =>
    ⟨(hst.properties m e).1, fun kv hkv _ hj => property_rt sep ((hst.properties m e).2 kv hkv) hj⟩)
  have g14 := optional_map h14.1 (optOpt_eq_some.1 hac) h14.2 (map_field fun m e =>
    ⟨(hst.actions m e).1, fun kv hkv _ hj => action_rt sep ((hst.actions m e).2 kv hkv) hj⟩)
  have g15 := optional_map h15.1 (optOpt_eq_some.1 hev) h15.2 (map_field fun m e =>
    ⟨(hst.events m e).1, fun kv hkv _ hj => event_rt sep ((hst.events m e).2 kv hkv) hj⟩)
  have g16 := optional_field (de := deVec (deLink env)) h16.1 h16.2 fun l e =>
    ⟨nofun, vec_rt (pointwise_map_self fun k hk => link_rt (hst.links l e k hk))⟩
  have g17 := optional_map (de := deVec (deForm C)) h17.1 (optOpt_eq_some.1 hfo) h17.2 fun l j e hj => by
    obtain ⟨js, hjs, rfl⟩ := Option.map_eq_some_iff.1 hj
    exact ⟨nofun, forms_rt sep (hst.forms l e) hjs⟩
  have g18 := required_rt h18.1 h18.2 (strings_rt _)
  have g19 := required_rt h19.1 h19.2 (serMap_rt (de := deSecurity env) hst.securityDefinitions hsec
    fun kv hkv j hj => security_rt (hst.security kv hkv) hj)
  have g20 := optional_map h20.1 (optOpt_eq_some.1 huri) h20.2 (schemas_field sep hst.uriVariables)
  have g21 := optional_field h21.1 h21.2 strings_field
  have g22 := optional_map h22.1 (optOpt_eq_some.1 hsch) h22.2 (schemas_field sep hst.schemaDefinitions)
  have g23 : C.thing.de (rest thingKeys es) = some t.other := by
    refine hst.other.read _ _ ho fun k hk => Carries.rest ((hc k).right ?_) (sep.thing k hk)
    exact occ_none_of_keys (members_keys rfl) (sep.thing k hk)
  simp only [deThing, bind, Option.bind_some, pure, g1, g2, g3, g4, g5, g6, g7, g8, g9, g10, g11, g12,
    g13, g14, g15, g16, g17, g18, g19, g20, g21, g22, g23, Thing.stored]

end Wot
