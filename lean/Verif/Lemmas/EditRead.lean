import Verif.Lemmas.EditMembers
/-
Edits that do not matter: all parts of a document.
-/
namespace Wot

variable {X : ExtTypes} {C : ExtCodecs X} {env : SerdeEnv} {es es' : Members} {k : String} {v v' : Json}

/-- What a part is read as. -/
def Part.Val (X : ExtTypes) : Part → Type
  | .thing => Thing X
  | .version => VersionInfo
  | .property => PropertyAffordance X
  | .action => ActionAffordance X
  | .event => EventAffordance X
  | .form => Form X
  | .response => ExpectedResponse X.response
  | .additional => AdditionalResponse
  | .link => Link
  | .security => SecurityScheme
  | .schema => DS X
  | .items => ElemOrVec (DS X)
  | .translations => MultiLanguage
  | .value => Json
  | .list p => List (p.Val X)
  | .additionals => List AdditionalResponse
  | .map p => HMap (p.Val X)

/-- The reader of a part. -/
def Part.read (C : ExtCodecs X) (env : SerdeEnv) : (p : Part) → Json → Option (p.Val X)
  | .thing => deThing C env
  | .version => deVersion
  | .property => deProperty C env
  | .action => deAction C env
  | .event => deEvent C env
  | .form => deForm C
  | .response => deResponse C.response
  | .additional => deAdditional
  | .link => deLink env
  | .security => deSecurity env
  | .schema => deDS C env
  | .items => deItems (deDS C env)
  | .translations => deLang env
  | .value => deValue
  | .list p => deVec (p.read C env)
  | .additionals => deOneOrMany deAdditional
  | .map p => deMap (p.read C env)

/-- All laws about extensions. -/
structure Lawful (C : ExtCodecs X) : Prop where
  loc : C.Local
  ord : C.Orderless
  sep : C.Separate

/-! ### Unknown members -/

theorem read_insert (loc : C.Local) {p : Part} {K : List String} (hp : p.names C = some K) (hk : k ∉ K) (a b : Members)
    (v : Json) : p.read C env (.obj (a ++ b)) = p.read C env (.obj (a ++ (k, v) :: b)) := by
  have h := sameOn_insert hk a b v
  cases p <;> simp only [Part.names, reduceCtorEq, Option.some.injEq] at hp <;> subst hp
  · exact SameOn.thing loc (h.mono (by simp +contextual)) (h.mono (by simp +contextual))
  · exact h.version
  · exact SameOn.property loc (h.mono (by simp)) (h.mono (by simp +contextual)) (h.mono (by simp +contextual))
      (sameSchema_insert (by simp only [List.mem_cons, List.mem_append] at hk ⊢; simp_all) _ _ _)
      (h.mono (by simp +contextual))
  · exact SameOn.action loc (h.mono (by simp +contextual)) (h.mono (by simp +contextual)) (h.mono (by simp +contextual))
      (h.mono (by simp +contextual))
  · exact SameOn.event loc (h.mono (by simp +contextual)) (h.mono (by simp +contextual)) (h.mono (by simp +contextual))
      (h.mono (by simp +contextual))
  · exact SameOn.form loc (h.mono (by simp +contextual)) (h.mono (by simp +contextual))
  · exact SameOn.response loc.response h
  · exact h.additional
  · exact h.link
  · exact SameSchema.schema loc (sameSchema_insert hk _ _ _)

/-! ### Swaps -/

theorem read_swap (loc : C.Local) {p : Part} {k k' : String} (hk : k ≠ k') (hs : p.Swappable env k k') (a b : Members)
    (v v' : Json) :
    p.read C env (.obj (a ++ (k, v) :: (k', v') :: b)) = p.read C env (.obj (a ++ (k', v') :: (k, v) :: b)) := by
  have h : ∀ K : List String, SameOn K (a ++ (k, v) :: (k', v') :: b) (a ++ (k', v') :: (k, v) :: b) :=
    fun K f _ => occ_swap hk a b v v' f
  cases p with
  | thing => exact SameOn.thing loc (h _) (h _)
  | version => exact (h _).version
  | property => exact SameOn.property loc (h _) (h _) (h _) (sameSchema_swap hk hs _ _ _ _) (h _)
  | action => exact SameOn.action loc (h _) (h _) (h _) (h _)
  | event => exact SameOn.event loc (h _) (h _) (h _) (h _)
  | form => exact SameOn.form loc (h _) (h _)
  | response => exact SameOn.response loc.response (h _)
  | additional => exact (h _).additional
  | link => exact (h _).link
  | security => exact security_swap hk a b
  | schema => exact SameSchema.schema loc (sameSchema_swap hk hs _ _ _ _)
  | items => exact hs.elim
  | translations =>
    show deLang env _ = deLang env _
    simp only [deLang]
    have := mapOpt_swap (f := fun kv : String × Json => (env.langRead kv.1).bind fun t =>
      (deStr kv.2).map fun s => (t, s)) (x := (k, v)) (x' := (k', v')) (by
        intro y y' h1 h2 e
        obtain ⟨t, ht, h1⟩ := Option.bind_eq_some_iff.1 h1
        obtain ⟨s, _, rfl⟩ := Option.map_eq_some_iff.1 h1
        obtain ⟨t', ht', h2⟩ := Option.bind_eq_some_iff.1 h2
        obtain ⟨s', _, rfl⟩ := Option.map_eq_some_iff.1 h2
        simp only at e
        subst e
        exact hs _ ht ht') a b
    have e : ∀ o : Option (List (String × String)), (o.map fun l => (⟨HMap.collect l⟩ : MultiLanguage)) =
        (o.map HMap.collect).map MultiLanguage.mk := fun o => by cases o <;> rfl
    rw [e, e]
    exact congrArg _ this
  | value => exact congrArg some (norm_swap hk a b v v')
  | list p => rfl
  | additionals => exact hs.elim
  | map p =>
    show deMap _ _ = deMap _ _
    simp only [deMap, mapOptVals]
    refine mapOpt_swap ?_ a b
    intro y y' h1 h2
    obtain ⟨s, _, rfl⟩ := Option.map_eq_some_iff.1 h1
    obtain ⟨s, _, rfl⟩ := Option.map_eq_some_iff.1 h2
    exact hk

/-! ### Members -/

/-- The value of a member is edited. -/
structure Same (C : ExtCodecs X) (env : SerdeEnv) (p : Part) (v v' : Json) : Prop where
  solid : Solid v v'
  read : p.read C env v = p.read C env v'
  plain : p = .value → Reordered v v'

theorem Same.at {p q : Part} (h : Same C env p v v') (e : p = q) : q.read C env v = q.read C env v' := e ▸ h.read

/-- Names of members that are not plain values are not those of an extension. -/
theorem Same.ext {f : String → Part} (h : Same C env (f k) v v') {K L : List String} (hs : Apart K L)
    (hf : ∀ k, k ∉ L → f k = .value) : k ∉ K ∨ Reordered v v' := by
  by_cases hk : k ∈ L
  · exact .inl fun hK => hs k hK hk
  · exact .inr (h.plain (hf k hk))

theorem ofSchema_value {k : String} (hk : k ∉ Names.schema) : Part.ofSchema k = .value := by
  simp only [Names.schema, Names.schemaHead, Names.schemaType, List.mem_append, List.mem_cons, List.not_mem_nil,
    or_false, not_or] at hk
  simp [Part.ofSchema, hk]

theorem ofSchema_plain {k : String} (hk : k ∈ Names.plainSchema) : Part.ofSchema k = .value := by
  revert k
  simp only [Names.plainSchema, List.mem_cons, List.not_mem_nil, or_false, forall_eq_or_imp, forall_eq]
  repeat' constructor

theorem ofInteraction_value {k : String} (hk : k ∉ Names.interaction) : Part.ofInteraction k = .value := by
  simp only [Names.interaction, List.mem_cons, List.not_mem_nil, or_false, not_or] at hk
  simp [Part.ofInteraction, hk]

theorem ofThing_value {k : String} (hk : k ∉ Names.thing) : Part.ofThing k = .value := by
  simp only [Names.thing, List.mem_cons, List.not_mem_nil, or_false, not_or] at hk
  simp [Part.ofThing, hk]

theorem read_member_schema (law : Lawful C) (h : Replaced k v v' es es') (hm : Same C env (Part.ofSchema k) v v') :
    deDS C env (.obj es) = deDS C env (.obj es') := by
  have s := law.sep.schemas
  rw [deDS, deSchema_obj, deSchema_obj]
  refine h.schemaMembers hm.solid law.loc.dataSchema law.ord.dataSchema law.loc.arraySchema law.ord.arraySchema
    law.loc.objectSchema law.ord.objectSchema (fun hk => ?_) (fun hk => ?_) (fun hk => ?_) (fun hk => ?_)
    (fun hk => hm.plain (ofSchema_plain hk)) (hm.ext s.schema fun _ => ofSchema_value)
    (hm.ext (L := Names.schema) (fun k h1 h2 => s.array k h1 (by simp [h2])) fun _ => ofSchema_value)
    (hm.ext (L := Names.schema) (fun k h1 h2 => s.object k h1 (by simp [h2])) fun _ => ofSchema_value)
  · exact hm.at (q := .translations) (by simp only [List.mem_cons, List.not_mem_nil, or_false] at hk; simp [Part.ofSchema, hk])
  · exact hm.at (q := .list .schema) (by simp [Part.ofSchema, hk])
  · exact hm.at (q := .items) (by simp [Part.ofSchema, hk])
  · exact hm.at (q := .map .schema) (by simp [Part.ofSchema, hk])

theorem read_member_interaction (law : Lawful C) (h : Replaced k v v' es es')
    (hm : Same C env (Part.ofInteraction k) v v') : deInteraction C env es = deInteraction C env es' := by
  refine h.interaction hm.solid law.loc.interaction law.ord.interaction (fun hk => ?_) (fun hk => ?_) (fun hk => ?_)
    (fun hk => hm.plain ?_) (hm.ext law.sep.interaction fun _ => ofInteraction_value)
  · exact hm.at (q := .translations) (by
      simp only [List.mem_cons, List.not_mem_nil, or_false] at hk; simp [Part.ofInteraction, hk])
  · exact hm.at (q := .list .form) (by simp [Part.ofInteraction, hk])
  · exact hm.at (q := .map .schema) (by simp [Part.ofInteraction, hk])
  · simp only [List.mem_cons, List.not_mem_nil, or_false] at hk
    rcases hk with rfl | rfl | rfl <;> rfl

/-- What the members of a property describe. -/
def Part.ofProperty (k : String) : Part :=
  if k = "forms" ∨ k = "uriVariables" then ofInteraction k else ofSchema k

/-- What the members of an action describe. -/
def Part.ofAction (k : String) : Part := if k = "input" ∨ k = "output" then .schema else ofInteraction k

/-- What the members of an event describe. -/
def Part.ofEvent (k : String) : Part := if k ∈ Names.event then .schema else ofInteraction k

theorem ofProperty_value {k : String} (hk : k ∉ Names.interaction ++ Names.schema) : Part.ofProperty k = .value := by
  rw [List.mem_append, not_or] at hk
  unfold Part.ofProperty
  split
  · exact ofInteraction_value hk.1
  · exact ofSchema_value hk.2

theorem ofAction_value {k : String} (hk : k ∉ Names.interaction ++ Names.action) : Part.ofAction k = .value := by
  rw [List.mem_append, not_or] at hk
  unfold Part.ofAction
  rw [if_neg]
  · exact ofInteraction_value hk.1
  · rintro (rfl | rfl)
    · exact hk.2 (by decide)
    · exact hk.2 (by decide)

theorem ofEvent_value {k : String} (hk : k ∉ Names.interaction ++ Names.event) : Part.ofEvent k = .value := by
  rw [List.mem_append, not_or] at hk
  unfold Part.ofEvent
  rw [if_neg hk.2]
  exact ofInteraction_value hk.1

theorem read_member_property (law : Lawful C) (h : Replaced k v v' es es')
    (hm : Same C env (Part.ofProperty k) v v') : deProperty C env (.obj es) = deProperty C env (.obj es') := by
  have sep := law.sep
  have e0 := h.opt hm.solid (f := "observable") (de := deBool) fun e =>
    flat_bool.congr (hm.plain (by subst e; rfl))
  rcases h.rest_cases ["observable"] with e | ⟨_, h⟩
  · simp only [deProperty, e0, e]
  · have lang : k ∈ ["titles", "descriptions"] → deLang env v = deLang env v' := fun hk =>
      hm.at (q := .translations) (by
        simp only [List.mem_cons, List.not_mem_nil, or_false] at hk; rcases hk with rfl | rfl <;> rfl)
    have x : ∀ {K : List String}, Apart K (Names.interaction ++ Names.schema) → k ∉ K ∨ Reordered v v' :=
      fun hs => hm.ext hs fun _ => ofProperty_value
    have e1 : deInteraction C env (rest ["observable"] es) = deInteraction C env (rest ["observable"] es') := by
      refine h.interaction hm.solid law.loc.interaction law.ord.interaction lang (fun hk => ?_) (fun hk => ?_)
        (fun hk => hm.plain ?_) (x fun k h1 h2 => ?_)
      · exact hm.at (q := .list .form) (by subst hk; rfl)
      · exact hm.at (q := .map .schema) (by subst hk; rfl)
      · simp only [List.mem_cons, List.not_mem_nil, or_false] at hk
        rcases hk with rfl | rfl | rfl <;> rfl
      · rcases List.mem_append.1 h2 with h2 | h2
        · exact sep.interaction k h1 h2
        · exact sep.interactionProperty k h1 (by simp [h2])
    have e2 : deSchemaMembers C.dataSchema C.arraySchema C.objectSchema env (deDS C env) (rest ["observable"] es) =
        deSchemaMembers C.dataSchema C.arraySchema C.objectSchema env (deDS C env) (rest ["observable"] es') := by
      refine h.schemaMembers hm.solid law.loc.dataSchema law.ord.dataSchema law.loc.arraySchema law.ord.arraySchema
        law.loc.objectSchema law.ord.objectSchema lang (fun hk => ?_) (fun hk => ?_) (fun hk => ?_)
        (fun hk => hm.plain ?_) (x fun k h1 h2 => ?_) (x fun k h1 h2 => ?_) (x fun k h1 h2 => ?_)
      · exact hm.at (q := .list .schema) (by subst hk; rfl)
      · exact hm.at (q := .items) (by subst hk; rfl)
      · exact hm.at (q := .map .schema) (by subst hk; rfl)
      · have : ¬ (k = "forms" ∨ k = "uriVariables") := by
          rintro (rfl | rfl)
          · exact absurd hk (by decide)
          · exact absurd hk (by decide)
        rw [Part.ofProperty, if_neg this]
        exact ofSchema_plain hk
      · rcases List.mem_append.1 h2 with h2 | h2
        · exact sep.dataSchemaProperty k h1 (by simp [h2])
        · exact sep.schemas.schema k h1 h2
      · rcases List.mem_append.1 h2 with h2 | h2
        · exact sep.arraySchemaProperty k h1 (by simp [h2])
        · exact sep.schemas.array k h1 (by simp [h2])
      · rcases List.mem_append.1 h2 with h2 | h2
        · exact sep.objectSchemaProperty k h1 (by simp [h2])
        · exact sep.schemas.object k h1 (by simp [h2])
    have e3 := h.ext' law.loc.property law.ord.property (x fun k h1 h2 => sep.property k h1 (by
      rcases List.mem_append.1 h2 with h2 | h2 <;> simp [h2]))
    simp only [deProperty, e0, e1, e2, e3]

theorem read_member_action (law : Lawful C) (h : Replaced k v v' es es')
    (hm : Same C env (Part.ofAction k) v v') : deAction C env (.obj es) = deAction C env (.obj es') := by
  have sep := law.sep
  have i1 := h.opt hm.solid (f := "input") (de := deDS C env) fun e => hm.at (q := .schema) (by subst e; rfl)
  have i2 := h.opt hm.solid (f := "output") (de := deDS C env) fun e => hm.at (q := .schema) (by subst e; rfl)
  have i3 := h.dflt (f := "safe") (d := false) (de := deBool) fun e => flat_bool.congr (hm.plain (by subst e; rfl))
  have i4 := h.dflt (f := "idempotent") (d := false) (de := deBool) fun e => flat_bool.congr (hm.plain (by subst e; rfl))
  have i5 := h.opt hm.solid (f := "synchronous") (de := deBool) fun e => flat_bool.congr (hm.plain (by subst e; rfl))
  rcases h.rest_cases actionKeys with e | ⟨_, h⟩
  · simp only [deAction, i1, i2, i3, i4, i5, e]
  · have x : ∀ {K : List String}, Apart K (Names.interaction ++ Names.action) → k ∉ K ∨ Reordered v v' :=
      fun hs => hm.ext hs fun _ => ofAction_value
    have e1 : deInteraction C env (rest actionKeys es) = deInteraction C env (rest actionKeys es') := by
      refine h.interaction hm.solid law.loc.interaction law.ord.interaction (fun hk => ?_) (fun hk => ?_) (fun hk => ?_)
        (fun hk => hm.plain ?_) (x fun k h1 h2 => ?_)
      · exact hm.at (q := .translations) (by
          simp only [List.mem_cons, List.not_mem_nil, or_false] at hk; rcases hk with rfl | rfl <;> rfl)
      · exact hm.at (q := .list .form) (by subst hk; rfl)
      · exact hm.at (q := .map .schema) (by subst hk; rfl)
      · simp only [List.mem_cons, List.not_mem_nil, or_false] at hk
        rcases hk with rfl | rfl | rfl <;> rfl
      · rcases List.mem_append.1 h2 with h2 | h2
        · exact sep.interaction k h1 h2
        · exact sep.interactionAction k h1 h2
    have e3 := h.ext' law.loc.action law.ord.action (x fun k h1 h2 => sep.action k h1 (by
      rcases List.mem_append.1 h2 with h2 | h2 <;> simp [h2]))
    simp only [deAction, i1, i2, i3, i4, i5, e1, e3]

theorem read_member_event (law : Lawful C) (h : Replaced k v v' es es')
    (hm : Same C env (Part.ofEvent k) v v') : deEvent C env (.obj es) = deEvent C env (.obj es') := by
  have sep := law.sep
  have i1 := h.opt hm.solid (f := "subscription") (de := deDS C env) fun e => hm.at (q := .schema) (by subst e; rfl)
  have i2 := h.opt hm.solid (f := "data") (de := deDS C env) fun e => hm.at (q := .schema) (by subst e; rfl)
  have i3 := h.opt hm.solid (f := "data_response") (de := deDS C env) fun e => hm.at (q := .schema) (by subst e; rfl)
  have i4 := h.opt hm.solid (f := "cancellation") (de := deDS C env) fun e => hm.at (q := .schema) (by subst e; rfl)
  rcases h.rest_cases eventKeys with e | ⟨_, h⟩
  · simp only [deEvent, i1, i2, i3, i4, e]
  · have x : ∀ {K : List String}, Apart K (Names.interaction ++ Names.event) → k ∉ K ∨ Reordered v v' :=
      fun hs => hm.ext hs fun _ => ofEvent_value
    have e1 : deInteraction C env (rest eventKeys es) = deInteraction C env (rest eventKeys es') := by
      refine h.interaction hm.solid law.loc.interaction law.ord.interaction (fun hk => ?_) (fun hk => ?_) (fun hk => ?_)
        (fun hk => hm.plain ?_) (x fun k h1 h2 => ?_)
      · exact hm.at (q := .translations) (by
          simp only [List.mem_cons, List.not_mem_nil, or_false] at hk; rcases hk with rfl | rfl <;> rfl)
      · exact hm.at (q := .list .form) (by subst hk; rfl)
      · exact hm.at (q := .map .schema) (by subst hk; rfl)
      · simp only [List.mem_cons, List.not_mem_nil, or_false] at hk
        rcases hk with rfl | rfl | rfl <;> rfl
      · rcases List.mem_append.1 h2 with h2 | h2
        · exact sep.interaction k h1 h2
        · exact sep.interactionEvent k h1 h2
    have e3 := h.ext' law.loc.event law.ord.event (x fun k h1 h2 => sep.event k h1 (by
      rcases List.mem_append.1 h2 with h2 | h2 <;> simp [h2]))
    simp only [deEvent, i1, i2, i3, i4, e1, e3]

/-- What the members of a form describe. -/
def Part.ofForm (k : String) : Part :=
  if k = "response" then .response else if k = "additionalResponses" then .additionals else .value

theorem ofForm_value {k : String} (hk : k ∉ Names.form) : Part.ofForm k = .value := by
  simp only [Names.form, List.mem_cons, List.not_mem_nil, or_false, not_or] at hk
  simp [Part.ofForm, hk]

theorem read_member_form (law : Lawful C) (h : Replaced k v v' es es')
    (hm : Same C env (Part.ofForm k) v v') : deForm C (.obj es) = deForm C (.obj es') := by
  have hs := hm.solid
  have pl : ∀ {f : String}, Part.ofForm f = .value → k = f → Reordered v v' := fun hf e => hm.plain (e ▸ hf)
  simp only [deForm, deStrings,
    h.dflt (f := "op") (d := FormOps.default) fun e => ops_congr (pl rfl e),
    h.req (f := "href") fun e => flat_str.congr (pl rfl e),
    h.opt hs (f := "contentType") fun e => flat_str.congr (pl rfl e),
    h.opt hs (f := "contentCoding") fun e => flat_str.congr (pl rfl e),
    h.opt hs (f := "subprotocol") fun e => flat_str.congr (pl rfl e),
    h.opt hs (f := "security") fun e => flat_str.many (pl rfl e),
    h.opt hs (f := "scopes") fun e => flat_str.many (pl rfl e),
    h.opt hs (f := "response") (de := deResponse C.response) fun e => hm.at (q := .response) (by subst e; rfl),
    h.opt hs (f := "additionalResponses") (de := deOneOrMany deAdditional) fun e =>
      hm.at (q := .additionals) (by subst e; rfl),
    h.ext law.loc.form law.ord.form _ fun _ => hm.ext law.sep.form fun _ => ofForm_value]

theorem read_member_thing (law : Lawful C) (h : Replaced k v v' es es')
    (hm : Same C env (Part.ofThing k) v v') : deThing C env (.obj es) = deThing C env (.obj es') := by
  have hs := hm.solid
  have pl : ∀ {f : String}, Part.ofThing f = .value → k = f → Reordered v v' := fun hf e => hm.plain (e ▸ hf)
  have at' : ∀ {f : String} (q : Part), Part.ofThing f = q → k = f → q.read C env v = q.read C env v' :=
    fun q hf e => hm.at (e ▸ hf)
  simp only [deThing, deStrings,
    h.dflt (f := "@context") (d := Json.str tdContext11) fun e => value_congr (pl rfl e),
    h.opt hs (f := "id") fun e => flat_str.congr (pl rfl e),
    h.opt hs (f := "@type") fun e => flat_str.many (pl rfl e),
    h.req (f := "title") fun e => flat_str.congr (pl rfl e),
    h.opt hs (f := "titles") (de := deLang env) (at' .translations rfl),
    h.opt hs (f := "description") fun e => flat_str.congr (pl rfl e),
    h.opt hs (f := "descriptions") (de := deLang env) (at' .translations rfl),
    h.opt hs (f := "version") (de := deVersion) (at' .version rfl),
    h.opt hs (f := "created") fun e => (flat_time env).congr (pl rfl e),
    h.opt hs (f := "modified") fun e => (flat_time env).congr (pl rfl e),
    h.opt hs (f := "support") fun e => flat_str.congr (pl rfl e),
    h.opt hs (f := "base") fun e => flat_str.congr (pl rfl e),
    h.opt hs (f := "properties") (de := deMap (deProperty C env)) (at' (.map .property) rfl),
    h.opt hs (f := "actions") (de := deMap (deAction C env)) (at' (.map .action) rfl),
    h.opt hs (f := "events") (de := deMap (deEvent C env)) (at' (.map .event) rfl),
    h.opt hs (f := "links") (de := deVec (deLink env)) (at' (.list .link) rfl),
    h.opt hs (f := "forms") (de := deVec (deForm C)) (at' (.list .form) rfl),
    h.req (f := "security") fun e => flat_str.many (pl rfl e),
    h.req (f := "securityDefinitions") (de := deMap (deSecurity env)) (at' (.map .security) rfl),
    h.opt hs (f := "uriVariables") (de := deMap (deDS C env)) (at' (.map .schema) rfl),
    h.opt hs (f := "profile") fun e => flat_str.many (pl rfl e),
    h.opt hs (f := "schemaDefinitions") (de := deMap (deDS C env)) (at' (.map .schema) rfl),
    h.ext law.loc.thing law.ord.thing _ fun _ => hm.ext law.sep.thing fun _ => ofThing_value]

theorem read_member (law : Lawful C) {p q : Part} (hq : p.member k = some q) (h : Replaced k v v' es es')
    (hm : Same C env q v v') : p.read C env (.obj es) = p.read C env (.obj es') := by
  have hs := hm.solid
  cases p <;> simp only [Part.member, reduceCtorEq, Option.some.injEq] at hq
  case thing => subst hq; exact read_member_thing law h hm
  case version =>
    subst hq
    have hr := hm.plain rfl
    show deVersion _ = deVersion _
    simp only [deVersion, h.req (f := "instance") (fun _ => flat_str.congr hr),
      h.opt hs (f := "model") fun _ => flat_str.congr hr]
  case property => subst hq; exact read_member_property law h hm
  case action => subst hq; exact read_member_action law h hm
  case event => subst hq; exact read_member_event law h hm
  case form => subst hq; exact read_member_form law h hm
  case response =>
    subst hq
    have hr := hm.plain rfl
    show deResponse _ _ = deResponse _ _
    simp only [deResponse, h.req (f := "contentType") fun _ => flat_str.congr hr,
      h.ext law.loc.response law.ord.response _ fun _ => .inr hr]
  case additional =>
    subst hq
    have hr := hm.plain rfl
    show deAdditional _ = deAdditional _
    simp only [deAdditional, h.dflt (f := "success") (d := false) fun _ => flat_bool.congr hr,
      h.opt hs (f := "contentType") fun _ => flat_str.congr hr, h.opt hs (f := "schema") fun _ => flat_str.congr hr]
  case link =>
    subst hq
    have hr := hm.plain rfl
    show deLink _ _ = deLink _ _
    simp only [deLink, h.req (f := "href") fun _ => flat_str.congr hr,
      h.opt hs (f := "type") fun _ => flat_str.congr hr, h.opt hs (f := "rel") fun _ => flat_str.congr hr,
      h.opt hs (f := "anchor") fun _ => flat_str.congr hr, h.opt hs (f := "sizes") fun _ => flat_str.congr hr,
      h.opt hs (f := "hreflang") fun _ => (flat_tagText env).many hr]
  case security =>
    have pl : k ≠ "descriptions" → Reordered v v' := fun hk => hm.plain (by rw [← hq, if_neg hk])
    have e1 : deSubtype (rest securityKeys es) = deSubtype (rest securityKeys es') := by
      rcases h.rest_cases securityKeys with e | ⟨hk, h⟩
      · rw [e]
      · exact h.schemeSubtype (pl fun e => hk (by subst e; decide))
    show deSecurity _ _ = deSecurity _ _
    simp only [deSecurity, deStrings, e1,
      h.opt hs (f := "@type") fun e => flat_str.many (pl (by subst e; decide)),
      h.opt hs (f := "description") fun e => flat_str.congr (pl (by subst e; decide)),
      h.opt hs (f := "descriptions") (de := deLang env) fun e => hm.at (q := .translations) (by rw [← hq, if_pos e]),
      h.opt hs (f := "proxy") fun e => flat_str.congr (pl (by subst e; decide))]
  case schema => subst hq; exact read_member_schema law h hm
  case translations =>
    subst hq
    have hr := hm.plain rfl
    obtain ⟨a, b, rfl, rfl⟩ := h
    show deLang _ _ = deLang _ _
    simp only [deLang]
    rw [mapOpt_replace (x := (k, v)) (x' := (k, v'))]
    simp only [(flat_str.none hr).1, (flat_str.none hr).2]
  case value =>
    subst hq
    obtain ⟨a, b, rfl, rfl⟩ := h
    exact congrArg some (norm_replace a b (hm.plain rfl).norm)
  case list => rfl
  case map p =>
    subst hq
    obtain ⟨a, b, rfl, rfl⟩ := h
    show deMap _ _ = deMap _ _
    simp only [deMap, mapOptVals]
    rw [mapOpt_replace (x := (k, v)) (x' := (k, v'))]
    simp only [hm.read]

/-! ### Elements -/

theorem read_element {p : Part} (hm : Same C env p.element v v') (a b : List Json) :
    p.read C env (.arr (a ++ v :: b)) = p.read C env (.arr (a ++ v' :: b)) := by
  cases p
  case thing => rfl
  case property => rfl
  case action => rfl
  case event => rfl
  case form => rfl
  case response => rfl
  case security => rfl
  case schema =>
    show deDS _ _ _ = deDS _ _ _
    simp only [deDS, deSchema_other (j := .arr (a ++ v :: b)) nofun, deSchema_other (j := .arr (a ++ v' :: b)) nofun]
  case translations => rfl
  case map => rfl
  case version =>
    have hr := hm.plain rfl
    have e1 := flat_str.congr hr
    have e2 := option_congr hr.solid e1
    show deVersion _ = deVersion _
    match a, b with
    | [], [] => rfl
    | [], [_] => simp [deVersion, e1]
    | [], _ :: _ :: _ => rfl
    | [_], [] => simp [deVersion, e2]
    | [_], _ :: _ => rfl
    | _ :: _ :: a, b => cases a <;> rfl
  case additional =>
    have hr := hm.plain rfl
    have e1 := option_congr hr.solid (flat_str.congr hr)
    show deAdditional _ = deAdditional _
    match a, b with
    | [], [] => rfl
    | [], [_] => rfl
    | [], [_, _] => simp [deAdditional, flat_bool.congr hr]
    | [], _ :: _ :: _ :: _ => rfl
    | [_], [] => rfl
    | [_], [_] => simp [deAdditional, e1]
    | [_], _ :: _ :: _ => rfl
    | [_, _], [] => simp [deAdditional, e1]
    | [_, _], _ :: _ => rfl
    | _ :: _ :: _ :: a, b => cases a <;> rfl
  case link =>
    have hr := hm.plain rfl
    have e0 := flat_str.congr hr
    have e1 := option_congr hr.solid e0
    have e2 := option_congr hr.solid ((flat_tagText env).many hr)
    show deLink _ _ = deLink _ _
    match a with
    | [] =>
      match b with
      | [] => rfl
      | [_] => rfl
      | [_, _] => rfl
      | [_, _, _] => rfl
      | _ :: _ :: _ :: _ :: _ => simp [deLink, e0]
    | [_] =>
      match b with
      | [] => rfl
      | [_] => rfl
      | [_, _] => rfl
      | _ :: _ :: _ :: _ => simp [deLink, e1]
    | [_, _] =>
      match b with
      | [] => rfl
      | [_] => rfl
      | _ :: _ :: _ => simp [deLink, e1]
    | [_, _, _] =>
      match b with
      | [] => rfl
      | _ :: _ => simp [deLink, e1]
    | [_, _, _, _] => simp [deLink, e1]
    | [_, _, _, _, _] =>
      match b with
      | [] => simp [deLink, e2]
      | _ :: _ => simp [deLink]
    | _ :: _ :: _ :: _ :: _ :: _ :: a => cases a <;> simp [deLink]
  case items =>
    show deItems _ _ = deItems _ _
    simp only [deItems, deDS, deSchema_other (j := .arr (a ++ v :: b)) nofun,
      deSchema_other (j := .arr (a ++ v' :: b)) nofun, deVec]
    exact congrArg (Option.map ElemOrVec.vec) (mapOpt_replace hm.read a b)
  case value =>
    show deValue _ = deValue _
    simp only [deValue, Json.norm, normList_eq, List.map_append, List.map_cons, (hm.plain rfl).norm]
  case list p => exact mapOpt_replace hm.read a b
  case additionals =>
    have e0 : deAdditional (.arr (a ++ v :: b)) = deAdditional (.arr (a ++ v' :: b)) := by
      have e1 : deOption deStr v = deOption deStr v' :=
        option_congr hm.solid (by rw [hm.solid.1.str, hm.solid.2.str])
      have e2 : deBool v = deBool v' := by rw [hm.solid.1.bool, hm.solid.2.bool]
      match a, b with
      | [], [] => rfl
      | [], [_] => rfl
      | [], [_, _] => simp [deAdditional, e2]
      | [], _ :: _ :: _ :: _ => rfl
      | [_], [] => rfl
      | [_], [_] => simp [deAdditional, e1]
      | [_], _ :: _ :: _ => rfl
      | [_, _], [] => simp [deAdditional, e1]
      | [_, _], _ :: _ => rfl
      | _ :: _ :: _ :: a, b => cases a <;> rfl
    have e1 : mapOpt deAdditional (a ++ v :: b) = mapOpt deAdditional (a ++ v' :: b) := mapOpt_replace hm.read a b
    show deOneOrMany _ _ = deOneOrMany _ _
    simp only [deOneOrMany, e0, deVec, e1]

/-! ### All edits -/

theorem Edit.same (law : Lawful C) {p : Part} (h : Edit env C p v v') : Same C env p v v' := by
  refine ⟨h.solid, ?_, h.reordered⟩
  induction h with
  | unknown hp hk => exact read_insert law.loc hp hk _ _ _
  | swap hk hs => exact read_swap law.loc hk hs _ _ _ _
  | member hq h ih => exact read_member law hq ⟨_, _, rfl, rfl⟩ ⟨h.solid, ih, h.reordered⟩
  | element h ih => exact read_element ⟨h.solid, ih, h.reordered⟩ _ _
  | @response m m' h ih =>
    have e : deAdditional (.obj m) = deAdditional (.obj m') := ih
    show deOneOrMany _ _ = deOneOrMany _ _
    simp only [deOneOrMany, e, deVec]
  | @item m m' h ih =>
    have e : deDS C env (.obj m) = deDS C env (.obj m') := ih
    show deItems _ _ = deItems _ _
    simp only [deItems, e, deVec]

theorem Edited.read (law : Lawful C) {p : Part} (h : Edited env C p v v') : p.read C env v = p.read C env v' := by
  induction h with
  | refl => rfl
  | edit _ h ih => exact ih.trans (h.same law).read
  | undo _ h ih => exact ih.trans (h.same law).read.symm

end Wot
