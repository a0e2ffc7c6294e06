import Verif.Lemmas.EditParts
import Verif.Lemmas.Defaults
/-
A default that is spelled out is read like one that is left out.
-/
namespace Wot

variable {X : ExtTypes} {C : ExtCodecs X} {env : SerdeEnv} {es es' : Members} {k : String} {v : Json} {α : Type}

theorem Inserted.sameOn {K : List String} (h : Inserted k v es es') (hk : k ∉ K) : SameOn K es es' := by
  obtain ⟨a, b, rfl, rfl⟩ := h
  exact sameOn_insert hk a b v

theorem Inserted.ext {A : Type} {c : ExtCodec A} (h : Inserted k v es es') (l : c.Local) (hk : k ∉ c.keys)
    (K : List String) : c.de (Wot.rest K es) = c.de (Wot.rest K es') := (h.sameOn hk).ext l K

/-- One of the defaults is spelled out. -/
structure Filled (T : Members) (k : String) (v : Json) (es es' : Members) : Prop where
  inserted : Inserted k v es es'
  absent : Absent k es
  mem : (k, v) ∈ T

/-- Is this `null`? -/
def Json.isNull : Json → Bool
  | .null => true
  | _ => false

/-- Is this `false`? -/
def Json.isFalse : Json → Bool
  | .bool false => true
  | _ => false

variable {T : Members}

theorem Filled.name (h : Filled T k v es es') : k ∈ T.map (·.1) := List.mem_map.2 ⟨_, h.mem, rfl⟩

theorem Filled.dflt (h : Filled T k v es es') (f : String) (d : α) (de : Json → Option α)
    (hT : ∀ e ∈ T, e.1 = f → de e.2 = some d) : defaulted f d de es = defaulted f d de es' := by
  by_cases e : f = k
  · subst e
    exact h.inserted.defaulted h.absent d (hT _ h.mem rfl)
  · exact h.inserted.defaulted_ne f d de e

theorem Filled.opt (h : Filled T k v es es') (f : String) (de : Json → Option α)
    (hT : ∀ e ∈ T, e.1 = f → e.2.isNull = true) : optional f de es = optional f de es' :=
  h.dflt f none _ fun e he hf => by
    have := hT e he hf
    revert this
    cases e.2 <;> simp [Json.isNull, deOption]

theorem Filled.flag (h : Filled T k v es es') (f : String) (hT : ∀ e ∈ T, e.1 = f → e.2.isFalse = true) :
    defaulted f false deBool es = defaulted f false deBool es' :=
  h.dflt f false _ fun e he hf => by
    have := hT e he hf
    revert this
    cases e.2 with
    | bool b => cases b <;> simp [Json.isFalse, deBool]
    | _ => simp [Json.isFalse]

theorem Filled.req (h : Filled T k v es es') (f : String) (de : Json → Option α) (hT : f ∉ T.map (·.1)) :
    required f de es = required f de es' :=
  h.inserted.required_ne f de fun e => hT (e ▸ h.name)

theorem Filled.rest_eq (h : Filled T k v es es') (K : List String) (hT : ∀ f ∈ T.map (·.1), f ∈ K) :
    rest K es = rest K es' := h.inserted.rest_eq (hT _ h.name)

theorem Filled.sameOn (h : Filled T k v es es') {K : List String} (hT : ∀ f ∈ T.map (·.1), f ∉ K) :
    SameOn K es es' := h.inserted.sameOn (hT _ h.name)

/-- After removing members, the default is still spelled out or was removed. -/
theorem Filled.rest (h : Filled T k v es es') (K : List String) :
    Wot.rest K es = Wot.rest K es' ∨ Filled T k v (Wot.rest K es) (Wot.rest K es') := by
  by_cases hk : k ∈ K
  · exact .inl (h.inserted.rest_eq hk)
  · exact .inr ⟨h.inserted.rest hk, h.absent.rest K, h.mem⟩

theorem Filled.mono {T' : Members} (h : Filled T k v es es') (hT : (k, v) ∈ T') : Filled T' k v es es' :=
  ⟨h.inserted, h.absent, hT⟩

theorem Filled.thing (h : Filled Defaults.thing k v es es') : deThing C env (.obj es) = deThing C env (.obj es') := by
  have e0 := h.dflt "@context" (.str tdContext11) deValue (by
    intro e he hf
    have : (e.1, e.2) ∈ Defaults.thing := he
    rw [hf] at this
    simp only [Defaults.thing, Defaults.nulls, List.mem_cons, List.map_cons, List.map_nil, Prod.mk.injEq,
      String.reduceEq, false_and, or_false, true_and, List.not_mem_nil] at this
    rw [this]
    rfl)
  have hr := h.rest_eq thingKeys (by decide)
  simp (disch := decide) only [deThing, e0, h.opt, h.req, hr]

theorem Filled.form (h : Filled Defaults.form k v es es') : deForm C (.obj es) = deForm C (.obj es') := by
  have e0 := h.dflt "op" .default deOps (by
    intro e he hf
    have : e.2.isNull = true := (show ∀ e ∈ Defaults.form, e.2.isNull = true by decide) e he
    revert this
    cases e.2 <;> simp [Json.isNull, deOps, deOption])
  have hr := h.rest_eq formKeys (by decide)
  simp (disch := decide) only [deForm, e0, h.opt, h.req, hr]

theorem Filled.additional (h : Filled Defaults.additional k v es es') :
    deAdditional (.obj es) = deAdditional (.obj es') := by
  simp (disch := decide) only [deAdditional, h.opt, h.flag]

theorem Filled.version (h : Filled Defaults.version k v es es') : deVersion (.obj es) = deVersion (.obj es') := by
  simp (disch := decide) only [deVersion, h.opt, h.req]

theorem Filled.link (h : Filled Defaults.link k v es es') : deLink env (.obj es) = deLink env (.obj es') := by
  simp (disch := decide) only [deLink, h.opt, h.req]

/-! ### Data schemas -/

section Schema
variable {DSx AS OS S : Type} {c : ExtCodec DSx} {CA : ExtCodec AS} {CO : ExtCodec OS}

theorem Filled.first (h : Filled T k v es es') (K : List String) (hK : ∀ f ∈ T.map (·.1), f ∉ K) :
    first K es = first K es' := by
  obtain ⟨a, b, rfl, rfl⟩ := h.inserted
  exact first_insert (hK _ h.name) a b v

theorem Filled.type (h : Filled T k v es es') (hT : ∀ e ∈ T, e.1 = "type" → e.2.isNull = true) :
    required "type" (deTag schemaTable) es = required "type" (deTag schemaTable) es' := by
  by_cases e : "type" = k
  · subst e
    have hv := hT _ h.mem rfl
    simp only [required, h.inserted.occ_self h.absent, occ_eq_nil.2 h.absent]
    cases v <;> simp [Json.isNull] at hv
    rfl
  · exact h.inserted.required_ne _ _ e

theorem Filled.subtype (h : Filled T k v es es') (hs : ∀ e ∈ T, e.1 ∈ Names.schemaType → e.2.isNull = true)
    (hb : ∀ f ∈ T.map (·.1), f ∉ boundNames) (la : CA.Local) (lo : CO.Local)
    (xa : k ∉ CA.keys) (xo : k ∉ CO.keys) (sub : Json → Option S) :
    deSchemaSubtype CA CO sub es = deSchemaSubtype CA CO sub es' := by
  have e0 := h.type fun e he hf => hs e he (by rw [hf]; decide)
  rcases h.rest ["type"] with e | h
  · simp only [deSchemaSubtype, e0, e]
  · have ho : ∀ f ∈ Names.schemaType, ∀ {β : Type} (de : Json → Option β),
        optional f de (Wot.rest ["type"] es) = optional f de (Wot.rest ["type"] es') :=
      fun f hf β de => h.opt f de fun e he hf' => hs e he (hf' ▸ hf)
    have e1 : deArray CA sub (Wot.rest ["type"] es) = deArray CA sub (Wot.rest ["type"] es') := by
      simp (disch := decide) only [deArray, ho, h.inserted.ext la xa]
    have e2 : deObject CO sub (Wot.rest ["type"] es) = deObject CO sub (Wot.rest ["type"] es') := by
      simp (disch := decide) only [deObject, ho, h.inserted.ext lo xo]
    have e3 : deString (Wot.rest ["type"] es) = deString (Wot.rest ["type"] es') := by
      simp (disch := decide) only [deString, ho]
    have hm : ∀ {β : Type} (de : Json → Option β),
        deMaximum de (Wot.rest ["multipleOf"] (Wot.rest ["type"] es)) =
          deMaximum de (Wot.rest ["multipleOf"] (Wot.rest ["type"] es')) ∧
        deMinimum de (Wot.rest ["multipleOf"] (Wot.rest ["type"] es)) =
          deMinimum de (Wot.rest ["multipleOf"] (Wot.rest ["type"] es')) := by
      intro β de
      rcases h.rest ["multipleOf"] with e | h
      · rw [e]
        exact ⟨rfl, rfl⟩
      · exact ⟨maximum_congr de (h.first _ fun f hf hm => hb f hf ((show ∀ f ∈ ["maximum", "exclusiveMaximum"], f ∈ boundNames by decide) f hm)),
          minimum_congr de (h.first _ fun f hf hm => hb f hf ((show ∀ f ∈ ["minimum", "exclusiveMinimum"], f ∈ boundNames by decide) f hm))⟩
    have e4 : deNumber (Wot.rest ["type"] es) = deNumber (Wot.rest ["type"] es') := by
      simp (disch := decide) only [deNumber, ho, (hm deF64).1, (hm deF64).2]
    have e5 : deInteger (Wot.rest ["type"] es) = deInteger (Wot.rest ["type"] es') := by
      simp (disch := decide) only [deInteger, ho, (hm deI64).1, (hm deI64).2]
    simp only [deSchemaSubtype, e0, e1, e2, e3, e4, e5]

/-- What is needed of a table of defaults for data schemas. -/
structure SchemaDefaults (T : Members) : Prop where
  nulls : ∀ e ∈ T, e.1 ∈ Names.schema → e.1 ∉ ["readOnly", "writeOnly"] → e.2.isNull = true
  flags : ∀ e ∈ T, e.1 ∈ ["readOnly", "writeOnly"] → e.2.isFalse = true
  bounds : ∀ f ∈ T.map (·.1), f ∉ boundNames

theorem Filled.schemaMembers (h : Filled T k v es es') (hT : SchemaDefaults T) (l : c.Local) (la : CA.Local)
    (lo : CO.Local) (x : k ∉ c.keys) (xa : k ∉ CA.keys) (xo : k ∉ CO.keys)
    (sub : Json → Option (DataSchema DSx AS OS)) :
    deSchemaMembers c CA CO env sub es = deSchemaMembers c CA CO env sub es' := by
  have e1 : deSchemaSubtype CA CO sub (Wot.rest schemaKeys es) =
      deSchemaSubtype CA CO sub (Wot.rest schemaKeys es') := by
    rcases h.rest schemaKeys with e | h
    · rw [e]
    · refine h.subtype (fun e he hs => hT.nulls e he ?_ ?_) hT.bounds la lo xa xo sub
      · exact (show ∀ f ∈ Names.schemaType, f ∈ Names.schema by decide) _ hs
      · exact (show ∀ f ∈ Names.schemaType, f ∉ ["readOnly", "writeOnly"] by decide) _ hs
  have ho : ∀ f ∈ Names.schema.filter (· ∉ ["readOnly", "writeOnly"]), ∀ {β : Type} (de : Json → Option β),
      optional f de es = optional f de es' :=
    fun f hf β de => h.opt f de fun e he hf' => by
      subst hf'
      have := List.mem_filter.1 hf
      exact hT.nulls e he this.1 (by simpa using this.2)
  have hf : ∀ f ∈ ["readOnly", "writeOnly"], defaulted f false deBool es = defaulted f false deBool es' :=
    fun f hf => h.flag f fun e he hf' => hT.flags e he (hf' ▸ hf)
  simp (disch := decide) only [deSchemaMembers, ho, hf, h.inserted.ext l x, e1]

end Schema

theorem schemaDefaults_schema : SchemaDefaults Defaults.schema := ⟨by decide, by decide, by decide⟩

theorem schemaDefaults_property : SchemaDefaults Defaults.property := ⟨by decide, by decide, by decide⟩

theorem apart_of {a b : List String} (h : Apart a b) (hk : k ∈ b) : k ∉ a := fun hm => h k hm hk

theorem Filled.schema (loc : C.Local) (sep : C.Separate) (h : Filled Defaults.schema k v es es') :
    deDS C env (.obj es) = deDS C env (.obj es') := by
  have hk : k ∈ Names.schema := (show ∀ f ∈ Defaults.schema.map (·.1), f ∈ Names.schema by decide) k h.name
  rw [deDS, deSchema_obj, deSchema_obj]
  exact h.schemaMembers schemaDefaults_schema loc.dataSchema loc.arraySchema loc.objectSchema
    (apart_of sep.schemas.schema hk) (apart_of sep.schemas.array (List.mem_append_left _ hk))
    (apart_of sep.schemas.object (List.mem_append_left _ hk)) _

theorem Filled.interaction (loc : C.Local) (h : Filled T k v es es')
    (hn : ∀ e ∈ T, e.1 ∈ Names.interaction → e.1 ≠ "forms" ∧ e.2.isNull = true) (hk : k ∉ C.interaction.keys) :
    deInteraction C env es = deInteraction C env es' := by
  have ho : ∀ f ∈ Names.interaction, ∀ {β : Type} (de : Json → Option β), optional f de es = optional f de es' :=
    fun f hf β de => h.opt f de fun e he hf' => (hn e he (hf' ▸ hf)).2
  have hr : ∀ {β : Type} (de : Json → Option β), required "forms" de es = required "forms" de es' :=
    fun de => h.req _ de fun hm => by
      obtain ⟨e, he, hf⟩ := List.mem_map.1 hm
      exact (hn e he (by rw [hf]; decide)).1 hf
  simp (disch := decide) only [deInteraction, ho, hr, h.inserted.ext loc.interaction hk]

theorem Filled.property (loc : C.Local) (sep : C.Separate) (h : Filled Defaults.property k v es es') :
    deProperty C env (.obj es) = deProperty C env (.obj es') := by
  have hk : k ∈ "observable" :: Names.interaction ++ Names.schema :=
    (show ∀ f ∈ Defaults.property.map (·.1), f ∈ "observable" :: Names.interaction ++ Names.schema by decide) k h.name
  have e0 := fun {β : Type} (de : Json → Option β) => h.opt "observable" de (by decide)
  have xi : k ∉ C.interaction.keys := by
    simp only [List.cons_append, List.mem_cons, List.mem_append] at hk
    rcases hk with rfl | hk | hk
    · exact apart_of sep.interactionProperty (by simp)
    · exact apart_of sep.interaction hk
    · exact apart_of sep.interactionProperty (by simp [hk])
  have xp : k ∉ C.property.keys := apart_of sep.property (by
    simp only [List.cons_append, List.mem_cons, List.mem_append] at hk ⊢
    rcases hk with rfl | hk | hk <;> simp [*])
  have xd : k ∉ C.dataSchema.keys := by
    simp only [List.cons_append, List.mem_cons, List.mem_append] at hk
    rcases hk with rfl | hk | hk
    · exact apart_of sep.dataSchemaProperty (by simp)
    · exact apart_of sep.dataSchemaProperty (by simp [hk])
    · exact apart_of sep.schemas.schema hk
  have xa : k ∉ C.arraySchema.keys := by
    simp only [List.cons_append, List.mem_cons, List.mem_append] at hk
    rcases hk with rfl | hk | hk
    · exact apart_of sep.arraySchemaProperty (by simp)
    · exact apart_of sep.arraySchemaProperty (by simp [hk])
    · exact apart_of sep.schemas.array (by simp [hk])
  have xo : k ∉ C.objectSchema.keys := by
    simp only [List.cons_append, List.mem_cons, List.mem_append] at hk
    rcases hk with rfl | hk | hk
    · exact apart_of sep.objectSchemaProperty (by simp)
    · exact apart_of sep.objectSchemaProperty (by simp [hk])
    · exact apart_of sep.schemas.object (by simp [hk])
  rcases h.rest ["observable"] with e | h
  · simp only [deProperty, e0, e]
  · have e1 := h.interaction (env := env) loc (by decide) xi
    have e2 := h.schemaMembers (env := env) schemaDefaults_property loc.dataSchema loc.arraySchema loc.objectSchema
      xd xa xo (deDS C env)
    have e3 : C.property.de (Wot.rest ["observable"] es) = C.property.de (Wot.rest ["observable"] es') :=
      loc.property _ _ (h.inserted.sameOn xp)
    simp only [deProperty, e0, e1, e2, e3]

theorem Filled.action (loc : C.Local) (sep : C.Separate) (h : Filled Defaults.action k v es es') :
    deAction C env (.obj es) = deAction C env (.obj es') := by
  have hk : k ∈ Names.interaction ++ Names.action :=
    (show ∀ f ∈ Defaults.action.map (·.1), f ∈ Names.interaction ++ Names.action by decide) k h.name
  have xi : k ∉ C.interaction.keys := by
    rcases List.mem_append.1 hk with hk | hk
    · exact apart_of sep.interaction hk
    · exact apart_of sep.interactionAction hk
  have xp : k ∉ C.action.keys := apart_of sep.action (by
    simp only [List.mem_append] at hk ⊢
    rcases hk with hk | hk <;> simp [hk])
  have e0 := fun f hf {β : Type} (de : Json → Option β) =>
    h.opt f de ((show ∀ f ∈ ["input", "output", "synchronous"], ∀ e ∈ Defaults.action, e.1 = f → e.2.isNull = true by
      decide) f hf)
  have e0' := fun f hf =>
    h.flag f ((show ∀ f ∈ ["safe", "idempotent"], ∀ e ∈ Defaults.action, e.1 = f → e.2.isFalse = true by decide) f hf)
  rcases h.rest actionKeys with e | h
  · simp (disch := decide) only [deAction, e0, e0', e]
  · have e1 := h.interaction (env := env) loc (by decide) xi
    have e3 : C.action.de (Wot.rest actionKeys es) = C.action.de (Wot.rest actionKeys es') :=
      loc.action _ _ (h.inserted.sameOn xp)
    simp (disch := decide) only [deAction, e0, e0', e1, e3]

theorem Filled.event (loc : C.Local) (sep : C.Separate) (h : Filled Defaults.event k v es es') :
    deEvent C env (.obj es) = deEvent C env (.obj es') := by
  have hk : k ∈ Names.interaction ++ Names.event :=
    (show ∀ f ∈ Defaults.event.map (·.1), f ∈ Names.interaction ++ Names.event by decide) k h.name
  have xi : k ∉ C.interaction.keys := by
    rcases List.mem_append.1 hk with hk | hk
    · exact apart_of sep.interaction hk
    · exact apart_of sep.interactionEvent hk
  have xp : k ∉ C.event.keys := apart_of sep.event (by
    simp only [List.mem_append] at hk ⊢
    rcases hk with hk | hk <;> simp [hk])
  have e0 := fun f {β : Type} (de : Json → Option β) =>
    h.opt f de fun e he _ => (show ∀ e ∈ Defaults.event, e.2.isNull = true by decide) e he
  rcases h.rest eventKeys with e | h
  · simp only [deEvent, e0, e]
  · have e1 := h.interaction (env := env) loc (by decide) xi
    have e3 : C.event.de (Wot.rest eventKeys es) = C.event.de (Wot.rest eventKeys es') :=
      loc.event _ _ (h.inserted.sameOn xp)
    simp only [deEvent, e0, e1, e3]

/-! ### Security definitions -/

theorem Filled.security (h : Filled Defaults.security k v es es') :
    deSecurity env (.obj es) = deSecurity env (.obj es') := by
  have hr := h.rest_eq securityKeys (by decide)
  simp (disch := decide) only [deSecurity, h.opt, hr]

theorem known_of_subtype {n : KnownScheme} (h : deSubtype es = some (.known n)) : deKnown es = some n := by
  unfold deSubtype at h
  cases hk : deKnown es with
  | none =>
    rw [hk] at h
    simp only [deUnknown, bind, pure] at h
    obtain ⟨_, _, h⟩ := Option.bind_eq_some_iff.1 h
    cases h
  | some k =>
    rw [hk] at h
    cases h
    rfl

theorem Filled.scheme {d : SecurityScheme} {n : KnownScheme} (h : Filled (Defaults.scheme n) k v es es')
    (hd : deSecurity env (.obj es) = some d) (hs : d.subtype = .known n) : deSecurity env (.obj es') = some d := by
  have key : ∀ f ∈ (Defaults.scheme n).map (·.1), f ∉ securityKeys ∧ f ∉ ["scheme"] := by
    cases n <;> simp only [Defaults.scheme] <;> decide
  obtain ⟨h1, h2⟩ := key k h.name
  have h' : Filled (Defaults.scheme n) k v (Wot.rest securityKeys es) (Wot.rest securityKeys es') :=
    ⟨h.inserted.rest h1, h.absent.rest _, h.mem⟩
  have h'' : Filled (Defaults.scheme n) k v (Wot.rest ["scheme"] (Wot.rest securityKeys es))
      (Wot.rest ["scheme"] (Wot.rest securityKeys es')) :=
    ⟨h'.inserted.rest h2, h'.absent.rest _, h'.mem⟩
  have hb := deSecurity_iff.1 hd
  have hn := known_of_subtype (hs ▸ hb.subtype)
  have hn' : deKnown (Wot.rest securityKeys es') = some n := by
    rw [deKnown_eq] at hn ⊢
    have e0 := h'.inserted.required_ne "scheme" (deTag schemeTable) (fun e => h2 (by simp [e]))
    rw [← e0]
    obtain ⟨tag, ht, hr⟩ := Option.bind_eq_some_iff.1 hn
    rw [ht, Option.bind_some, ← hr]
    generalize Wot.rest ["scheme"] (Wot.rest securityKeys es) = fs at *
    generalize Wot.rest ["scheme"] (Wot.rest securityKeys es') = fs' at *
    clear hn hd hb h h' ht e0
    cases n <;> cases tag <;> simp only [readTag, pure, Option.map_eq_some_iff, Option.some.injEq, reduceCtorEq,
      and_false, exists_false] at hr <;> simp only [readTag] <;> simp only [Defaults.scheme] at h''
    · exact (List.not_mem_nil h''.mem).elim
    all_goals first
      | simp (disch := decide) only [deBasic, h''.opt, h''.dflt]
      | simp (disch := decide) only [deDigest, h''.opt, h''.dflt, h''.req]
      | simp (disch := decide) only [deApiKey, h''.opt, h''.dflt]
      | simp (disch := decide) only [deBearer, h''.opt, h''.dflt]
      | simp (disch := decide) only [dePsk, h''.opt]
      | simp (disch := decide) only [deOAuth2, h''.opt, h''.req]
  have hs' : deSubtype (Wot.rest securityKeys es') = deSubtype (Wot.rest securityKeys es) := by
    simp only [deSubtype, hn, hn']
  have ho : ∀ f ∈ securityKeys, ∀ {β : Type} (de : Json → Option β), optional f de es = optional f de es' :=
    fun f hf β de => h.inserted.defaulted_ne f none _ fun e => h1 (e ▸ hf)
  rw [← hd]
  simp (disch := decide) only [deSecurity, hs', ho]

end Wot
