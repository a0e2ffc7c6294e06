import Verif.Lemmas.CodecThing
/-
When writing succeeds.
-/
namespace Wot

/-- The optional value is present. -/
abbrev Can {α : Type} (o : Option α) : Prop := ∃ a, o = some a

theorem can_map {α β : Type} {f : α → β} {o : Option α} : Can (o.map f) ↔ Can o := by
  cases o <;> simp [Can]

theorem can_bind {α β : Type} {f : α → Option β} {o : Option α} {P : Prop} (hf : ∀ a, o = some a → (Can (f a) ↔ P)) :
    Can (o.bind f) ↔ Can o ∧ P := by
  cases o with
  | none => simp [Can]
  | some a => simpa [Can] using hf a rfl

theorem can_pure {α : Type} {a : α} : Can (pure a : Option α) ↔ True := by simp [Can, pure]

theorem can_mapOpt {α β : Type} {f : α → Option β} {l : List α} :
    Can (mapOpt f l) ↔ ∀ a ∈ l, Can (f a) := by
  induction l with
  | nil => simp [mapOpt, Can]
  | cons a l ih =>
    rw [List.forall_mem_cons, ← ih]
    rw [mapOpt]
    cases h : f a with
    | none => simp [Can]
    | some b => cases h' : mapOpt f l <;> simp [Can]

theorem can_optOpt {α β : Type} {f : α → Option β} {o : Option α} :
    Can (optOpt f o) ↔ ∀ a, o = some a → Can (f a) := by
  cases o with
  | none => simp [optOpt, Can]
  | some a => simpa [optOpt] using can_map

theorem can_serMap {α : Type} {env : Env} {f : α → Option Json} {m : HMap α} :
    Can (serMap env f m) ↔ ∀ kv ∈ m, Can (f kv.2) := by
  unfold serMap mapOptVals
  rw [can_map, can_mapOpt]
  constructor
  · intro h kv hkv
    exact can_map.1 (h kv ((env.iter_perm m).mem_iff.2 hkv))
  · intro h kv hkv
    exact can_map.2 (h kv ((env.iter_perm m).mem_iff.1 hkv))

/-! ### Schemas -/

section
variable {DSx AS OS : Type} {C : ExtCodec DSx} {CA : ExtCodec AS} {CO : ExtCodec OS} {env : Env}

/-- The extensions of one schema can be written. -/
def NodeWritable (C : ExtCodec DSx) (CA : ExtCodec AS) (CO : ExtCodec OS)
    (x : DataSchema DSx AS OS) : Prop :=
  Can (C.ser x.head.other) ∧ (∀ a, x.subtype = some (.array a) → Can (CA.ser a.other)) ∧
    (∀ o, x.subtype = some (.object o) → Can (CO.ser o.other))

theorem can_serSchemaMembers {s : DataSchema DSx AS OS} :
    Can (serSchemaMembers C CA CO env s) ↔ NodeWritable C CA CO s ∧
      (∀ l, s.oneOf = some l → ∀ c ∈ l, Can (serSchema C CA CO env c)) ∧
      (∀ st, s.subtype = some st → ∀ c ∈ st.children, Can (serSchema C CA CO env c)) := by
  have e : Can (serSchemaMembers C CA CO env s) ↔
      Can (optOpt (fun l => (mapOpt id l).map Json.arr) (s.oneOf.map (List.map (serSchema C CA CO env)))) ∧
      Can (optOpt (serSchemaSubtype CA CO env) (s.subtype.map (SubtypeF.map (serSchema C CA CO env)))) ∧
      Can (C.ser s.head.other) ∧ True := by
    unfold serSchemaMembers serSchemaStep
    exact can_bind fun _ _ => can_bind fun _ _ => can_bind fun _ _ => can_pure
  have e1 : Can (optOpt (fun l => (mapOpt id l).map Json.arr) (s.oneOf.map (List.map (serSchema C CA CO env)))) ↔
      ∀ l, s.oneOf = some l → ∀ c ∈ l, Can (serSchema C CA CO env c) := by
    rw [can_optOpt]
    constructor
    · intro h l hl c hc
      have := can_mapOpt.1 (can_map.1 (h _ (by rw [hl]; rfl))) _ (List.mem_map_of_mem hc)
      exact this
    · intro h l hl
      obtain ⟨l', hl', rfl⟩ := Option.map_eq_some_iff.1 hl
      refine can_map.2 (can_mapOpt.2 fun a ha => ?_)
      obtain ⟨c, hc, rfl⟩ := List.mem_map.1 ha
      exact h l' hl' c hc
  have e2 : Can (optOpt (serSchemaSubtype CA CO env) (s.subtype.map (SubtypeF.map (serSchema C CA CO env)))) ↔
      (∀ a, s.subtype = some (.array a) → Can (CA.ser a.other)) ∧
      (∀ o, s.subtype = some (.object o) → Can (CO.ser o.other)) ∧
      (∀ st, s.subtype = some st → ∀ c ∈ st.children, Can (serSchema C CA CO env c)) := by
    rw [can_optOpt]
    cases hs : s.subtype with
    | none => simp
    | some st =>
      simp only [Option.map_some, Option.some.injEq, forall_eq']
      cases st with
      | array a =>
        have e : Can (serArray CA { a with items := a.items.map (ElemOrVec.map (serSchema C CA CO env)) }) ↔
            Can (optOpt serItems (a.items.map (ElemOrVec.map (serSchema C CA CO env)))) ∧
            Can (CA.ser a.other) ∧ True := by
          unfold serArray
          exact can_bind fun _ _ => can_bind fun _ _ => can_pure
        have e' : Can (optOpt serItems (a.items.map (ElemOrVec.map (serSchema C CA CO env)))) ↔
            ∀ c ∈ (SubtypeF.array a : SubtypeF AS OS _).children, Can (serSchema C CA CO env c) := by
          rw [can_optOpt]
          cases ha : a.items with
          | none => simp [SubtypeF.children, ha]
          | some i =>
            cases i with
            | elem c => simp [SubtypeF.children, ha, ElemOrVec.toList, ElemOrVec.map, serItems]
            | vec l =>
              simp only [SubtypeF.children, ha, ElemOrVec.toList, ElemOrVec.map, serItems,
                Option.map_some, Option.some.injEq, forall_eq', Option.getD_some, can_map]
              rw [can_mapOpt]
              simp
        show Can ((serArray CA _).map _) ↔ _
        rw [can_map]
        refine e.trans ?_
        rw [e']
        simp [and_comm]
      | object o =>
        have e : Can (serObject CO env { o with properties := o.properties.map (HMap.mapVals (serSchema C CA CO env)) }) ↔
            Can (optOpt (serMap env id) (o.properties.map (HMap.mapVals (serSchema C CA CO env)))) ∧
            Can (CO.ser o.other) ∧ True := by
          unfold serObject
          exact can_bind fun _ _ => can_bind fun _ _ => can_pure
        have e' : Can (optOpt (serMap env id) (o.properties.map (HMap.mapVals (serSchema C CA CO env)))) ↔
            ∀ c ∈ (SubtypeF.object o : SubtypeF AS OS _).children, Can (serSchema C CA CO env c) := by
          rw [can_optOpt]
          cases ho : o.properties with
          | none => simp [SubtypeF.children, ho]
          | some m =>
            simp only [SubtypeF.children, ho, Option.map_some, Option.some.injEq, forall_eq',
              Option.getD_some, can_serMap, HMap.values, HMap.mapVals, id_eq, List.forall_mem_map]
        show Can ((serObject CO env _).map _) ↔ _
        rw [can_map]
        refine e.trans ?_
        rw [e']
        simp [and_comm]
      | boolean => simp [SubtypeF.children, SubtypeF.map, serSchemaSubtype, Can]
      | number n => simp [SubtypeF.children, SubtypeF.map, serSchemaSubtype, Can]
      | integer n => simp [SubtypeF.children, SubtypeF.map, serSchemaSubtype, Can]
      | string n => simp [SubtypeF.children, SubtypeF.map, serSchemaSubtype, Can]
      | null => simp [SubtypeF.children, SubtypeF.map, serSchemaSubtype, Can]
  rw [e, e1, e2]
  unfold NodeWritable
  constructor
  · rintro ⟨h1, ⟨h2, h3, h4⟩, h5, -⟩; exact ⟨⟨h5, h2, h3⟩, h1, h4⟩
  · rintro ⟨⟨h5, h2, h3⟩, h1, h4⟩; exact ⟨h1, ⟨h2, h3, h4⟩, h5, trivial⟩

theorem can_serSchema_members {s : DataSchema DSx AS OS} :
    Can (serSchema C CA CO env s) ↔ Can (serSchemaMembers C CA CO env s) := by
  obtain ⟨h, o, st⟩ := s
  rw [serSchema, Schema.fold_mk, can_map]
  rfl

theorem can_serSchema {s : DataSchema DSx AS OS} :
    Can (serSchema C CA CO env s) ↔ ∀ x, Within x s → NodeWritable C CA CO x := by
  induction s using Schema.ind with
  | h hd o st ih1 ih2 =>
    rw [can_serSchema_members, can_serSchemaMembers]
    constructor
    · rintro ⟨h1, h2, h3⟩ x hx
      rcases within_iff.1 hx with rfl | ⟨l, hl, c, hc, hx⟩ | ⟨st', hst, c, hc, hx⟩
      · exact h1
      · exact (ih1 l hl c hc).1 (h2 l hl c hc) x hx
      · exact (ih2 st' hst c hc).1 (h3 st' hst c hc) x hx
    · intro h
      exact ⟨h _ (.self _),
        fun l hl c hc => (ih1 l hl c hc).2 fun x hx => h x (within_iff.2 (.inr (.inl ⟨l, hl, c, hc, hx⟩))),
        fun st' hst c hc => (ih2 st' hst c hc).2 fun x hx =>
          h x (within_iff.2 (.inr (.inr ⟨st', hst, c, hc, hx⟩)))⟩

end

/-! ### Things -/

variable {X : ExtTypes} {C : ExtCodecs X} {env : SerdeEnv}

theorem can_security {s : SecurityScheme} : Can (serSecurity env.toEnv s) ↔
    ∀ scheme data, s.subtype = .unknown scheme data → data = .null ∨ ∃ m, data = .obj m := by
  unfold serSecurity
  rw [can_map]
  cases h : s.subtype with
  | known k => simp [serSubtype, Can]
  | unknown scheme data =>
    cases data <;> simp [serSubtype, serFlatValue, Can]

theorem can_form {f : Form X} : Can (serForm C f) ↔
    (∀ r, f.response = some r → Can (C.response.ser r.other)) ∧ Can (C.form.ser f.other) := by
  have : Can (serForm C f) ↔
      Can (optOpt (serResponse C.response) f.response) ∧ Can (C.form.ser f.other) ∧ True := by
    unfold serForm
    exact can_bind fun _ _ => can_bind fun _ _ => can_pure
  rw [this, can_optOpt]
  simp [serResponse, can_map]

theorem can_forms {l : List (Form X)} : Can (mapOpt (serForm C) l) ↔ ∀ f ∈ l,
    (∀ r, f.response = some r → Can (C.response.ser r.other)) ∧ Can (C.form.ser f.other) := by
  rw [can_mapOpt]; simp only [can_form]

/-- All extensions in a schema can be written. -/
abbrev DSWritable (C : ExtCodecs X) (s : DS X) : Prop :=
  ∀ x, Within x s → NodeWritable C.dataSchema C.arraySchema C.objectSchema x

theorem can_schemas {o : Option (HMap (DS X))} :
    Can (optOpt (serMap env.toEnv (serDS C env.toEnv)) o) ↔
      ∀ m, o = some m → ∀ kv ∈ m, DSWritable C kv.2 := by
  rw [can_optOpt]; simp only [can_serMap, can_serSchema]

theorem can_ds {o : Option (DS X)} :
    Can (optOpt (serDS C env.toEnv) o) ↔ ∀ s, o = some s → DSWritable C s := by
  rw [can_optOpt]; simp only [can_serSchema]

/-- The interaction part of an affordance can be written. -/
def InteractionWritable (C : ExtCodecs X) (i : Interaction X) : Prop :=
  (∀ f ∈ i.forms, (∀ r, f.response = some r → Can (C.response.ser r.other)) ∧ Can (C.form.ser f.other)) ∧
  (∀ m, i.uriVariables = some m → ∀ kv ∈ m, DSWritable C kv.2) ∧ Can (C.interaction.ser i.other)

theorem can_interaction {i : Interaction X} :
    Can (serInteraction C env.toEnv i) ↔ InteractionWritable C i := by
  have : Can (serInteraction C env.toEnv i) ↔ Can (mapOpt (serForm C) i.forms) ∧
      Can (optOpt (serMap env.toEnv (serDS C env.toEnv)) i.uriVariables) ∧
      Can (C.interaction.ser i.other) ∧ True := by
    unfold serInteraction
    exact can_bind fun _ _ => can_bind fun _ _ => can_bind fun _ _ => can_pure
  rw [this, can_forms, can_schemas]
  simp [InteractionWritable]

theorem can_property {p : PropertyAffordance X} : Can (serProperty C env.toEnv p) ↔
    InteractionWritable C p.interaction ∧ DSWritable C p.dataSchema ∧ Can (C.property.ser p.other) := by
  have : Can (serProperty C env.toEnv p) ↔ Can (serInteraction C env.toEnv p.interaction) ∧
      Can (serSchemaMembers C.dataSchema C.arraySchema C.objectSchema env.toEnv p.dataSchema) ∧
      Can (C.property.ser p.other) ∧ True := by
    unfold serProperty
    exact can_bind fun _ _ => can_bind fun _ _ => can_bind fun _ _ => can_pure
  rw [this, can_interaction, ← can_serSchema_members, can_serSchema]
  simp

theorem can_action {a : ActionAffordance X} : Can (serAction C env.toEnv a) ↔
    InteractionWritable C a.interaction ∧ (∀ s, a.input = some s → DSWritable C s) ∧
      (∀ s, a.output = some s → DSWritable C s) ∧ Can (C.action.ser a.other) := by
  have : Can (serAction C env.toEnv a) ↔ Can (serInteraction C env.toEnv a.interaction) ∧
      Can (optOpt (serDS C env.toEnv) a.input) ∧ Can (optOpt (serDS C env.toEnv) a.output) ∧
      Can (C.action.ser a.other) ∧ True := by
    unfold serAction
    exact can_bind fun _ _ => can_bind fun _ _ => can_bind fun _ _ => can_bind fun _ _ => can_pure
  rw [this, can_interaction, can_ds, can_ds]
  simp

theorem can_event {e : EventAffordance X} : Can (serEvent C env.toEnv e) ↔
    InteractionWritable C e.interaction ∧ (∀ s, e.subscription = some s → DSWritable C s) ∧
      (∀ s, e.data = some s → DSWritable C s) ∧ (∀ s, e.dataResponse = some s → DSWritable C s) ∧
      (∀ s, e.cancellation = some s → DSWritable C s) ∧ Can (C.event.ser e.other) := by
  have : Can (serEvent C env.toEnv e) ↔ Can (serInteraction C env.toEnv e.interaction) ∧
      Can (optOpt (serDS C env.toEnv) e.subscription) ∧ Can (optOpt (serDS C env.toEnv) e.data) ∧
      Can (optOpt (serDS C env.toEnv) e.dataResponse) ∧
      Can (optOpt (serDS C env.toEnv) e.cancellation) ∧ Can (C.event.ser e.other) ∧ True := by
    unfold serEvent
    exact can_bind fun _ _ => can_bind fun _ _ => can_bind fun _ _ => can_bind fun _ _ =>
      can_bind fun _ _ => can_bind fun _ _ => can_pure
  rw [this, can_interaction, can_ds, can_ds, can_ds, can_ds]
  simp

theorem can_time {o : Option OffsetDateTime} :
    Can (optOpt (fun d => (env.timeFormat d).map Json.str) o) ↔
      ∀ d, o = some d → Can (env.timeFormat d) := by
  rw [can_optOpt]; simp only [can_map]

theorem can_thing {t : Thing X} : Can (serThing C env t) ↔ Writable env C t := by
  have e : Can (serThing C env t) ↔
      Can (optOpt (fun d => (env.timeFormat d).map Json.str) t.created) ∧
      Can (optOpt (fun d => (env.timeFormat d).map Json.str) t.modified) ∧
      Can (optOpt (serMap env.toEnv (serProperty C env.toEnv)) t.properties) ∧
      Can (optOpt (serMap env.toEnv (serAction C env.toEnv)) t.actions) ∧
      Can (optOpt (serMap env.toEnv (serEvent C env.toEnv)) t.events) ∧
      Can (optOpt (fun l => (mapOpt (serForm C) l).map Json.arr) t.forms) ∧
      Can (serMap env.toEnv (serSecurity env.toEnv) t.securityDefinitions) ∧
      Can (optOpt (serMap env.toEnv (serDS C env.toEnv)) t.uriVariables) ∧
      Can (optOpt (serMap env.toEnv (serDS C env.toEnv)) t.schemaDefinitions) ∧
      Can (C.thing.ser t.other) ∧ True := by
    unfold serThing
    exact can_bind fun _ _ => can_bind fun _ _ => can_bind fun _ _ => can_bind fun _ _ =>
      can_bind fun _ _ => can_bind fun _ _ => can_bind fun _ _ => can_bind fun _ _ =>
      can_bind fun _ _ => can_bind fun _ _ => can_pure
  rw [e, can_time, can_time, can_schemas, can_schemas]
  simp only [can_optOpt, can_serMap, can_map, can_forms, can_property, can_action, can_event,
    can_security]
  constructor
  · rintro ⟨h1, h2, h3, h4, h5, h6, h7, h8, h9, h10, -⟩
    refine ⟨h1, h2, fun n s scheme data hs => h7 (n, s) hs scheme data, ?_, ?_, ?_,
      fun m hm kv hkv => (h3 m hm kv hkv).2.2, fun m hm kv hkv => (h4 m hm kv hkv).2.2.2,
      fun m hm kv hkv => (h5 m hm kv hkv).2.2.2.2.2, h10⟩
    · intro p s x hs hx
      cases hs with
      | property hm hp => exact (h3 _ hm _ hp).2.1 x hx
      | input hm hp hs => exact (h4 _ hm _ hp).2.1 s hs x hx
      | output hm hp hs => exact (h4 _ hm _ hp).2.2.1 s hs x hx
      | subscription hm hp hs => exact (h5 _ hm _ hp).2.1 s hs x hx
      | data hm hp hs => exact (h5 _ hm _ hp).2.2.1 s hs x hx
      | dataResponse hm hp hs => exact (h5 _ hm _ hp).2.2.2.1 s hs x hx
      | cancellation hm hp hs => exact (h5 _ hm _ hp).2.2.2.2.1 s hs x hx
      | uriVariable hm hs => exact h8 _ hm _ hs x hx
      | schemaDefinition hm hs => exact h9 _ hm _ hs x hx
      | propertyUriVariable hm hp hu hs => exact (h3 _ hm _ hp).1.2.1 _ hu _ hs x hx
      | actionUriVariable hm hp hu hs => exact (h4 _ hm _ hp).1.2.1 _ hu _ hs x hx
      | eventUriVariable hm hp hu hs => exact (h5 _ hm _ hp).1.2.1 _ hu _ hs x hx
    · intro ctx f hf
      cases hf with
      | thing hl hf => exact (h6 _ hl f hf).symm
      | property hm hp hf => exact ((h3 _ hm _ hp).1.1 f hf).symm
      | action hm hp hf => exact ((h4 _ hm _ hp).1.1 f hf).symm
      | event hm hp hf => exact ((h5 _ hm _ hp).1.1 f hf).symm
    · intro i hi
      cases hi with
      | property hm hp => exact (h3 _ hm _ hp).1.2.2
      | action hm hp => exact (h4 _ hm _ hp).1.2.2
      | event hm hp => exact (h5 _ hm _ hp).1.2.2
  · intro h
    refine ⟨h.created, h.modified, fun m hm kv hkv => ⟨⟨fun f hf => ?_, fun u hu kv' hkv' x hx => ?_,
        h.interactions _ (.property hm hkv)⟩, fun x hx => ?_, h.properties m hm kv hkv⟩,
      fun m hm kv hkv => ⟨⟨fun f hf => ?_, fun u hu kv' hkv' x hx => ?_,
        h.interactions _ (.action hm hkv)⟩, fun s hs x hx => ?_, fun s hs x hx => ?_, h.actions m hm kv hkv⟩,
      fun m hm kv hkv => ⟨⟨fun f hf => ?_, fun u hu kv' hkv' x hx => ?_,
        h.interactions _ (.event hm hkv)⟩, fun s hs x hx => ?_, fun s hs x hx => ?_, fun s hs x hx => ?_,
        fun s hs x hx => ?_, h.events m hm kv hkv⟩,
      fun l hl f hf => (h.forms _ f (.thing hl hf)).symm,
      fun kv hkv scheme data => h.security kv.1 kv.2 scheme data hkv,
      fun m hm kv hkv x hx => h.schemas _ _ x (.uriVariable hm hkv) hx,
      fun m hm kv hkv x hx => h.schemas _ _ x (.schemaDefinition hm hkv) hx, h.other, trivial⟩
    · exact (h.forms _ f (.property hm hkv hf)).symm
    · exact h.schemas _ _ x (.propertyUriVariable hm hkv hu hkv') hx
    · exact h.schemas _ _ x (.property hm hkv) hx
    · exact (h.forms _ f (.action hm hkv hf)).symm
    · exact h.schemas _ _ x (.actionUriVariable hm hkv hu hkv') hx
    · exact h.schemas _ _ x (.input hm hkv hs) hx
    · exact h.schemas _ _ x (.output hm hkv hs) hx
    · exact (h.forms _ f (.event hm hkv hf)).symm
    · exact h.schemas _ _ x (.eventUriVariable hm hkv hu hkv') hx
    · exact h.schemas _ _ x (.subscription hm hkv hs) hx
    · exact h.schemas _ _ x (.data hm hkv hs) hx
    · exact h.schemas _ _ x (.dataResponse hm hkv hs) hx
    · exact h.schemas _ _ x (.cancellation hm hkv hs) hx

end Wot
