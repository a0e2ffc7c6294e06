import Verif.Lemmas.BuildableBuilt
import Verif.Lemmas.StoredTwice
/-
What is left of a Thing that can be built, after it has been written and read back, can be built again
unless there are `null` constants.
-/
namespace Wot

variable {X : ExtTypes} {L D A O : Type}

section Schemas
variable {x s c : Schema L D A O}

theorem stored_head : s.stored.head =
    { s.head with constant := dropNull s.head.constant, default := dropNull s.head.default } := by
  rw [stored_eq]; rfl

theorem stored_oneOf : s.stored.oneOf = s.oneOf.map (List.map Schema.stored) := by
  rw [stored_eq]; rfl

theorem stored_subtype : s.stored.subtype =
    s.subtype.map fun st => (st.map Schema.stored).stored := by
  rw [stored_eq]
  show Option.map _ (Option.map _ _) = _
  rw [Option.map_map]; rfl

theorem children_stored {S : Type} (st : SubtypeF A O S) : st.stored.children = st.children := by
  cases st <;> rfl

theorem within_stored_of (h : Within x s) : Within x.stored s.stored := by
  induction s using Schema.ind generalizing x with
  | h hd o st ih1 ih2 =>
    rcases within_iff.1 h with rfl | ⟨l, hl, c, hc, hx⟩ | ⟨t, ht, c, hc, hx⟩
    · exact .self _
    · refine within_iff.2 (.inr (.inl ⟨l.map Schema.stored, ?_, c.stored, List.mem_map_of_mem hc, ih1 l hl c hc hx⟩))
      rw [stored_oneOf, hl]; rfl
    · refine within_iff.2 (.inr (.inr ⟨(t.map Schema.stored).stored, ?_, c.stored, ?_, ih2 t ht c hc hx⟩))
      · rw [stored_subtype, ht]; rfl
      · rw [children_stored, children_map]; exact List.mem_map_of_mem hc

theorem child_stored (h : Child c s.stored) : ∃ d, Child d s ∧ c = d.stored := by
  rcases child_iff.1 h with ⟨l, h1, h2⟩ | ⟨st, h1, h2⟩
  · rw [stored_oneOf] at h1
    obtain ⟨l', hl, rfl⟩ := Option.map_eq_some_iff.1 h1
    obtain ⟨d, hd, rfl⟩ := List.mem_map.1 h2
    exact ⟨d, child_oneOf hl hd, rfl⟩
  · rw [stored_subtype] at h1
    obtain ⟨st', hst, rfl⟩ := Option.map_eq_some_iff.1 h1
    rw [children_stored, children_map] at h2
    obtain ⟨d, hd, rfl⟩ := List.mem_map.1 h2
    exact ⟨d, child_subtype hst hd, rfl⟩

theorem array_of_stored {a : ArrayF A (Schema L D A O)} (h : s.stored.subtype = some (.array a)) :
    ∃ b : ArrayF A (Schema L D A O), s.subtype = some (.array b) ∧
      a = { b with items := b.items.map (ElemOrVec.map Schema.stored) } := by
  rw [stored_subtype] at h
  obtain ⟨st, h', e⟩ := Option.map_eq_some_iff.1 h
  cases st <;> cases e
  exact ⟨_, h', rfl⟩

theorem object_of_stored {a : ObjectF O (Schema L D A O)} (h : s.stored.subtype = some (.object a)) :
    ∃ b : ObjectF O (Schema L D A O), s.subtype = some (.object b) ∧
      a = { b with properties := b.properties.map (HMap.mapVals Schema.stored) } := by
  rw [stored_subtype] at h
  obtain ⟨st, h', e⟩ := Option.map_eq_some_iff.1 h
  cases st <;> cases e
  exact ⟨_, h', rfl⟩

theorem dropNull_some {o : Option Json} {v : Json} (h : dropNull o = some v) : o = some v := by
  unfold dropNull at h
  split at h
  · cases h
  · exact h

theorem dropNull_none {o : Option Json} (h : dropNull o = none) (hn : o ≠ some .null) : o = none := by
  rw [dropNull_eq_self.2 hn] at h
  exact h

theorem open_of_stored (hc : s.head.constant ≠ some .null) (h : s.stored.Open) : s.Open := by
  obtain ⟨h1, h2, h3, h4⟩ := h
  rw [stored_subtype, Option.map_eq_none_iff] at h1
  rw [stored_oneOf, Option.map_eq_none_iff] at h2
  rw [stored_head] at h3 h4
  exact ⟨h1, h2, h3, dropNull_none h4 hc⟩

theorem shape_stored (h : SchemaShape s) : SchemaShape s.stored where
  access := by rw [stored_head]; exact h.access
  required o r ho hr := by
    obtain ⟨o, ho', rfl⟩ := object_of_stored ho
    obtain ⟨h1, h2⟩ := h.required o r ho' hr
    refine ⟨h1, fun n hn => ?_⟩
    obtain ⟨m, c, hm, hc⟩ := h2 n hn
    exact ⟨HMap.mapVals Schema.stored m, c.stored, congrArg (Option.map _) hm, mem_mapVals.2 ⟨c, hc, rfl⟩⟩
  properties o m ho hm := by
    obtain ⟨o, ho', rfl⟩ := object_of_stored ho
    obtain ⟨m, hm', rfl⟩ := Option.map_eq_some_iff.1 hm
    exact fun e => h.properties o m ho' hm' (List.map_eq_nil_iff.1 e)
  oneOf l hl := by
    rw [stored_oneOf] at hl
    obtain ⟨l, hl', rfl⟩ := Option.map_eq_some_iff.1 hl
    obtain ⟨h1, h2, h3, h4, h5, h6⟩ := h.oneOf l hl'
    rw [stored_subtype, stored_head, h2, h4]
    exact ⟨fun e => h1 (List.map_eq_nil_iff.1 e), rfl, h3, rfl, h5, h6⟩
  enumeration l hl := by
    rw [stored_head] at hl
    obtain ⟨h1, h2, h3, h4⟩ := h.enumeration l hl
    rw [stored_subtype, stored_oneOf, stored_head, h2, h3, h4]
    exact ⟨h1, rfl, rfl, rfl⟩
  constant v hv := by
    rw [stored_head] at hv
    obtain ⟨h1, h2, h3, h4⟩ := h.constant v (dropNull_some hv)
    rw [stored_subtype, stored_oneOf, stored_head, h1, h2]
    exact ⟨rfl, rfl, h3, h4⟩
  tuple a l ha hl := by
    obtain ⟨a, ha', rfl⟩ := array_of_stored ha
    obtain ⟨i, hi, e⟩ := Option.map_eq_some_iff.1 hl
    cases i with
    | elem c => cases e
    | vec l' => exact h.tuple a l' ha' hi

theorem made_stored {env : Env} {s : DataSchema D A O} (h : SchemaMade env s)
    (hc : s.head.constant ≠ some .null) : SchemaMade env s.stored where
  toSchemaShape := shape_stored h.toSchemaShape
  attype := by rw [stored_head]; exact h.attype
  titles := by rw [stored_head]; exact h.titles
  descriptions := by rw [stored_head]; exact h.descriptions
  sorted o m ho hm := by
    obtain ⟨o, ho', rfl⟩ := object_of_stored ho
    obtain ⟨m, hm', rfl⟩ := Option.map_eq_some_iff.1 hm
    exact (h.sorted o m ho' hm').mapVals _
  unspecified hop := by
    obtain ⟨h1, h2, h3, h4, h5⟩ := h.unspecified (open_of_stored hc hop)
    rw [stored_head, h1]
    exact ⟨rfl, h2, h3, h4, h5⟩

theorem uninformed_stored {s : DataSchema D A O} (h : Uninformed s) (hc : s.head.constant ≠ some .null) :
    Uninformed s.stored := by
  intro hop
  rw [stored_head]
  exact h (open_of_stored hc hop)

/-- A constant that is lost leaves a schema no builder makes. -/
theorem not_made_stored {env : Env} {s : DataSchema D A O} (h : SchemaShape s)
    (hc : s.head.constant = some .null) : ¬ SchemaMade env s.stored := by
  intro hm
  obtain ⟨h1, h2, h3, h4⟩ := h.constant _ hc
  have := (hm.unspecified ⟨by rw [stored_subtype, h1]; rfl, by rw [stored_oneOf, h2]; rfl,
    by rw [stored_head]; exact h3, by rw [stored_head, hc]; rfl⟩).2.2.2.1
  rw [stored_head] at this
  rw [h4] at this
  cases this

theorem filter_some {α : Type} {p : α → Bool} {o : Option α} {a : α} (h : o.filter p = some a) : o = some a := by
  cases o with
  | none => cases h
  | some b =>
    simp only [Option.filter] at h
    split at h
    · exact h
    · cases h

theorem rule_stored (h : SchemaRule s) : SchemaRule s.stored := by
  unfold SchemaRule at h ⊢
  rw [stored_subtype]
  cases e : s.subtype with
  | none => trivial
  | some st =>
    rw [e] at h
    cases st with
    | number n =>
      obtain ⟨h1, h2, h3, h4⟩ := h
      exact ⟨fun lo hl => h1 lo (filter_some hl), fun hi hl => h2 hi (filter_some hl),
        fun lo hi hl hh => h3 lo hi (filter_some hl) (filter_some hh), fun x hx => h4 x (filter_some hx)⟩
    | array a => exact h
    | integer n => exact h
    | _ => trivial

theorem allRules_stored (h : AllRules s) : AllRules s.stored := by
  intro x hx
  obtain ⟨y, hy, rfl⟩ := within_stored hx
  exact rule_stored (h y hy)

theorem arrayOrObject_stored : s.stored.ArrayOrObject ↔ s.ArrayOrObject := by
  unfold Schema.ArrayOrObject
  rw [stored_subtype]
  cases s.subtype with
  | none => simp
  | some st => cases st <;> simp [SubtypeF.map, SubtypeF.stored]

end Schemas

/-! ### Things -/

theorem mapMade_mapVals {V W : Type} {f : V → W} {o : Option (HMap V)} (h : MapMade o) :
    MapMade (o.map (HMap.mapVals f)) := by
  intro m hm
  obtain ⟨m', hm', rfl⟩ := Option.map_eq_some_iff.1 hm
  obtain ⟨h1, h2⟩ := h m' hm'
  exact ⟨fun e => h1 (List.map_eq_nil_iff.1 e), h2.mapVals _⟩

variable {t : Thing X} {env : Env}

/-- The two parts of each property agree. -/
def Thing.Agrees (t : Thing X) : Prop := ∀ m, t.properties = some m → ∀ kv ∈ m, kv.2.Agrees

theorem property_stored {p : PropertyAffordance X} (h : p.Agrees) :
    p.stored = { p with interaction := p.interaction.stored, dataSchema := p.dataSchema.stored } := by
  unfold PropertyAffordance.stored
  rw [merged_eq_self.2 h]

theorem hasSchema_stored_iff (ha : t.Agrees) {p : Position} {s : DS X} :
    t.stored.HasSchema p s ↔ ∃ s', t.HasSchema p s' ∧ s = s'.stored := by
  constructor
  · intro h
    obtain ⟨s', hs, e | ⟨n, e⟩⟩ := hasSchema_stored h
    · exact ⟨s', hs, e⟩
    · cases h with
      | property h1 h2 =>
        obtain ⟨m, a, hm, hp, rfl⟩ := mem_optMapVals h1 h2
        exact ⟨_, .property hm hp, by rw [property_stored (ha m hm _ hp)]⟩
      | input h1 h2 h3 =>
        obtain ⟨m, a, hm, ha, rfl⟩ := mem_optMapVals h1 h2
        obtain ⟨s', hs', rfl⟩ := Option.map_eq_some_iff.1 h3
        exact ⟨s', .input hm ha hs', rfl⟩
      | output h1 h2 h3 =>
        obtain ⟨m, a, hm, ha, rfl⟩ := mem_optMapVals h1 h2
        obtain ⟨s', hs', rfl⟩ := Option.map_eq_some_iff.1 h3
        exact ⟨s', .output hm ha hs', rfl⟩
      | subscription h1 h2 h3 =>
        obtain ⟨m, a, hm, ha, rfl⟩ := mem_optMapVals h1 h2
        obtain ⟨s', hs', rfl⟩ := Option.map_eq_some_iff.1 h3
        exact ⟨s', .subscription hm ha hs', rfl⟩
      | data h1 h2 h3 =>
        obtain ⟨m, a, hm, ha, rfl⟩ := mem_optMapVals h1 h2
        obtain ⟨s', hs', rfl⟩ := Option.map_eq_some_iff.1 h3
        exact ⟨s', .data hm ha hs', rfl⟩
      | cancellation h1 h2 h3 =>
        obtain ⟨m, a, hm, ha, rfl⟩ := mem_optMapVals h1 h2
        obtain ⟨s', hs', rfl⟩ := Option.map_eq_some_iff.1 h3
        exact ⟨s', .cancellation hm ha hs', rfl⟩
      | dataResponse h1 h2 h3 =>
        obtain ⟨m, a, hm, ha, rfl⟩ := mem_optMapVals h1 h2
        obtain ⟨s', hs', rfl⟩ := Option.map_eq_some_iff.1 h3
        exact ⟨s', .dataResponse hm ha hs', rfl⟩
      | uriVariable h1 h2 =>
        obtain ⟨m, a, hm, ha, rfl⟩ := mem_optMapVals h1 h2
        exact ⟨a, .uriVariable hm ha, rfl⟩
      | schemaDefinition h1 h2 =>
        obtain ⟨m, a, hm, ha, rfl⟩ := mem_optMapVals h1 h2
        exact ⟨a, .schemaDefinition hm ha, rfl⟩
      | propertyUriVariable h1 h2 h3 h4 =>
        obtain ⟨m, a, hm, ha, rfl⟩ := mem_optMapVals h1 h2
        obtain ⟨u, b, hu, hb, rfl⟩ := mem_optMapVals h3 h4
        exact ⟨b, .propertyUriVariable hm ha hu hb, rfl⟩
      | actionUriVariable h1 h2 h3 h4 =>
        obtain ⟨m, a, hm, ha, rfl⟩ := mem_optMapVals h1 h2
        obtain ⟨u, b, hu, hb, rfl⟩ := mem_optMapVals h3 h4
        exact ⟨b, .actionUriVariable hm ha hu hb, rfl⟩
      | eventUriVariable h1 h2 h3 h4 =>
        obtain ⟨m, a, hm, ha, rfl⟩ := mem_optMapVals h1 h2
        obtain ⟨u, b, hu, hb, rfl⟩ := mem_optMapVals h3 h4
        exact ⟨b, .eventUriVariable hm ha hu hb, rfl⟩
  · rintro ⟨s, h, rfl⟩
    have mem : ∀ {V W : Type} {f : V → W} {m : HMap V} {k : String} {v : V}, (k, v) ∈ m →
        (k, f v) ∈ HMap.mapVals f m := fun h => mem_mapVals.2 ⟨_, h, rfl⟩
    cases h with
    | property h1 h2 =>
      have := Thing.HasSchema.property (t := t.stored) (congrArg (Option.map _) h1) (mem h2)
      rw [property_stored (ha _ h1 _ h2)] at this
      exact this
    | input h1 h2 h3 => exact .input (congrArg (Option.map _) h1) (mem h2) (congrArg (Option.map _) h3)
    | output h1 h2 h3 => exact .output (congrArg (Option.map _) h1) (mem h2) (congrArg (Option.map _) h3)
    | subscription h1 h2 h3 => exact .subscription (congrArg (Option.map _) h1) (mem h2) (congrArg (Option.map _) h3)
    | data h1 h2 h3 => exact .data (congrArg (Option.map _) h1) (mem h2) (congrArg (Option.map _) h3)
    | cancellation h1 h2 h3 => exact .cancellation (congrArg (Option.map _) h1) (mem h2) (congrArg (Option.map _) h3)
    | dataResponse h1 h2 h3 => exact .dataResponse (congrArg (Option.map _) h1) (mem h2) (congrArg (Option.map _) h3)
    | uriVariable h1 h2 => exact .uriVariable (congrArg (Option.map _) h1) (mem h2)
    | schemaDefinition h1 h2 => exact .schemaDefinition (congrArg (Option.map _) h1) (mem h2)
    | propertyUriVariable h1 h2 h3 h4 =>
      exact .propertyUriVariable (congrArg (Option.map _) h1) (mem h2) (congrArg (Option.map _) h3) (mem h4)
    | actionUriVariable h1 h2 h3 h4 =>
      exact .actionUriVariable (congrArg (Option.map _) h1) (mem h2) (congrArg (Option.map _) h3) (mem h4)
    | eventUriVariable h1 h2 h3 h4 =>
      exact .eventUriVariable (congrArg (Option.map _) h1) (mem h2) (congrArg (Option.map _) h3) (mem h4)

theorem hasInteraction_of_stored (ha : t.Agrees) {i : Interaction X} (h : t.stored.HasInteraction i) :
    ∃ j, t.HasInteraction j ∧ i = j.stored := by
  cases h with
  | property h1 h2 =>
    obtain ⟨m, p, hm, hp, rfl⟩ := mem_optMapVals h1 h2
    exact ⟨_, .property hm hp, by rw [property_stored (ha m hm _ hp)]⟩
  | action h1 h2 =>
    obtain ⟨m, p, hm, hp, rfl⟩ := mem_optMapVals h1 h2
    exact ⟨_, .action hm hp, rfl⟩
  | event h1 h2 =>
    obtain ⟨m, p, hm, hp, rfl⟩ := mem_optMapVals h1 h2
    exact ⟨_, .event hm hp, rfl⟩

theorem mem_stored_securityDefinitions {n : String} {s : SecurityScheme}
    (h : (n, s) ∈ t.stored.securityDefinitions) : ∃ s', (n, s') ∈ t.securityDefinitions ∧ s = s'.stored :=
  mem_mapVals.1 h

theorem hasTranslations_stored (ha : t.Agrees) {m : MultiLanguage} (h : t.stored.HasTranslations m) :
    t.HasTranslations m := by
  cases h with
  | titles h => exact .titles h
  | descriptions h => exact .descriptions h
  | security h1 h2 =>
    obtain ⟨s, hs, rfl⟩ := mem_stored_securityDefinitions h1
    exact .security hs h2
  | interactionTitles h1 h2 =>
    obtain ⟨j, hj, rfl⟩ := hasInteraction_of_stored ha h1
    exact .interactionTitles hj h2
  | interactionDescriptions h1 h2 =>
    obtain ⟨j, hj, rfl⟩ := hasInteraction_of_stored ha h1
    exact .interactionDescriptions hj h2
  | schemaTitles h1 h2 h3 =>
    obtain ⟨s, hs, rfl⟩ := (hasSchema_stored_iff ha).1 h1
    obtain ⟨y, hy, rfl⟩ := within_stored h2
    rw [stored_head] at h3
    exact .schemaTitles hs hy h3
  | schemaDescriptions h1 h2 h3 =>
    obtain ⟨s, hs, rfl⟩ := (hasSchema_stored_iff ha).1 h1
    obtain ⟨y, hy, rfl⟩ := within_stored h2
    rw [stored_head] at h3
    exact .schemaDescriptions hs hy h3

theorem keys_mapVals {V W : Type} {f : V → W} {m : HMap V} : HMap.keys (HMap.mapVals f m) = HMap.keys m := by
  simp [HMap.keys, HMap.mapVals]

theorem defines_stored {n : String} : t.stored.Defines n ↔ t.Defines n := by
  unfold Thing.Defines Thing.stored
  rw [keys_mapVals]

theorem declares_stored {n : String} : t.stored.Declares n ↔ t.Declares n := by
  unfold Thing.Declares Thing.stored
  constructor
  · rintro ⟨m, hm, hn⟩
    obtain ⟨m', hm', rfl⟩ := Option.map_eq_some_iff.1 hm
    rw [keys_mapVals] at hn
    exact ⟨m', hm', hn⟩
  · rintro ⟨m, hm, hn⟩
    exact ⟨_, congrArg (Option.map _) hm, by rw [keys_mapVals]; exact hn⟩

theorem formMade_stored {f : Form X} (h : FormMade f) : f.stored = f := form_eq_self.2 h.op

theorem Buildable.stored (h : Buildable env t) (hn : t.NoNullConst) : Buildable env t.stored := by
  have ha : t.Agrees := fun m hm kv hkv => (h.eachProperty m hm kv hkv).1
  have hf : ∀ ctx f, t.stored.HasForm ctx f → t.HasForm ctx f := by
    intro ctx f hf
    obtain ⟨g, hg, rfl⟩ := hasForm_stored hf
    rw [formMade_stored (h.eachForm ctx g hg).1]
    exact hg
  constructor
  case context => exact h.context
  case attype => exact h.attype
  case profile => exact h.profile
  case links => exact h.links
  case forms =>
    intro e
    obtain ⟨l, hl, e⟩ := Option.map_eq_some_iff.1 e
    exact h.forms (hl.trans (congrArg some (List.map_eq_nil_iff.1 e)))
  case properties => exact mapMade_mapVals h.properties
  case actions => exact mapMade_mapVals h.actions
  case events => exact mapMade_mapVals h.events
  case uriVariables => exact mapMade_mapVals h.uriVariables
  case schemaDefinitions => exact mapMade_mapVals h.schemaDefinitions
  case interactions =>
    intro i hi
    obtain ⟨j, hj, rfl⟩ := hasInteraction_of_stored ha hi
    obtain ⟨h1, h2⟩ := h.interactions j hj
    exact ⟨h1, mapMade_mapVals h2⟩
  case securityDefinitions => exact h.securityDefinitions.mapVals _
  case translations => exact fun m hm => h.translations m (hasTranslations_stored ha hm)
  case eachLink => exact h.eachLink
  case eachForm =>
    intro ctx f hff
    obtain ⟨h1, h2, h3⟩ := h.eachForm ctx f (hf ctx f hff)
    exact ⟨h1, h2, fun ns hns n hn => defines_stored.2 (h3 ns hns n hn)⟩
  case thingForms =>
    intro f hff
    obtain ⟨h1, h2⟩ := h.thingForms f (hf _ f hff)
    exact ⟨h1, fun rs hrs r hr n hn => declares_stored.2 (h2 rs hrs r hr n hn)⟩
  case security => exact ⟨h.security.1, fun n hn => defines_stored.2 (h.security.2 n hn)⟩
  case eachScheme =>
    intro n s hs
    obtain ⟨s, hs', rfl⟩ := mem_stored_securityDefinitions hs
    obtain ⟨⟨h1, h2, h3⟩, h4⟩ := h.eachScheme n s hs'
    have hk : ∀ k, s.subtype.stored = .known k → s.subtype = .known k := by
      intro k hk
      unfold SchemeSubtype.stored at hk
      split at hk
      · cases hk
      · exact hk
    have hrf : ∀ m, s.stored.subtype.References m → s.subtype.References m := by
      intro m hm
      show s.subtype.References m
      change s.subtype.stored.References m at hm
      unfold SchemeSubtype.stored at hm
      split at hm
      · simp [SchemeSubtype.References] at hm
      · exact hm
    exact ⟨⟨h1, fun k e => h2 k (hk _ e), fun o e => h3 o (hk _ e)⟩, fun m hm => defines_stored.2 (h4 m (hrf m hm))⟩
  case eachSchema =>
    intro p s x hs hx
    obtain ⟨s, hs', rfl⟩ := (hasSchema_stored_iff ha).1 hs
    obtain ⟨y, hy, rfl⟩ := within_stored hx
    exact made_stored (h.eachSchema p s y hs' hy) (hn p s y hs' hy)
  case uninformed =>
    intro p s hs
    obtain ⟨s, hs', rfl⟩ := (hasSchema_stored_iff ha).1 hs
    obtain ⟨h1, h2⟩ := h.uninformed p s hs'
    refine ⟨fun hp => uninformed_stored (h1 hp) (hn p s s hs' (.self _)), fun c x hc hx => ?_⟩
    obtain ⟨d, hd, rfl⟩ := child_stored hc
    obtain ⟨y, hy, rfl⟩ := within_stored hx
    exact uninformed_stored (h2 d y hd hy) (hn p s y hs' (hd.within hy))
  case ranges =>
    intro p s hp hs
    obtain ⟨s, hs', rfl⟩ := (hasSchema_stored_iff ha).1 hs
    exact allRules_stored (h.ranges p s hp hs')
  case uriVariableTypes =>
    intro s hs
    obtain ⟨s, hs', rfl⟩ := (hasSchema_stored_iff ha).1 hs
    exact fun e => h.uriVariableTypes s hs' (arrayOrObject_stored.1 e)
  case eachProperty =>
    intro m hm kv hkv
    obtain ⟨m', a, hm', hp, e⟩ := mem_optMapVals hm (k := kv.1) (b := kv.2) hkv
    obtain ⟨h1, h2⟩ := h.eachProperty m' hm' _ hp
    rw [e, property_stored h1]
    refine ⟨⟨?_, ?_, ?_, ?_, ?_⟩, fun st hst => ?_⟩
    · show _ = a.dataSchema.stored.head.attype
      rw [stored_head]; exact h1.attype
    · show _ = a.dataSchema.stored.head.title
      rw [stored_head]; exact h1.title
    · show _ = a.dataSchema.stored.head.titles
      rw [stored_head]; exact h1.titles
    · show _ = a.dataSchema.stored.head.description
      rw [stored_head]; exact h1.description
    · show _ = a.dataSchema.stored.head.descriptions
      rw [stored_head]; exact h1.descriptions
    · change a.dataSchema.stored.subtype = _ at hst
      rw [stored_subtype] at hst
      obtain ⟨st', hst', e⟩ := Option.map_eq_some_iff.1 hst
      cases st' <;> cases e
      exact h2 _ hst'

/-- What is left of a Thing that can be built can be built just when no constant is lost. -/
theorem buildable_stored_iff (h : Buildable env t) : Buildable env t.stored ↔ t.NoNullConst := by
  refine ⟨fun hs p s x hp hx hc => ?_, h.stored⟩
  have ha : t.Agrees := fun m hm kv hkv => (h.eachProperty m hm kv hkv).1
  exact not_made_stored (h.eachSchema p s x hp hx).toSchemaShape hc
    (hs.eachSchema p _ _ ((hasSchema_stored_iff ha).2 ⟨s, hp, rfl⟩) (within_stored_of hx))

end Wot
