import Verif.Lemmas.Built
import Verif.Lemmas.CodecThing
/-
When nothing of a Thing is lost.
-/
namespace Wot

variable {X : ExtTypes} {L DSx AS OS : Type}

theorem map_eq_self {α : Type} {f : α → α} {l : List α} : l.map f = l ↔ ∀ a ∈ l, f a = a := by
  induction l with
  | nil => simp
  | cons a l ih => simp [ih]

theorem optMap_eq_self {α : Type} {f : α → α} {o : Option α} : o.map f = o ↔ ∀ a, o = some a → f a = a := by
  cases o <;> simp

theorem mapVals_eq_self {α : Type} {f : α → α} {m : HMap α} :
    HMap.mapVals f m = m ↔ ∀ kv ∈ m, f kv.2 = kv.2 := by
  unfold HMap.mapVals
  rw [map_eq_self]
  constructor
  · intro h kv hkv; exact congrArg Prod.snd (h kv hkv)
  · intro h kv hkv; exact Prod.ext rfl (h kv hkv)

theorem dropNull_eq_self {o : Option Json} : dropNull o = o ↔ o ≠ some .null := by
  unfold dropNull; split <;> simp_all

theorem filter_eq_self {α : Type} {p : α → Bool} {o : Option α} :
    o.filter p = o ↔ ∀ a, o = some a → p a = true := by
  cases o with
  | none => simp
  | some a => simp [Option.filter]

theorem numberSchema_eq_self {n : NumberSchema} : n.stored = n ↔
    (∀ b, n.maximum = some b → b.bound.isFinite = true) ∧
    (∀ b, n.minimum = some b → b.bound.isFinite = true) ∧
    (∀ f, n.multipleOf = some f → f.isFinite = true) := by
  rw [← filter_eq_self, ← filter_eq_self (o := n.minimum), ← filter_eq_self (o := n.multipleOf)]
  cases n
  simp only [NumberSchema.stored, NumberSchema.mk.injEq]

theorem subtype_eq_self {S : Type} {f : S → S} {st : SubtypeF AS OS S} :
    (st.map f).stored = st ↔ (∀ n, st = .number n → n.stored = n) ∧ ∀ c ∈ st.children, f c = c := by
  cases st with
  | array a =>
    cases a with
    | mk items mi ma o =>
      rcases items with _ | (_ | _) <;>
        simp [SubtypeF.map, SubtypeF.stored, SubtypeF.children, ElemOrVec.map, ElemOrVec.toList, map_eq_self]
  | object o =>
    cases o with
    | mk props req o =>
      cases props with
      | none => simp [SubtypeF.map, SubtypeF.stored, SubtypeF.children]
      | some m =>
        simp only [SubtypeF.map, SubtypeF.stored, SubtypeF.children, mapVals_eq_self, HMap.values,
          Option.map_some, Option.getD_some, SubtypeF.object.injEq, ObjectF.mk.injEq,
          Option.some.injEq, and_true, reduceCtorEq, false_implies, implies_true, true_and, List.mem_map]
        exact ⟨fun h c ⟨kv, hkv, e⟩ => e ▸ h kv hkv, fun h kv hkv => h kv.2 ⟨kv, hkv, rfl⟩⟩
  | _ => simp [SubtypeF.map, SubtypeF.stored, SubtypeF.children]

theorem lossless_iff {s : Schema L DSx AS OS} : SchemaLossless s ↔
    s.head.constant ≠ some .null ∧ s.head.default ≠ some .null ∧
    ∀ n, s.subtype = some (.number n) → n.stored = n := by
  constructor
  · intro h
    exact ⟨h.constant, h.default, fun n hn => numberSchema_eq_self.2
      ⟨fun b hb => h.maximum n b hn hb, fun b hb => h.minimum n b hn hb, fun b hb => h.multipleOf n b hn hb⟩⟩
  · rintro ⟨h1, h2, h3⟩
    exact ⟨h1, h2, fun n b hn hb => (numberSchema_eq_self.1 (h3 n hn)).1 b hb,
      fun n b hn hb => (numberSchema_eq_self.1 (h3 n hn)).2.1 b hb,
      fun n b hn hb => (numberSchema_eq_self.1 (h3 n hn)).2.2 b hb⟩

theorem schema_eq_self {s : Schema L DSx AS OS} :
    s.stored = s ↔ ∀ x, Within x s → SchemaLossless x := by
  induction s using Schema.ind with
  | h hd o st ih1 ih2 =>
    have e : (Schema.mk hd o st).stored = .mk hd o st ↔ SchemaLossless (.mk hd o st) ∧
        (∀ l, o = some l → ∀ c ∈ l, c.stored = c) ∧ (∀ t, st = some t → ∀ c ∈ t.children, c.stored = c) := by
      rw [stored_eq, lossless_iff]
      simp only [Schema.head, Schema.oneOf, Schema.subtype, Schema.mk.injEq, Option.map_map,
        optMap_eq_self, map_eq_self, Function.comp, subtype_eq_self]
      have hh : ({ hd with constant := dropNull hd.constant, default := dropNull hd.default } = hd) ↔
          hd.constant ≠ some .null ∧ hd.default ≠ some .null := by
        rw [← dropNull_eq_self, ← dropNull_eq_self]
        cases hd
        simp
      rw [hh]
      constructor
      · rintro ⟨⟨a, b⟩, c, d⟩
        exact ⟨⟨a, b, fun n hn => (d _ hn).1 n rfl⟩, c, fun t ht => (d t ht).2⟩
      · rintro ⟨⟨a, b, n⟩, c, d⟩
        exact ⟨⟨a, b⟩, c, fun t ht => ⟨fun m hm => n m (by rw [ht, hm]), d t ht⟩⟩
    rw [e]
    constructor
    · rintro ⟨h0, h1, h2⟩ x hx
      rcases within_iff.1 hx with rfl | ⟨l, hl, c, hc, hx⟩ | ⟨t, ht, c, hc, hx⟩
      · exact h0
      · exact (ih1 l hl c hc).1 (h1 l hl c hc) x hx
      · exact (ih2 t ht c hc).1 (h2 t ht c hc) x hx
    · intro h
      exact ⟨h _ (.self _),
        fun l hl c hc => (ih1 l hl c hc).2 fun x hx => h x (within_iff.2 (.inr (.inl ⟨l, hl, c, hc, hx⟩))),
        fun t ht c hc => (ih2 t ht c hc).2 fun x hx => h x (within_iff.2 (.inr (.inr ⟨t, ht, c, hc, hx⟩)))⟩

theorem formOps_eq_self {o : FormOps} : o.stored = o ↔ o ≠ .custom [] := by
  unfold FormOps.stored; split <;> simp_all

theorem form_eq_self {f : Form X} : f.stored = f ↔ f.op ≠ .custom [] := by
  rw [← formOps_eq_self]
  cases f
  simp [Form.stored]

theorem schemas_eq_self {o : Option (HMap (DS X))} : o.map (HMap.mapVals Schema.stored) = o ↔
    ∀ m, o = some m → ∀ kv ∈ m, kv.2.stored = kv.2 := by
  simp only [optMap_eq_self, mapVals_eq_self]

theorem interaction_eq_self {i : Interaction X} : i.stored = i ↔ (∀ f ∈ i.forms, f.stored = f) ∧
    ∀ m, i.uriVariables = some m → ∀ kv ∈ m, kv.2.stored = kv.2 := by
  rw [← schemas_eq_self, ← map_eq_self]
  cases i
  simp [Interaction.stored]

theorem action_eq_self {a : ActionAffordance X} : a.stored = a ↔ a.interaction.stored = a.interaction ∧
    (∀ s, a.input = some s → s.stored = s) ∧ (∀ s, a.output = some s → s.stored = s) := by
  rw [← optMap_eq_self, ← optMap_eq_self]
  cases a
  simp [ActionAffordance.stored]

theorem event_eq_self {e : EventAffordance X} : e.stored = e ↔ e.interaction.stored = e.interaction ∧
    (∀ s, e.subscription = some s → s.stored = s) ∧ (∀ s, e.data = some s → s.stored = s) ∧
    (∀ s, e.dataResponse = some s → s.stored = s) ∧ (∀ s, e.cancellation = some s → s.stored = s) := by
  rw [← optMap_eq_self, ← optMap_eq_self, ← optMap_eq_self, ← optMap_eq_self]
  cases e
  simp [EventAffordance.stored]

theorem or_eq_both {α : Type} {a b : Option α} : (a.or b = b ∧ a.or b = a) ↔ b = a := by
  cases a <;> cases b <;> simp [eq_comm]

theorem merged_eq_self {p : PropertyAffordance X} : p.merged = p ↔ p.Agrees := by
  constructor
  · intro h
    have hi : p.interaction.withInfo p.info = p.interaction := congrArg PropertyAffordance.interaction h
    have hs : p.dataSchema.withInfo p.info = p.dataSchema := congrArg PropertyAffordance.dataSchema h
    have hs' : (p.dataSchema.withInfo p.info).head = p.dataSchema.head := congrArg Schema.head hs
    exact ⟨or_eq_both.1 ⟨congrArg Interaction.attype hi, congrArg SchemaHead.attype hs'⟩,
      or_eq_both.1 ⟨congrArg Interaction.title hi, congrArg SchemaHead.title hs'⟩,
      or_eq_both.1 ⟨congrArg Interaction.titles hi, congrArg SchemaHead.titles hs'⟩,
      or_eq_both.1 ⟨congrArg Interaction.description hi, congrArg SchemaHead.description hs'⟩,
      or_eq_both.1 ⟨congrArg Interaction.descriptions hi, congrArg SchemaHead.descriptions hs'⟩⟩
  · intro h
    obtain ⟨i, s, ob, ot⟩ := p
    obtain ⟨a, ti, tis, d, ds, fo, ur, io⟩ := i
    obtain ⟨hd, o, st⟩ := s
    obtain ⟨h1, h2, h3, h4, h5⟩ := h
    simp only [Schema.head] at h1 h2 h3 h4 h5
    subst h1 h2 h3 h4 h5
    simp [PropertyAffordance.merged, PropertyAffordance.info, Interaction.withInfo, Schema.withInfo,
      Schema.head, Schema.oneOf, Schema.subtype]

theorem withInfo_stored {s : DS X} {n : Info} : (s.withInfo n).stored = s.stored.withInfo n := by
  rw [stored_eq, stored_eq s]; rfl

theorem property_eq_self {p : PropertyAffordance X} : p.stored = p ↔ p.Agrees ∧
    p.interaction.stored = p.interaction ∧ p.dataSchema.stored = p.dataSchema := by
  constructor
  · intro h
    have hi : (p.interaction.withInfo p.info).stored = p.interaction := congrArg PropertyAffordance.interaction h
    have hs : (p.dataSchema.withInfo p.info).stored = p.dataSchema := congrArg PropertyAffordance.dataSchema h
    have hs' : (p.dataSchema.withInfo p.info).stored.head = p.dataSchema.head := congrArg Schema.head hs
    rw [withInfo_stored] at hs'
    have ha : p.Agrees :=
      ⟨or_eq_both.1 ⟨congrArg Interaction.attype hi, congrArg SchemaHead.attype hs'⟩,
      or_eq_both.1 ⟨congrArg Interaction.title hi, congrArg SchemaHead.title hs'⟩,
      or_eq_both.1 ⟨congrArg Interaction.titles hi, congrArg SchemaHead.titles hs'⟩,
      or_eq_both.1 ⟨congrArg Interaction.description hi, congrArg SchemaHead.description hs'⟩,
      or_eq_both.1 ⟨congrArg Interaction.descriptions hi, congrArg SchemaHead.descriptions hs'⟩⟩
    have hm := merged_eq_self.2 ha
    have hmi : p.interaction.withInfo p.info = p.interaction := congrArg PropertyAffordance.interaction hm
    have hms : p.dataSchema.withInfo p.info = p.dataSchema := congrArg PropertyAffordance.dataSchema hm
    rw [hmi] at hi
    rw [hms] at hs
    exact ⟨ha, hi, hs⟩
  · rintro ⟨ha, hi, hs⟩
    rw [PropertyAffordance.stored, merged_eq_self.2 ha, hi, hs]

theorem security_eq_self {s : SecurityScheme} : s.stored = s ↔ ∀ scheme, s.subtype ≠ .unknown scheme .null := by
  have h : s.stored = s ↔ s.subtype.stored = s.subtype := by
    cases s; simp [SecurityScheme.stored]
  rw [h]
  unfold SchemeSubtype.stored
  split <;> simp_all

/-- What is left of a Thing is all of it just when nothing is lost. -/
theorem thing_eq_self {t : Thing X} : t.stored = t ↔ t.Lossless := by
  have h : t.stored = t ↔
      (∀ m, t.properties = some m → ∀ kv ∈ m, kv.2.stored = kv.2) ∧
      (∀ m, t.actions = some m → ∀ kv ∈ m, kv.2.stored = kv.2) ∧
      (∀ m, t.events = some m → ∀ kv ∈ m, kv.2.stored = kv.2) ∧
      (∀ l, t.forms = some l → ∀ f ∈ l, f.stored = f) ∧
      (∀ kv ∈ t.securityDefinitions, kv.2.stored = kv.2) ∧
      (∀ m, t.uriVariables = some m → ∀ kv ∈ m, kv.2.stored = kv.2) ∧
      (∀ m, t.schemaDefinitions = some m → ∀ kv ∈ m, kv.2.stored = kv.2) := by
    simp only [← optMap_eq_self, ← mapVals_eq_self, ← map_eq_self]
    cases t
    simp [Thing.stored]
  rw [h]
  simp only [property_eq_self, action_eq_self, event_eq_self, interaction_eq_self, form_eq_self,
    security_eq_self, schema_eq_self]
  constructor
  · rintro ⟨hp, ha, he, hf, hs, hu, hd⟩
    refine ⟨?_, ?_, fun m hm kv hkv => (hp m hm kv hkv).1, hs⟩
    · intro p s x h hx
      cases h with
      | property h1 h2 => exact (hp _ h1 _ h2).2.2 x hx
      | input h1 h2 h3 => exact (ha _ h1 _ h2).2.1 _ h3 x hx
      | output h1 h2 h3 => exact (ha _ h1 _ h2).2.2 _ h3 x hx
      | subscription h1 h2 h3 => exact (he _ h1 _ h2).2.1 _ h3 x hx
      | data h1 h2 h3 => exact (he _ h1 _ h2).2.2.1 _ h3 x hx
      | dataResponse h1 h2 h3 => exact (he _ h1 _ h2).2.2.2.1 _ h3 x hx
      | cancellation h1 h2 h3 => exact (he _ h1 _ h2).2.2.2.2 _ h3 x hx
      | uriVariable h1 h2 => exact hu _ h1 _ h2 x hx
      | propertyUriVariable h1 h2 h3 h4 => exact (hp _ h1 _ h2).2.1.2 _ h3 _ h4 x hx
      | actionUriVariable h1 h2 h3 h4 => exact (ha _ h1 _ h2).1.2 _ h3 _ h4 x hx
      | eventUriVariable h1 h2 h3 h4 => exact (he _ h1 _ h2).1.2 _ h3 _ h4 x hx
      | schemaDefinition h1 h2 => exact hd _ h1 _ h2 x hx
    · intro ctx f h
      cases h with
      | thing h1 h2 => exact hf _ h1 _ h2
      | property h1 h2 h3 => exact (hp _ h1 _ h2).2.1.1 _ h3
      | action h1 h2 h3 => exact (ha _ h1 _ h2).1.1 _ h3
      | event h1 h2 h3 => exact (he _ h1 _ h2).1.1 _ h3
  · rintro ⟨hs, hf, hp, hsec⟩
    exact ⟨fun m hm kv hkv => ⟨hp m hm kv hkv,
        ⟨fun f h => hf _ f (.property hm hkv h), fun u hu kv' h x => hs _ _ x (.propertyUriVariable hm hkv hu h)⟩,
        fun x => hs _ _ x (.property hm hkv)⟩,
      fun m hm kv hkv => ⟨⟨fun f h => hf _ f (.action hm hkv h),
        fun u hu kv' h x => hs _ _ x (.actionUriVariable hm hkv hu h)⟩,
        fun s h x => hs _ _ x (.input hm hkv h), fun s h x => hs _ _ x (.output hm hkv h)⟩,
      fun m hm kv hkv => ⟨⟨fun f h => hf _ f (.event hm hkv h),
        fun u hu kv' h x => hs _ _ x (.eventUriVariable hm hkv hu h)⟩,
        fun s h x => hs _ _ x (.subscription hm hkv h), fun s h x => hs _ _ x (.data hm hkv h),
        fun s h x => hs _ _ x (.dataResponse hm hkv h), fun s h x => hs _ _ x (.cancellation hm hkv h)⟩,
      fun l hl f h => hf _ f (.thing hl h), hsec,
      fun m hm kv hkv x => hs _ _ x (.uriVariable hm hkv),
      fun m hm kv hkv x => hs _ _ x (.schemaDefinition hm hkv)⟩

/-- A Thing of which nothing is lost is read back from what it is written as. -/
theorem thing_rt {C : ExtCodecs X} {env : SerdeEnv} {t : Thing X} {j : Json} (sep : C.Separate)
    (hst : Storable env C t) (hw : serThing C env t = some j) : RT j (deThing C env) t := by
  have := thing_stored sep hst.kept hw
  rwa [thing_eq_self.2 hst.lossless] at this

end Wot
