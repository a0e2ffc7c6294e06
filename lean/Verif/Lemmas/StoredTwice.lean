import Verif.Lemmas.Stored
import Verif.Spec.Reread
/-
What is lost is lost the first time.
-/
namespace Wot

variable {X : ExtTypes} {L DSx AS OS : Type}

theorem dropNull_again (o : Option Json) : dropNull (dropNull o) = dropNull o := by
  rw [dropNull_eq_self]
  intro h
  unfold dropNull at h
  split at h
  · cases h
  · rename_i h'; exact h' h

theorem filter_again {α : Type} (p : α → Bool) (o : Option α) : (o.filter p).filter p = o.filter p := by
  rw [filter_eq_self]
  intro a ha
  cases o with
  | none => cases ha
  | some b => simp only [Option.filter] at ha; split at ha <;> simp_all

theorem schema_again (s : Schema L DSx AS OS) : s.stored.stored = s.stored := by
  induction s using Schema.ind with
  | h hd o st ih1 ih2 =>
    rw [stored_eq (Schema.mk hd o st), stored_eq]
    simp only [Schema.head, Schema.oneOf, Schema.subtype, Option.map_map, dropNull_again, Schema.mk.injEq,
      true_and]
    constructor
    · cases o with
      | none => rfl
      | some l =>
        simp only [Option.map_some, Function.comp, List.map_map, Option.some.injEq]
        exact List.map_congr_left fun c hc => ih1 l rfl c hc
    · cases st with
      | none => rfl
      | some t =>
        have := ih2 t rfl
        simp only [Option.map_some, Function.comp, Option.some.injEq]
        cases t with
        | array a =>
          obtain ⟨i, mi, ma, ot⟩ := a
          cases i with
          | none => rfl
          | some i =>
            cases i with
            | elem c =>
              simpa [SubtypeF.map, SubtypeF.stored, ElemOrVec.map, SubtypeF.children,
                ElemOrVec.toList] using this
            | vec l =>
              simpa [SubtypeF.map, SubtypeF.stored, ElemOrVec.map, SubtypeF.children,
                ElemOrVec.toList] using this
        | object a =>
          obtain ⟨i, mi, ot⟩ := a
          cases i with
          | none => rfl
          | some i =>
            simp [SubtypeF.map, SubtypeF.stored, HMap.mapVals, HMap.values, SubtypeF.children] at this ⊢
            exact fun a b h => this b a h
        | number n => simp [SubtypeF.map, SubtypeF.stored, NumberSchema.stored]
        | _ => rfl

theorem form_again (f : Form X) : f.stored.stored = f.stored := by
  rw [form_eq_self]
  show f.op.stored ≠ _
  unfold FormOps.stored
  split <;> simp_all

theorem mapVals_again {α : Type} {f : α → α} (hf : ∀ a, f (f a) = f a) (m : HMap α) :
    HMap.mapVals f (HMap.mapVals f m) = HMap.mapVals f m := by
  simp [HMap.mapVals, hf]

theorem optMapVals_again {α : Type} {f : α → α} (hf : ∀ a, f (f a) = f a) (o : Option (HMap α)) :
    (o.map (HMap.mapVals f)).map (HMap.mapVals f) = o.map (HMap.mapVals f) := by
  cases o <;> simp [mapVals_again hf]

theorem optMap_again {α : Type} {f : α → α} (hf : ∀ a, f (f a) = f a) (o : Option α) :
    (o.map f).map f = o.map f := by
  cases o <;> simp [hf]

theorem listMap_again {α : Type} {f : α → α} (hf : ∀ a, f (f a) = f a) (l : List α) :
    (l.map f).map f = l.map f := by
  simp [hf]

theorem interaction_again (i : Interaction X) : i.stored.stored = i.stored := by
  simp only [Interaction.stored, listMap_again form_again, optMapVals_again schema_again]

theorem property_again (p : PropertyAffordance X) : p.stored.stored = p.stored := by
  rw [property_eq_self]
  have e : p.stored.dataSchema = p.dataSchema.stored.withInfo p.info := withInfo_stored
  refine ⟨?_, interaction_again _, schema_again _⟩
  constructor <;> (rw [e]; rfl)

theorem action_again (a : ActionAffordance X) : a.stored.stored = a.stored := by
  simp only [ActionAffordance.stored, interaction_again, optMap_again schema_again]

theorem event_again (a : EventAffordance X) : a.stored.stored = a.stored := by
  simp only [EventAffordance.stored, interaction_again, optMap_again schema_again]

theorem security_again (s : SecurityScheme) : s.stored.stored = s.stored := by
  rw [security_eq_self]
  intro scheme
  show s.subtype.stored ≠ _
  unfold SchemeSubtype.stored
  split
  · simp
  · rename_i h; exact h scheme

/-- What is left of a Thing is left of it as often as it is stored. -/
theorem thing_stored_again (t : Thing X) : t.stored.stored = t.stored := by
  simp only [Thing.stored, optMapVals_again property_again, optMapVals_again action_again,
    optMapVals_again event_again, optMapVals_again schema_again, mapVals_again security_again,
    optMap_again (listMap_again form_again)]

/-! ### Parts of what is left -/

theorem within_stored {x s : Schema L DSx AS OS} (h : Within x s.stored) :
    ∃ y, Within y s ∧ x = y.stored := by
  induction s using Schema.ind with
  | h hd o st ih1 ih2 =>
    rcases within_iff.1 h with rfl | ⟨l, hl, c, hc, hx⟩ | ⟨t, ht, c, hc, hx⟩
    · exact ⟨_, .self _, rfl⟩
    · rw [stored_eq] at hl
      obtain ⟨l', hl', rfl⟩ := Option.map_eq_some_iff.1 hl
      obtain ⟨c', hc', rfl⟩ := List.mem_map.1 hc
      obtain ⟨y, hy, e⟩ := ih1 l' hl' c' hc' hx
      exact ⟨y, within_iff.2 (.inr (.inl ⟨l', hl', c', hc', hy⟩)), e⟩
    · rw [stored_eq] at ht
      obtain ⟨t', ht', rfl⟩ := Option.map_eq_some_iff.1 ht
      obtain ⟨t', hst, rfl⟩ := Option.map_eq_some_iff.1 ht'
      have : ∃ c' ∈ t'.children, c = c'.stored := by
        cases t' with
        | array a =>
          obtain ⟨i, mi, ma, ot⟩ := a
          cases i with
          | none => cases hc
          | some i =>
            cases i <;>
              simp [SubtypeF.map, SubtypeF.stored, ElemOrVec.map, SubtypeF.children,
                ElemOrVec.toList] at hc ⊢
            · exact hc
            · obtain ⟨a, h1, h2⟩ := hc; exact ⟨a, h1, h2.symm⟩
        | object a =>
          obtain ⟨i, mi, ot⟩ := a
          cases i with
          | none => cases hc
          | some i =>
            simp [SubtypeF.map, SubtypeF.stored, HMap.mapVals, HMap.values, SubtypeF.children] at hc ⊢
            obtain ⟨k, c', h1, h2⟩ := hc
            exact ⟨c', ⟨k, h1⟩, h2.symm⟩
        | _ => cases hc
      obtain ⟨c', hc', rfl⟩ := this
      obtain ⟨y, hy, e⟩ := ih2 t' hst c' hc' hx
      exact ⟨y, within_iff.2 (.inr (.inr ⟨t', hst, c', hc', hy⟩)), e⟩

variable {t : Thing X}

theorem mem_optMapVals {α β : Type} {f : α → β} {o : Option (HMap α)} {m : HMap β}
    (h : o.map (HMap.mapVals f) = some m) {k : String} {b : β} (hb : (k, b) ∈ m) :
    ∃ m' a, o = some m' ∧ (k, a) ∈ m' ∧ b = f a := by
  obtain ⟨m', hm', rfl⟩ := Option.map_eq_some_iff.1 h
  obtain ⟨a, ha, e⟩ := mem_mapVals.1 hb
  exact ⟨m', a, hm', ha, e⟩

theorem hasForm_stored {ctx : FormContext} {f : Form X} (h : t.stored.HasForm ctx f) :
    ∃ g, t.HasForm ctx g ∧ f = g.stored := by
  cases h with
  | thing h1 h2 =>
    obtain ⟨l, hl, rfl⟩ := Option.map_eq_some_iff.1 h1
    obtain ⟨g, hg, rfl⟩ := List.mem_map.1 h2
    exact ⟨g, .thing hl hg, rfl⟩
  | property h1 h2 h3 =>
    obtain ⟨m, p, hm, hp, rfl⟩ := mem_optMapVals h1 h2
    obtain ⟨g, hg, rfl⟩ := List.mem_map.1 h3
    exact ⟨g, .property hm hp hg, rfl⟩
  | action h1 h2 h3 =>
    obtain ⟨m, p, hm, hp, rfl⟩ := mem_optMapVals h1 h2
    obtain ⟨g, hg, rfl⟩ := List.mem_map.1 h3
    exact ⟨g, .action hm hp hg, rfl⟩
  | event h1 h2 h3 =>
    obtain ⟨m, p, hm, hp, rfl⟩ := mem_optMapVals h1 h2
    obtain ⟨g, hg, rfl⟩ := List.mem_map.1 h3
    exact ⟨g, .event hm hp hg, rfl⟩

theorem hasInteraction_stored {i : Interaction X} (h : t.stored.HasInteraction i) :
    ∃ j, t.HasInteraction j ∧ i.other = j.other := by
  cases h with
  | property h1 h2 =>
    obtain ⟨m, p, hm, hp, rfl⟩ := mem_optMapVals h1 h2
    exact ⟨_, .property hm hp, rfl⟩
  | action h1 h2 =>
    obtain ⟨m, p, hm, hp, rfl⟩ := mem_optMapVals h1 h2
    exact ⟨_, .action hm hp, rfl⟩
  | event h1 h2 =>
    obtain ⟨m, p, hm, hp, rfl⟩ := mem_optMapVals h1 h2
    exact ⟨_, .event hm hp, rfl⟩

theorem hasSchema_stored {p : Position} {s : DS X} (h : t.stored.HasSchema p s) :
    ∃ s', t.HasSchema p s' ∧ (s = s'.stored ∨ ∃ n, s = s'.stored.withInfo n) := by
  cases h with
  | property h1 h2 =>
    obtain ⟨m, a, hm, ha, rfl⟩ := mem_optMapVals h1 h2
    exact ⟨_, .property hm ha, .inr ⟨_, withInfo_stored⟩⟩
  | input h1 h2 h3 =>
    obtain ⟨m, a, hm, ha, rfl⟩ := mem_optMapVals h1 h2
    obtain ⟨s', hs', rfl⟩ := Option.map_eq_some_iff.1 h3
    exact ⟨s', .input hm ha hs', .inl rfl⟩
  | output h1 h2 h3 =>
    obtain ⟨m, a, hm, ha, rfl⟩ := mem_optMapVals h1 h2
    obtain ⟨s', hs', rfl⟩ := Option.map_eq_some_iff.1 h3
    exact ⟨s', .output hm ha hs', .inl rfl⟩
  | subscription h1 h2 h3 =>
    obtain ⟨m, a, hm, ha, rfl⟩ := mem_optMapVals h1 h2
    obtain ⟨s', hs', rfl⟩ := Option.map_eq_some_iff.1 h3
    exact ⟨s', .subscription hm ha hs', .inl rfl⟩
  | data h1 h2 h3 =>
    obtain ⟨m, a, hm, ha, rfl⟩ := mem_optMapVals h1 h2
    obtain ⟨s', hs', rfl⟩ := Option.map_eq_some_iff.1 h3
    exact ⟨s', .data hm ha hs', .inl rfl⟩
  | cancellation h1 h2 h3 =>
    obtain ⟨m, a, hm, ha, rfl⟩ := mem_optMapVals h1 h2
    obtain ⟨s', hs', rfl⟩ := Option.map_eq_some_iff.1 h3
    exact ⟨s', .cancellation hm ha hs', .inl rfl⟩
  | dataResponse h1 h2 h3 =>
    obtain ⟨m, a, hm, ha, rfl⟩ := mem_optMapVals h1 h2
    obtain ⟨s', hs', rfl⟩ := Option.map_eq_some_iff.1 h3
    exact ⟨s', .dataResponse hm ha hs', .inl rfl⟩
  | uriVariable h1 h2 =>
    obtain ⟨m, a, hm, ha, rfl⟩ := mem_optMapVals h1 h2
    exact ⟨a, .uriVariable hm ha, .inl rfl⟩
  | schemaDefinition h1 h2 =>
    obtain ⟨m, a, hm, ha, rfl⟩ := mem_optMapVals h1 h2
    exact ⟨a, .schemaDefinition hm ha, .inl rfl⟩
  | propertyUriVariable h1 h2 h3 h4 =>
    obtain ⟨m, a, hm, ha, rfl⟩ := mem_optMapVals h1 h2
    obtain ⟨u, b, hu, hb, rfl⟩ := mem_optMapVals h3 h4
    exact ⟨b, .propertyUriVariable hm ha hu hb, .inl rfl⟩
  | actionUriVariable h1 h2 h3 h4 =>
    obtain ⟨m, a, hm, ha, rfl⟩ := mem_optMapVals h1 h2
    obtain ⟨u, b, hu, hb, rfl⟩ := mem_optMapVals h3 h4
    exact ⟨b, .actionUriVariable hm ha hu hb, .inl rfl⟩
  | eventUriVariable h1 h2 h3 h4 =>
    obtain ⟨m, a, hm, ha, rfl⟩ := mem_optMapVals h1 h2
    obtain ⟨u, b, hu, hb, rfl⟩ := mem_optMapVals h3 h4
    exact ⟨b, .eventUriVariable hm ha hu hb, .inl rfl⟩

theorem array_stored {x : DS X} {a : ArrayF X.arraySchema (DS X)} (h : x.stored.subtype = some (.array a)) :
    ∃ b, x.subtype = some (.array b) ∧ a.other = b.other := by
  rw [stored_eq] at h
  obtain ⟨st, h, e⟩ := Option.map_eq_some_iff.1 h
  obtain ⟨st, h', rfl⟩ := Option.map_eq_some_iff.1 h
  cases st <;> cases e
  exact ⟨_, h', rfl⟩

theorem object_stored {x : DS X} {a : ObjectF X.objectSchema (DS X)} (h : x.stored.subtype = some (.object a)) :
    ∃ b, x.subtype = some (.object b) ∧ a.other = b.other := by
  rw [stored_eq] at h
  obtain ⟨st, h, e⟩ := Option.map_eq_some_iff.1 h
  obtain ⟨st, h', rfl⟩ := Option.map_eq_some_iff.1 h
  cases st <;> cases e
  exact ⟨_, h', rfl⟩

/-- The values of extension types in a Thing are still kept in what is left of it. -/
theorem ExtensionsKept.stored {C : ExtCodecs X} (h : ExtensionsKept C t) : ExtensionsKept C t.stored where
  schemas p s x hp hx := by
    obtain ⟨s', hs', e⟩ := hasSchema_stored hp
    have main : ∀ x, Within x s'.stored → C.dataSchema.Keeps x.head.other ∧
        (∀ a, x.subtype = some (.array a) → C.arraySchema.Keeps a.other) ∧
        (∀ o, x.subtype = some (.object o) → C.objectSchema.Keeps o.other) := by
      intro x hx
      obtain ⟨y, hy, rfl⟩ := within_stored hx
      obtain ⟨h1, h2, h3⟩ := h.schemas p s' y hs' hy
      refine ⟨by rw [stored_eq]; exact h1, fun a ha => ?_, fun a ha => ?_⟩
      · obtain ⟨b, hb, e⟩ := array_stored ha
        rw [e]; exact h2 b hb
      · obtain ⟨b, hb, e⟩ := object_stored ha
        rw [e]; exact h3 b hb
    rcases e with rfl | ⟨n, rfl⟩
    · exact main x hx
    · rcases within_withInfo hx with rfl | hx
      · exact main s'.stored (.self _)
      · exact main x hx
  forms ctx f hf := by
    obtain ⟨g, hg, rfl⟩ := hasForm_stored hf
    exact h.forms ctx g hg
  interactions i hi := by
    obtain ⟨j, hj, e⟩ := hasInteraction_stored hi
    rw [e]; exact h.interactions j hj
  properties m hm kv hkv := by
    obtain ⟨m', a, hm', ha, e⟩ := mem_optMapVals hm (k := kv.1) (b := kv.2) hkv
    rw [e]; exact h.properties m' hm' (kv.1, a) ha
  actions m hm kv hkv := by
    obtain ⟨m', a, hm', ha, e⟩ := mem_optMapVals hm (k := kv.1) (b := kv.2) hkv
    rw [e]; exact h.actions m' hm' (kv.1, a) ha
  events m hm kv hkv := by
    obtain ⟨m', a, hm', ha, e⟩ := mem_optMapVals hm (k := kv.1) (b := kv.2) hkv
    rw [e]; exact h.events m' hm' (kv.1, a) ha
  other := h.other

end Wot
