import Verif.Lemmas.BuildableStored
import Verif.Lemmas.Readers
import Verif.Spec.Offers
import Verif.Spec.Values
/-
What is said of a Thing, other than by its extension values, does not depend on these.
-/
namespace Wot
namespace Blind

variable {X Y : ExtTypes} {L D A O D' A' O' : Type} {f : D → D'} {g : A → A'} {h : O → O'}

section Schemas
variable {x s c : Schema L D A O}

theorem ext_head : (s.withExt f g h).head = s.head.withExt f := by
  obtain ⟨hd, o, st⟩ := s; rw [Reader.withExt_mk]; rfl

theorem ext_oneOf : (s.withExt f g h).oneOf = s.oneOf.map (List.map (Schema.withExt f g h)) := by
  obtain ⟨hd, o, st⟩ := s; rw [Reader.withExt_mk]; rfl

theorem ext_subtype : (s.withExt f g h).subtype =
    s.subtype.map fun st => (st.map (Schema.withExt f g h)).withExt g h := by
  obtain ⟨hd, o, st⟩ := s; rw [Reader.withExt_mk]
  show Option.map _ (Option.map _ _) = _
  rw [Option.map_map]; rfl

theorem children_ext {S : Type} (st : SubtypeF A O S) : (st.withExt g h).children = st.children := by
  cases st <;> rfl

theorem within_ext_of (hx : Within x s) : Within (x.withExt f g h) (s.withExt f g h) := by
  induction s using Schema.ind generalizing x with
  | h hd o st ih1 ih2 =>
    rcases within_iff.1 hx with rfl | ⟨l, hl, c, hc, hx⟩ | ⟨t, ht, c, hc, hx⟩
    · exact .self _
    · refine within_iff.2 (.inr (.inl ⟨l.map _, ?_, c.withExt f g h, List.mem_map_of_mem hc, ih1 l hl c hc hx⟩))
      rw [ext_oneOf, hl]; rfl
    · refine within_iff.2 (.inr (.inr ⟨(t.map (Schema.withExt f g h)).withExt g h, ?_, c.withExt f g h, ?_, ih2 t ht c hc hx⟩))
      · rw [ext_subtype, ht]; rfl
      · rw [children_ext, children_map]; exact List.mem_map_of_mem hc

theorem within_ext {y : Schema L D' A' O'} (hy : Within y (s.withExt f g h)) :
    ∃ x, Within x s ∧ y = x.withExt f g h := by
  induction s using Schema.ind generalizing y with
  | h hd o st ih1 ih2 =>
    rcases within_iff.1 hy with rfl | ⟨l, hl, c, hc, hx⟩ | ⟨t, ht, c, hc, hx⟩
    · exact ⟨_, .self _, rfl⟩
    · rw [ext_oneOf] at hl
      obtain ⟨l', hl', rfl⟩ := Option.map_eq_some_iff.1 hl
      obtain ⟨d, hd, rfl⟩ := List.mem_map.1 hc
      obtain ⟨x, h1, h2⟩ := ih1 l' hl' d hd hx
      exact ⟨x, within_iff.2 (.inr (.inl ⟨l', hl', d, hd, h1⟩)), h2⟩
    · rw [ext_subtype] at ht
      obtain ⟨t', ht', rfl⟩ := Option.map_eq_some_iff.1 ht
      rw [children_ext, children_map] at hc
      obtain ⟨d, hd, rfl⟩ := List.mem_map.1 hc
      obtain ⟨x, h1, h2⟩ := ih2 t' ht' d hd hx
      exact ⟨x, within_iff.2 (.inr (.inr ⟨t', ht', d, hd, h1⟩)), h2⟩

theorem child_ext {c : Schema L D' A' O'} (hc : Child c (s.withExt f g h)) : ∃ d, Child d s ∧ c = d.withExt f g h := by
  rcases child_iff.1 hc with ⟨l, h1, h2⟩ | ⟨st, h1, h2⟩
  · rw [ext_oneOf] at h1
    obtain ⟨l', hl, rfl⟩ := Option.map_eq_some_iff.1 h1
    obtain ⟨d, hd, rfl⟩ := List.mem_map.1 h2
    exact ⟨d, child_oneOf hl hd, rfl⟩
  · rw [ext_subtype] at h1
    obtain ⟨st', hst, rfl⟩ := Option.map_eq_some_iff.1 h1
    rw [children_ext, children_map] at h2
    obtain ⟨d, hd, rfl⟩ := List.mem_map.1 h2
    exact ⟨d, child_subtype hst hd, rfl⟩

theorem child_ext_of (hc : Child c s) : Child (c.withExt f g h) (s.withExt f g h) := by
  rcases child_iff.1 hc with ⟨l, h1, h2⟩ | ⟨st, h1, h2⟩
  · exact child_oneOf (by rw [ext_oneOf, h1]; rfl) (List.mem_map_of_mem h2)
  · refine child_subtype (st := (st.map (Schema.withExt f g h)).withExt g h) (by rw [ext_subtype, h1]; rfl) ?_
    rw [children_ext, children_map]; exact List.mem_map_of_mem h2

theorem array_ext {a : ArrayF A' (Schema L D' A' O')} : (s.withExt f g h).subtype = some (.array a) ↔
    ∃ b : ArrayF A (Schema L D A O), s.subtype = some (.array b) ∧
      a = ⟨b.items.map (ElemOrVec.map (Schema.withExt f g h)), b.minItems, b.maxItems, g b.other⟩ := by
  rw [ext_subtype, Option.map_eq_some_iff]
  constructor
  · rintro ⟨st, h', e⟩
    cases st <;> cases e
    exact ⟨_, h', rfl⟩
  · rintro ⟨b, h', rfl⟩
    exact ⟨_, h', rfl⟩

theorem object_ext {a : ObjectF O' (Schema L D' A' O')} : (s.withExt f g h).subtype = some (.object a) ↔
    ∃ b : ObjectF O (Schema L D A O), s.subtype = some (.object b) ∧
      a = ⟨b.properties.map (HMap.mapVals (Schema.withExt f g h)), b.required, h b.other⟩ := by
  rw [ext_subtype, Option.map_eq_some_iff]
  constructor
  · rintro ⟨st, h', e⟩
    cases st <;> cases e
    exact ⟨_, h', rfl⟩
  · rintro ⟨b, h', rfl⟩
    exact ⟨_, h', rfl⟩

theorem string_ext {a : StringSchema} : (s.withExt f g h).subtype = some (.string a) ↔ s.subtype = some (.string a) := by
  rw [ext_subtype, Option.map_eq_some_iff]
  constructor
  · rintro ⟨st, h', e⟩
    cases st <;> cases e
    exact h'
  · exact fun h' => ⟨_, h', rfl⟩

theorem subtype_none : (s.withExt f g h).subtype = none ↔ s.subtype = none := by
  rw [ext_subtype, Option.map_eq_none_iff]

theorem oneOf_none : (s.withExt f g h).oneOf = none ↔ s.oneOf = none := by
  rw [ext_oneOf, Option.map_eq_none_iff]

theorem open_ext : (s.withExt f g h).Open ↔ s.Open := by
  unfold Schema.Open
  rw [subtype_none, oneOf_none, ext_head]; rfl

theorem shape_ext : SchemaShape (s.withExt f g h) ↔ SchemaShape s := by
  constructor
  · intro w
    constructor
    case access => have := w.access; rw [ext_head] at this; exact this
    case required =>
      intro o r ho hr
      obtain ⟨h1, h2⟩ := w.required _ r (object_ext.2 ⟨o, ho, rfl⟩) hr
      refine ⟨h1, fun n hn => ?_⟩
      obtain ⟨m, c, hm, hc⟩ := h2 n hn
      obtain ⟨m, hm', rfl⟩ := Option.map_eq_some_iff.1 hm
      obtain ⟨c, hc', rfl⟩ := mem_mapVals.1 hc
      exact ⟨m, c, hm', hc'⟩
    case properties =>
      intro o m ho hm e
      exact w.properties _ _ (object_ext.2 ⟨o, ho, rfl⟩) (congrArg (Option.map _) hm) (by rw [e]; rfl)
    case oneOf =>
      intro l hl
      obtain ⟨h1, h2, h3, h4, h5, h6⟩ := w.oneOf _ (by rw [ext_oneOf, hl]; rfl)
      rw [ext_head] at h3 h4 h5 h6
      exact ⟨fun e => h1 (by rw [e]; rfl), subtype_none.1 h2, h3, h4, h5, h6⟩
    case enumeration =>
      intro l hl
      obtain ⟨h1, h2, h3, h4⟩ := w.enumeration l (by rw [ext_head]; exact hl)
      rw [ext_head] at h4
      exact ⟨h1, subtype_none.1 h2, oneOf_none.1 h3, h4⟩
    case constant =>
      intro l hl
      obtain ⟨h1, h2, h3, h4⟩ := w.constant l (by rw [ext_head]; exact hl)
      rw [ext_head] at h3 h4
      exact ⟨subtype_none.1 h1, oneOf_none.1 h2, h3, h4⟩
    case tuple =>
      intro a l ha hl
      exact w.tuple _ (l.map (Schema.withExt f g h)) (array_ext.2 ⟨a, ha, rfl⟩)
        (by show Option.map _ _ = _; rw [hl]; rfl)
  · intro w
    constructor
    case access => rw [ext_head]; exact w.access
    case required =>
      intro o r ho hr
      obtain ⟨o, ho', rfl⟩ := object_ext.1 ho
      obtain ⟨h1, h2⟩ := w.required o r ho' hr
      refine ⟨h1, fun n hn => ?_⟩
      obtain ⟨m, c, hm, hc⟩ := h2 n hn
      exact ⟨_, _, congrArg (Option.map _) hm, mem_mapVals.2 ⟨c, hc, rfl⟩⟩
    case properties =>
      intro o m ho hm
      obtain ⟨o, ho', rfl⟩ := object_ext.1 ho
      obtain ⟨m, hm', rfl⟩ := Option.map_eq_some_iff.1 hm
      exact fun e => w.properties o m ho' hm' (List.map_eq_nil_iff.1 e)
    case oneOf =>
      intro l hl
      rw [ext_oneOf] at hl
      obtain ⟨l, hl', rfl⟩ := Option.map_eq_some_iff.1 hl
      obtain ⟨h1, h2, h3, h4, h5, h6⟩ := w.oneOf l hl'
      rw [ext_head]
      exact ⟨fun e => h1 (List.map_eq_nil_iff.1 e), subtype_none.2 h2, h3, h4, h5, h6⟩
    case enumeration =>
      intro l hl
      rw [ext_head] at hl
      obtain ⟨h1, h2, h3, h4⟩ := w.enumeration l hl
      rw [ext_head]
      exact ⟨h1, subtype_none.2 h2, oneOf_none.2 h3, h4⟩
    case constant =>
      intro v hv
      rw [ext_head] at hv
      obtain ⟨h1, h2, h3, h4⟩ := w.constant v hv
      rw [ext_head]
      exact ⟨subtype_none.2 h1, oneOf_none.2 h2, h3, h4⟩
    case tuple =>
      intro a l ha hl
      obtain ⟨a, ha', rfl⟩ := array_ext.1 ha
      obtain ⟨i, hi, e⟩ := Option.map_eq_some_iff.1 hl
      cases i with
      | elem c => cases e
      | vec l' => exact w.tuple a l' ha' hi

theorem sorted_ext {V W : Type} {f : V → W} {m : HMap V} : HMap.Sorted (HMap.mapVals f m) ↔ HMap.Sorted m := by
  unfold HMap.Sorted HMap.mapVals
  rw [List.pairwise_map]

theorem made_ext {env : Env} {s : DataSchema D A O} : SchemaMade env (s.withExt f g h) ↔ SchemaMade env s := by
  constructor
  · intro w
    constructor
    case toSchemaShape => exact shape_ext.1 w.toSchemaShape
    case attype => have := w.attype; rw [ext_head] at this; exact this
    case titles => have := w.titles; rw [ext_head] at this; exact this
    case descriptions => have := w.descriptions; rw [ext_head] at this; exact this
    case sorted =>
      intro o m ho hm
      exact sorted_ext.1 (w.sorted _ _ (object_ext.2 ⟨o, ho, rfl⟩) (congrArg (Option.map _) hm))
    case unspecified =>
      intro ho
      have := w.unspecified (open_ext.2 ho)
      rw [ext_head] at this; exact this
  · intro w
    constructor
    case toSchemaShape => exact shape_ext.2 w.toSchemaShape
    case attype => rw [ext_head]; exact w.attype
    case titles => rw [ext_head]; exact w.titles
    case descriptions => rw [ext_head]; exact w.descriptions
    case sorted =>
      intro o m ho hm
      obtain ⟨o, ho', rfl⟩ := object_ext.1 ho
      obtain ⟨m, hm', rfl⟩ := Option.map_eq_some_iff.1 hm
      exact sorted_ext.2 (w.sorted o m ho' hm')
    case unspecified =>
      intro ho
      rw [ext_head]; exact w.unspecified (open_ext.1 ho)

theorem uninformed_ext {s : DataSchema D A O} : Uninformed (s.withExt f g h) ↔ Uninformed s := by
  unfold Uninformed
  rw [open_ext, ext_head]; exact Iff.rfl

theorem rule_ext : SchemaRule (s.withExt f g h) ↔ SchemaRule s := by
  unfold SchemaRule
  rw [ext_subtype]
  cases s.subtype with
  | none => exact Iff.rfl
  | some st => cases st <;> exact Iff.rfl

theorem allRules_ext : AllRules (s.withExt f g h) ↔ AllRules s := by
  constructor
  · exact fun w x hx => rule_ext.1 (w _ (within_ext_of hx))
  · intro w x hx
    obtain ⟨y, hy, rfl⟩ := within_ext hx
    exact rule_ext.2 (w y hy)

theorem arrayOrObject_ext : (s.withExt f g h).ArrayOrObject ↔ s.ArrayOrObject := by
  unfold Schema.ArrayOrObject
  rw [ext_subtype]
  cases s.subtype with
  | none => simp
  | some st => cases st <;> simp [SubtypeF.map, SubtypeF.withExt]

theorem sub_admits {V : ValueRules} (st : SubtypeF A O (Json → Prop)) : (st.withExt g h).Admits V = st.Admits V := by
  cases st <;> rfl

/-- What is said about one schema in `Schema.Admits`. -/
def Node (V : ValueRules) (head : SchemaHead L D) (oneOf : Option (List (Json → Prop)))
    (subtype : Option (SubtypeF A O (Json → Prop))) (v : Json) : Prop :=
  (∀ c, head.constant = some c → V.same c v) ∧
  (∀ l, head.enumeration = some l → ∃ c ∈ l, V.same c v) ∧
  (∀ f, head.format = some f → V.hasFormat f v) ∧
  (∀ l, oneOf = some l → ∃ a p b, l = a ++ p :: b ∧ p v ∧ ∀ q ∈ a ++ b, ¬ q v) ∧
  ∀ st, subtype = some st → SubtypeF.Admits V st v

theorem admits_mk {V : ValueRules} (hd : SchemaHead L D) (o : Option (List (Schema L D A O)))
    (st : Option (SubtypeF A O (Schema L D A O))) : Schema.Admits V (.mk hd o st) =
      Node V hd (o.map (List.map (Schema.Admits V))) (st.map (SubtypeF.map (Schema.Admits V))) :=
  Schema.fold_mk ..

theorem node_ext {V : ValueRules} (hd : SchemaHead L D) (o : Option (List (Json → Prop)))
    (st : Option (SubtypeF A O (Json → Prop))) : Node V (hd.withExt f) o (st.map (SubtypeF.withExt g h)) = Node V hd o st := by
  funext v
  unfold Node
  cases st with
  | none => simp only [Option.map_none]; congr 3; congr 2; simp
  | some st => simp only [Option.map_some, Option.some.injEq, forall_eq', sub_admits]; rfl

theorem admits_ext {V : ValueRules} : (s.withExt f g h).Admits V = s.Admits V := by
  induction s using Schema.ind with
  | h hd o st ih1 ih2 =>
    have e1 : (o.map (List.map (Schema.withExt f g h))).map (List.map (Schema.Admits V)) =
        o.map (List.map (Schema.Admits V)) := by
      cases o with
      | none => rfl
      | some l =>
        show some _ = some _
        rw [List.map_map]
        exact congrArg some (List.map_congr_left fun c hc => ih1 l rfl c hc)
    have e2 : ((st.map (SubtypeF.map (Schema.withExt f g h))).map (SubtypeF.withExt g h)).map
        (SubtypeF.map (Schema.Admits V)) = (st.map (SubtypeF.map (Schema.Admits V))).map (SubtypeF.withExt g h) := by
      cases st with
      | none => rfl
      | some u =>
        have ih := ih2 u rfl
        rcases u with ⟨_ | (c | l), _, _, _⟩ | _ | _ | _ | ⟨_ | m, _, _⟩ | _ | _
        all_goals try rfl
        · simp [SubtypeF.map, SubtypeF.withExt, ElemOrVec.map]
          exact ih c (by simp [SubtypeF.children, ElemOrVec.toList])
        · simp [SubtypeF.map, SubtypeF.withExt, ElemOrVec.map]
          exact fun c hc => ih c (by simpa [SubtypeF.children, ElemOrVec.toList] using hc)
        · simp [SubtypeF.map, SubtypeF.withExt, HMap.mapVals]
          exact fun k c hc => ih c (by simp [SubtypeF.children, HMap.values]; exact ⟨k, hc⟩)
    rw [Reader.withExt_mk, admits_mk, admits_mk, e1, e2, node_ext]

end Schemas

/-! ### Things -/

variable {t : Thing X} {env : Env} {e : ExtMap X Y}

theorem mem {V W : Type} {f : V → W} {m : HMap V} {k : String} {v : V} (h : (k, v) ∈ m) :
    (k, f v) ∈ HMap.mapVals f m := mem_mapVals.2 ⟨_, h, rfl⟩

theorem mapMade_ext {V W : Type} {f : V → W} {o : Option (HMap V)} : MapMade (o.map (HMap.mapVals f)) ↔ MapMade o := by
  refine ⟨fun w m hm => ?_, mapMade_mapVals⟩
  obtain ⟨h1, h2⟩ := w _ (congrArg (Option.map _) hm)
  exact ⟨fun e => h1 (by rw [e]; rfl), sorted_ext.1 h2⟩

theorem hasSchema_ext {p : Position} {s : DS Y} :
    (t.withExt e).HasSchema p s ↔ ∃ s', t.HasSchema p s' ∧ s = DS.withExt e s' := by
  constructor
  · intro h
    cases h with
    | property h1 h2 =>
      obtain ⟨m, a, hm, hp, rfl⟩ := mem_optMapVals h1 h2
      exact ⟨_, .property hm hp, rfl⟩
    | input h1 h2 h3 =>
      obtain ⟨m, a, hm, ha, rfl⟩ := mem_optMapVals h1 h2
      obtain ⟨s', hs', rfl⟩ := Option.map_eq_some_iff.1 h3
      exact ⟨s', .input hm ha hs', rfl⟩
    | output h1 h2 h3 =>
      obtain ⟨m, a, hm, ha, rfl⟩ := mem_optMapVals h1 h2
      obtain ⟨s', hs', rfl⟩ := Option.map_eq_some_iff.1 h3
      exact ⟨s', .output hm ha hs', rfl⟩
    | subscription h1 h2 h3 =>
      obtain ⟨m, a, hm, ha, rfl⟩ := mem_optMapVals h1 h2
      obtain ⟨s', hs', rfl⟩ := Option.map_eq_some_iff.1 h3
      exact ⟨s', .subscription hm ha hs', rfl⟩
    | data h1 h2 h3 =>
      obtain ⟨m, a, hm, ha, rfl⟩ := mem_optMapVals h1 h2
      obtain ⟨s', hs', rfl⟩ := Option.map_eq_some_iff.1 h3
      exact ⟨s', .data hm ha hs', rfl⟩
    | cancellation h1 h2 h3 =>
      obtain ⟨m, a, hm, ha, rfl⟩ := mem_optMapVals h1 h2
      obtain ⟨s', hs', rfl⟩ := Option.map_eq_some_iff.1 h3
      exact ⟨s', .cancellation hm ha hs', rfl⟩
    | dataResponse h1 h2 h3 =>
      obtain ⟨m, a, hm, ha, rfl⟩ := mem_optMapVals h1 h2
      obtain ⟨s', hs', rfl⟩ := Option.map_eq_some_iff.1 h3
      exact ⟨s', .dataResponse hm ha hs', rfl⟩
    | uriVariable h1 h2 =>
      obtain ⟨m, a, hm, ha, rfl⟩ := mem_optMapVals h1 h2
      exact ⟨a, .uriVariable hm ha, rfl⟩
    | schemaDefinition h1 h2 =>
      obtain ⟨m, a, hm, ha, rfl⟩ := mem_optMapVals h1 h2
      exact ⟨a, .schemaDefinition hm ha, rfl⟩
    | propertyUriVariable h1 h2 h3 h4 =>
      obtain ⟨m, a, hm, ha, rfl⟩ := mem_optMapVals h1 h2
      obtain ⟨u, b, hu, hb, rfl⟩ := mem_optMapVals h3 h4
      exact ⟨b, .propertyUriVariable hm ha hu hb, rfl⟩
    | actionUriVariable h1 h2 h3 h4 =>
      obtain ⟨m, a, hm, ha, rfl⟩ := mem_optMapVals h1 h2
      obtain ⟨u, b, hu, hb, rfl⟩ := mem_optMapVals h3 h4
      exact ⟨b, .actionUriVariable hm ha hu hb, rfl⟩
    | eventUriVariable h1 h2 h3 h4 =>
      obtain ⟨m, a, hm, ha, rfl⟩ := mem_optMapVals h1 h2
      obtain ⟨u, b, hu, hb, rfl⟩ := mem_optMapVals h3 h4
      exact ⟨b, .eventUriVariable hm ha hu hb, rfl⟩
  · rintro ⟨s, h, rfl⟩
    cases h with
    | property h1 h2 => exact .property (congrArg (Option.map _) h1) (mem (f := PropertyAffordance.withExt e) h2)
    | input h1 h2 h3 => exact .input (congrArg (Option.map _) h1) (mem h2) (congrArg (Option.map _) h3)
    | output h1 h2 h3 => exact .output (congrArg (Option.map _) h1) (mem h2) (congrArg (Option.map _) h3)
    | subscription h1 h2 h3 => exact .subscription (congrArg (Option.map _) h1) (mem h2) (congrArg (Option.map _) h3)
    | data h1 h2 h3 => exact .data (congrArg (Option.map _) h1) (mem h2) (congrArg (Option.map _) h3)
    | cancellation h1 h2 h3 => exact .cancellation (congrArg (Option.map _) h1) (mem h2) (congrArg (Option.map _) h3)
    | dataResponse h1 h2 h3 => exact .dataResponse (congrArg (Option.map _) h1) (mem h2) (congrArg (Option.map _) h3)
    | uriVariable h1 h2 => exact .uriVariable (congrArg (Option.map _) h1) (mem h2)
    | schemaDefinition h1 h2 => exact .schemaDefinition (congrArg (Option.map _) h1) (mem h2)
    | propertyUriVariable h1 h2 h3 h4 =>
      exact .propertyUriVariable (congrArg (Option.map _) h1) (mem h2) (congrArg (Option.map _) h3) (mem h4)
    | actionUriVariable h1 h2 h3 h4 =>
      exact .actionUriVariable (congrArg (Option.map _) h1) (mem h2) (congrArg (Option.map _) h3) (mem h4)
    | eventUriVariable h1 h2 h3 h4 =>
      exact .eventUriVariable (congrArg (Option.map _) h1) (mem h2) (congrArg (Option.map _) h3) (mem h4)

theorem hasForm_ext {ctx : FormContext} {x : Form Y} :
    (t.withExt e).HasForm ctx x ↔ ∃ y, t.HasForm ctx y ∧ x = y.withExt e := by
  constructor
  · intro h
    cases h with
    | thing h1 h2 =>
      obtain ⟨l, hl, rfl⟩ := Option.map_eq_some_iff.1 h1
      obtain ⟨y, hy, rfl⟩ := List.mem_map.1 h2
      exact ⟨y, .thing hl hy, rfl⟩
    | property h1 h2 h3 =>
      obtain ⟨m, a, hm, ha, rfl⟩ := mem_optMapVals h1 h2
      obtain ⟨y, hy, rfl⟩ := List.mem_map.1 h3
      exact ⟨y, .property hm ha hy, rfl⟩
    | action h1 h2 h3 =>
      obtain ⟨m, a, hm, ha, rfl⟩ := mem_optMapVals h1 h2
      obtain ⟨y, hy, rfl⟩ := List.mem_map.1 h3
      exact ⟨y, .action hm ha hy, rfl⟩
    | event h1 h2 h3 =>
      obtain ⟨m, a, hm, ha, rfl⟩ := mem_optMapVals h1 h2
      obtain ⟨y, hy, rfl⟩ := List.mem_map.1 h3
      exact ⟨y, .event hm ha hy, rfl⟩
  · rintro ⟨y, h, rfl⟩
    cases h with
    | thing h1 h2 => exact .thing (congrArg (Option.map _) h1) (List.mem_map_of_mem h2)
    | property h1 h2 h3 => exact .property (congrArg (Option.map _) h1) (mem h2) (List.mem_map_of_mem h3)
    | action h1 h2 h3 => exact .action (congrArg (Option.map _) h1) (mem h2) (List.mem_map_of_mem h3)
    | event h1 h2 h3 => exact .event (congrArg (Option.map _) h1) (mem h2) (List.mem_map_of_mem h3)

theorem hasInteraction_ext {i : Interaction Y} :
    (t.withExt e).HasInteraction i ↔ ∃ j, t.HasInteraction j ∧ i = j.withExt e := by
  constructor
  · intro h
    cases h with
    | property h1 h2 =>
      obtain ⟨m, p, hm, hp, rfl⟩ := mem_optMapVals h1 h2
      exact ⟨_, .property hm hp, rfl⟩
    | action h1 h2 =>
      obtain ⟨m, p, hm, hp, rfl⟩ := mem_optMapVals h1 h2
      exact ⟨_, .action hm hp, rfl⟩
    | event h1 h2 =>
      obtain ⟨m, p, hm, hp, rfl⟩ := mem_optMapVals h1 h2
      exact ⟨_, .event hm hp, rfl⟩
  · rintro ⟨j, h, rfl⟩
    cases h with
    | property h1 h2 => exact .property (congrArg (Option.map _) h1) (mem (f := PropertyAffordance.withExt e) h2)
    | action h1 h2 => exact .action (congrArg (Option.map _) h1) (mem (f := ActionAffordance.withExt e) h2)
    | event h1 h2 => exact .event (congrArg (Option.map _) h1) (mem (f := EventAffordance.withExt e) h2)

theorem hasTranslations_ext {m : MultiLanguage} : (t.withExt e).HasTranslations m ↔ t.HasTranslations m := by
  constructor
  · intro h
    cases h with
    | titles h => exact .titles h
    | descriptions h => exact .descriptions h
    | security h1 h2 => exact .security h1 h2
    | interactionTitles h1 h2 =>
      obtain ⟨j, hj, rfl⟩ := hasInteraction_ext.1 h1
      exact .interactionTitles hj h2
    | interactionDescriptions h1 h2 =>
      obtain ⟨j, hj, rfl⟩ := hasInteraction_ext.1 h1
      exact .interactionDescriptions hj h2
    | schemaTitles h1 h2 h3 =>
      obtain ⟨s, hs, rfl⟩ := hasSchema_ext.1 h1
      obtain ⟨y, hy, rfl⟩ := within_ext h2
      rw [ext_head] at h3
      exact .schemaTitles hs hy h3
    | schemaDescriptions h1 h2 h3 =>
      obtain ⟨s, hs, rfl⟩ := hasSchema_ext.1 h1
      obtain ⟨y, hy, rfl⟩ := within_ext h2
      rw [ext_head] at h3
      exact .schemaDescriptions hs hy h3
  · intro h
    cases h with
    | titles h => exact .titles h
    | descriptions h => exact .descriptions h
    | security h1 h2 => exact .security h1 h2
    | interactionTitles h1 h2 => exact .interactionTitles (hasInteraction_ext.2 ⟨_, h1, rfl⟩) h2
    | interactionDescriptions h1 h2 => exact .interactionDescriptions (hasInteraction_ext.2 ⟨_, h1, rfl⟩) h2
    | schemaTitles h1 h2 h3 =>
      exact .schemaTitles (hasSchema_ext.2 ⟨_, h1, rfl⟩) (within_ext_of h2) (by rw [ext_head]; exact h3)
    | schemaDescriptions h1 h2 h3 =>
      exact .schemaDescriptions (hasSchema_ext.2 ⟨_, h1, rfl⟩) (within_ext_of h2) (by rw [ext_head]; exact h3)

theorem declares_ext {n : String} : (t.withExt e).Declares n ↔ t.Declares n := by
  unfold Thing.Declares Thing.withExt
  constructor
  · rintro ⟨m, hm, hn⟩
    obtain ⟨m', hm', rfl⟩ := Option.map_eq_some_iff.1 hm
    rw [keys_mapVals] at hn
    exact ⟨m', hm', hn⟩
  · rintro ⟨m, hm, hn⟩
    exact ⟨_, congrArg (Option.map _) hm, by rw [keys_mapVals]; exact hn⟩

theorem formMade_ext {x : Form X} : FormMade (x.withExt e) ↔ FormMade x :=
  ⟨fun ⟨h1, h2, h3, h4⟩ => ⟨h1, h2, h3, h4⟩, fun ⟨h1, h2, h3, h4⟩ => ⟨h1, h2, h3, h4⟩⟩

theorem agrees_ext {p : PropertyAffordance X} : (p.withExt e).Agrees ↔ p.Agrees := by
  have hh : (p.withExt e).dataSchema.head = p.dataSchema.head.withExt e.dataSchema := ext_head
  constructor
  · rintro ⟨h1, h2, h3, h4, h5⟩
    rw [hh] at h1 h2 h3 h4 h5
    exact ⟨h1, h2, h3, h4, h5⟩
  · rintro ⟨h1, h2, h3, h4, h5⟩
    constructor <;> rw [hh] <;> assumption

theorem buildable_ext : Buildable env (t.withExt e) ↔ Buildable env t := by
  constructor
  · intro w
    constructor
    case context => exact w.context
    case attype => exact w.attype
    case profile => exact w.profile
    case links => exact w.links
    case forms => exact fun h => w.forms (congrArg (Option.map _) h)
    case properties => exact mapMade_ext.1 w.properties
    case actions => exact mapMade_ext.1 w.actions
    case events => exact mapMade_ext.1 w.events
    case uriVariables => exact mapMade_ext.1 w.uriVariables
    case schemaDefinitions => exact mapMade_ext.1 w.schemaDefinitions
    case interactions =>
      intro i hi
      obtain ⟨h1, h2⟩ := w.interactions _ (hasInteraction_ext.2 ⟨i, hi, rfl⟩)
      exact ⟨h1, mapMade_ext.1 h2⟩
    case securityDefinitions => exact w.securityDefinitions
    case translations => exact fun m hm => w.translations m (hasTranslations_ext.2 hm)
    case eachLink => exact w.eachLink
    case eachForm =>
      intro ctx x hx
      obtain ⟨h1, h2, h3⟩ := w.eachForm ctx _ (hasForm_ext.2 ⟨x, hx, rfl⟩)
      exact ⟨formMade_ext.1 h1, h2, h3⟩
    case thingForms =>
      intro x hx
      obtain ⟨h1, h2⟩ := w.thingForms _ (hasForm_ext.2 ⟨x, hx, rfl⟩)
      exact ⟨h1, fun rs hrs r hr n hn => declares_ext.1 (h2 rs hrs r hr n hn)⟩
    case security => exact w.security
    case eachScheme => exact w.eachScheme
    case eachSchema =>
      exact fun p s x hs hx => made_ext.1 (w.eachSchema p _ _ (hasSchema_ext.2 ⟨s, hs, rfl⟩) (within_ext_of hx))
    case uninformed =>
      intro p s hs
      obtain ⟨h1, h2⟩ := w.uninformed p _ (hasSchema_ext.2 ⟨s, hs, rfl⟩)
      exact ⟨fun hp => uninformed_ext.1 (h1 hp),
        fun c x hc hx => uninformed_ext.1 (h2 _ _ (child_ext_of hc) (within_ext_of hx))⟩
    case ranges => exact fun p s hp hs => allRules_ext.1 (w.ranges p _ hp (hasSchema_ext.2 ⟨s, hs, rfl⟩))
    case uriVariableTypes =>
      exact fun s hs h => w.uriVariableTypes _ (hasSchema_ext.2 ⟨s, hs, rfl⟩) (arrayOrObject_ext.2 h)
    case eachProperty =>
      intro m hm kv hkv
      obtain ⟨h1, h2⟩ := w.eachProperty _ (congrArg (Option.map _) hm) (kv.1, kv.2.withExt e) (mem hkv)
      exact ⟨agrees_ext.1 h1, fun st hst => h2 st (string_ext.2 hst)⟩
  · intro w
    constructor
    case context => exact w.context
    case attype => exact w.attype
    case profile => exact w.profile
    case links => exact w.links
    case forms =>
      intro h
      obtain ⟨l, hl, h⟩ := Option.map_eq_some_iff.1 h
      exact w.forms (hl.trans (congrArg some (List.map_eq_nil_iff.1 h)))
    case properties => exact mapMade_ext.2 w.properties
    case actions => exact mapMade_ext.2 w.actions
    case events => exact mapMade_ext.2 w.events
    case uriVariables => exact mapMade_ext.2 w.uriVariables
    case schemaDefinitions => exact mapMade_ext.2 w.schemaDefinitions
    case interactions =>
      intro i hi
      obtain ⟨j, hj, rfl⟩ := hasInteraction_ext.1 hi
      obtain ⟨h1, h2⟩ := w.interactions j hj
      exact ⟨h1, mapMade_ext.2 h2⟩
    case securityDefinitions => exact w.securityDefinitions
    case translations => exact fun m hm => w.translations m (hasTranslations_ext.1 hm)
    case eachLink => exact w.eachLink
    case eachForm =>
      intro ctx x hx
      obtain ⟨y, hy, rfl⟩ := hasForm_ext.1 hx
      obtain ⟨h1, h2, h3⟩ := w.eachForm ctx y hy
      exact ⟨formMade_ext.2 h1, h2, h3⟩
    case thingForms =>
      intro x hx
      obtain ⟨y, hy, rfl⟩ := hasForm_ext.1 hx
      obtain ⟨h1, h2⟩ := w.thingForms y hy
      exact ⟨h1, fun rs hrs r hr n hn => declares_ext.2 (h2 rs hrs r hr n hn)⟩
    case security => exact w.security
    case eachScheme => exact w.eachScheme
    case eachSchema =>
      intro p s x hs hx
      obtain ⟨s, hs', rfl⟩ := hasSchema_ext.1 hs
      obtain ⟨y, hy, rfl⟩ := within_ext hx
      exact made_ext.2 (w.eachSchema p s y hs' hy)
    case uninformed =>
      intro p s hs
      obtain ⟨s, hs', rfl⟩ := hasSchema_ext.1 hs
      obtain ⟨h1, h2⟩ := w.uninformed p s hs'
      refine ⟨fun hp => uninformed_ext.2 (h1 hp), fun c x hc hx => ?_⟩
      obtain ⟨d, hd, rfl⟩ := child_ext hc
      obtain ⟨y, hy, rfl⟩ := within_ext hx
      exact uninformed_ext.2 (h2 d y hd hy)
    case ranges =>
      intro p s hp hs
      obtain ⟨s, hs', rfl⟩ := hasSchema_ext.1 hs
      exact allRules_ext.2 (w.ranges p s hp hs')
    case uriVariableTypes =>
      intro s hs
      obtain ⟨s, hs', rfl⟩ := hasSchema_ext.1 hs
      exact fun h => w.uriVariableTypes s hs' (arrayOrObject_ext.1 h)
    case eachProperty =>
      intro m hm kv hkv
      obtain ⟨m', a, hm', hp, h⟩ := mem_optMapVals hm (k := kv.1) (b := kv.2) hkv
      obtain ⟨h1, h2⟩ := w.eachProperty m' hm' _ hp
      rw [h]
      exact ⟨agrees_ext.2 h1, fun st hst => h2 st (string_ext.1 hst)⟩

theorem get_opt {V W : Type} {f : V → W} {o : Option (HMap V)} {m : HMap W} (h : o.map (HMap.mapVals f) = some m)
    {k : String} {w : W} (hw : m.get? k = some w) : ∃ m' v, o = some m' ∧ HMap.get? m' k = some v ∧ w = f v := by
  obtain ⟨m', hm', rfl⟩ := Option.map_eq_some_iff.1 h
  rw [HMap.get?_mapVals] at hw
  obtain ⟨v, hv, rfl⟩ := Option.map_eq_some_iff.1 hw
  exact ⟨m', v, hm', hv, rfl⟩

theorem get_ext {V W : Type} {f : V → W} {m : HMap V} {k : String} {v : V} (h : m.get? k = some v) :
    HMap.get? (HMap.mapVals f m) k = some (f v) := by
  rw [HMap.get?_mapVals, h]; rfl

theorem schemaAt_ext {path : List String} {s : DS Y} :
    (t.withExt e).SchemaAt path s ↔ ∃ s', t.SchemaAt path s' ∧ s = DS.withExt e s' := by
  constructor
  · intro h
    cases h with
    | property h1 h2 =>
      obtain ⟨m, a, hm, hp, rfl⟩ := get_opt h1 h2
      exact ⟨_, .property hm hp, rfl⟩
    | input h1 h2 h3 =>
      obtain ⟨m, a, hm, ha, rfl⟩ := get_opt h1 h2
      obtain ⟨s', hs', rfl⟩ := Option.map_eq_some_iff.1 h3
      exact ⟨s', .input hm ha hs', rfl⟩
    | output h1 h2 h3 =>
      obtain ⟨m, a, hm, ha, rfl⟩ := get_opt h1 h2
      obtain ⟨s', hs', rfl⟩ := Option.map_eq_some_iff.1 h3
      exact ⟨s', .output hm ha hs', rfl⟩
    | subscription h1 h2 h3 =>
      obtain ⟨m, a, hm, ha, rfl⟩ := get_opt h1 h2
      obtain ⟨s', hs', rfl⟩ := Option.map_eq_some_iff.1 h3
      exact ⟨s', .subscription hm ha hs', rfl⟩
    | data h1 h2 h3 =>
      obtain ⟨m, a, hm, ha, rfl⟩ := get_opt h1 h2
      obtain ⟨s', hs', rfl⟩ := Option.map_eq_some_iff.1 h3
      exact ⟨s', .data hm ha hs', rfl⟩
    | cancellation h1 h2 h3 =>
      obtain ⟨m, a, hm, ha, rfl⟩ := get_opt h1 h2
      obtain ⟨s', hs', rfl⟩ := Option.map_eq_some_iff.1 h3
      exact ⟨s', .cancellation hm ha hs', rfl⟩
    | uriVariable h1 h2 =>
      obtain ⟨m, a, hm, ha, rfl⟩ := get_opt h1 h2
      exact ⟨a, .uriVariable hm ha, rfl⟩
    | schemaDefinition h1 h2 =>
      obtain ⟨m, a, hm, ha, rfl⟩ := get_opt h1 h2
      exact ⟨a, .schemaDefinition hm ha, rfl⟩
    | propertyVariable h1 h2 h3 h4 =>
      obtain ⟨m, a, hm, ha, rfl⟩ := get_opt h1 h2
      obtain ⟨u, b, hu, hb, rfl⟩ := get_opt h3 h4
      exact ⟨b, .propertyVariable hm ha hu hb, rfl⟩
    | actionVariable h1 h2 h3 h4 =>
      obtain ⟨m, a, hm, ha, rfl⟩ := get_opt h1 h2
      obtain ⟨u, b, hu, hb, rfl⟩ := get_opt h3 h4
      exact ⟨b, .actionVariable hm ha hu hb, rfl⟩
    | eventVariable h1 h2 h3 h4 =>
      obtain ⟨m, a, hm, ha, rfl⟩ := get_opt h1 h2
      obtain ⟨u, b, hu, hb, rfl⟩ := get_opt h3 h4
      exact ⟨b, .eventVariable hm ha hu hb, rfl⟩
  · rintro ⟨s, h, rfl⟩
    cases h with
    | property h1 h2 => exact .property (congrArg (Option.map _) h1) (get_ext (f := PropertyAffordance.withExt e) h2)
    | input h1 h2 h3 => exact .input (congrArg (Option.map _) h1) (get_ext h2) (congrArg (Option.map _) h3)
    | output h1 h2 h3 => exact .output (congrArg (Option.map _) h1) (get_ext h2) (congrArg (Option.map _) h3)
    | subscription h1 h2 h3 => exact .subscription (congrArg (Option.map _) h1) (get_ext h2) (congrArg (Option.map _) h3)
    | data h1 h2 h3 => exact .data (congrArg (Option.map _) h1) (get_ext h2) (congrArg (Option.map _) h3)
    | cancellation h1 h2 h3 => exact .cancellation (congrArg (Option.map _) h1) (get_ext h2) (congrArg (Option.map _) h3)
    | uriVariable h1 h2 => exact .uriVariable (congrArg (Option.map _) h1) (get_ext h2)
    | schemaDefinition h1 h2 => exact .schemaDefinition (congrArg (Option.map _) h1) (get_ext h2)
    | propertyVariable h1 h2 h3 h4 =>
      exact .propertyVariable (congrArg (Option.map _) h1) (get_ext h2) (congrArg (Option.map _) h3) (get_ext h4)
    | actionVariable h1 h2 h3 h4 =>
      exact .actionVariable (congrArg (Option.map _) h1) (get_ext h2) (congrArg (Option.map _) h3) (get_ext h4)
    | eventVariable h1 h2 h3 h4 =>
      exact .eventVariable (congrArg (Option.map _) h1) (get_ext h2) (congrArg (Option.map _) h3) (get_ext h4)

/-! ### Forms -/

theorem formAt_ext (p : Place) : (t.withExt e).formAt p = (t.formAt p).map (Form.withExt e) := by
  cases p with
  | thing i =>
    show (t.forms.map _).bind _ = (t.forms.bind _).map _
    cases t.forms with
    | none => rfl
    | some l => simp
  | property n i =>
    show (t.properties.map _).bind _ = (t.properties.bind _).map _
    cases t.properties with
    | none => rfl
    | some m =>
      simp only [Option.map_some, Option.bind_some, HMap.get?_mapVals]
      cases m.get? n <;> simp [PropertyAffordance.withExt, Interaction.withExt]
  | action n i =>
    show (t.actions.map _).bind _ = (t.actions.bind _).map _
    cases t.actions with
    | none => rfl
    | some m =>
      simp only [Option.map_some, Option.bind_some, HMap.get?_mapVals]
      cases m.get? n <;> simp [ActionAffordance.withExt, Interaction.withExt]
  | event n i =>
    show (t.events.map _).bind _ = (t.events.bind _).map _
    cases t.events with
    | none => rfl
    | some m =>
      simp only [Option.map_some, Option.bind_some, HMap.get?_mapVals]
      cases m.get? n <;> simp [EventAffordance.withExt, Interaction.withExt]

theorem opens_ext {has : String → Prop} {p : Place} : (t.withExt e).Opens has p ↔ t.Opens has p := by
  unfold Thing.Opens
  rw [formAt_ext]
  constructor
  · rintro ⟨x, hx, h⟩
    obtain ⟨y, hy, rfl⟩ := Option.map_eq_some_iff.1 hx
    exact ⟨y, hy, h⟩
  · rintro ⟨y, hy, h⟩
    exact ⟨_, congrArg (Option.map _) hy, h⟩

theorem flags_ext (p : Place) :
    (t.withExt e).readOnlyAt p = t.readOnlyAt p ∧ (t.withExt e).writeOnlyAt p = t.writeOnlyAt p := by
  cases p with
  | property n i =>
    show ((t.properties.map _).bind _).any _ = (t.properties.bind _).any _ ∧
      ((t.properties.map _).bind _).any _ = (t.properties.bind _).any _
    cases t.properties with
    | none => exact ⟨rfl, rfl⟩
    | some m =>
      simp only [Option.map_some, Option.bind_some, HMap.get?_mapVals]
      cases m.get? n with
      | none => exact ⟨rfl, rfl⟩
      | some p =>
        have hh : (p.withExt e).dataSchema.head = p.dataSchema.head.withExt e.dataSchema := ext_head
        simp only [Option.map_some, Option.any_some, hh]
        exact ⟨rfl, rfl⟩
  | _ => exact ⟨rfl, rfl⟩

theorem offers_ext {p : Place} {o : FormOperation} : (t.withExt e).Offers p o ↔ t.Offers p o := by
  unfold Thing.Offers
  rw [formAt_ext, (flags_ext p).1, (flags_ext p).2]
  constructor
  · rintro ⟨x, hx, h⟩
    obtain ⟨y, hy, rfl⟩ := Option.map_eq_some_iff.1 hx
    exact ⟨y, hy, h⟩
  · rintro ⟨y, hy, h⟩
    exact ⟨_, congrArg (Option.map _) hy, h⟩

/-! ### What is left of a Thing -/

theorem asks_stored {s : SchemeSubtype} {d : Demand} : s.stored.Asks d ↔ s.Asks d := by
  unfold SchemeSubtype.stored
  split
  · rename_i name
    have key : ∀ d, (Json.obj []).norm.Asks name d ↔ Json.null.norm.Asks name d := by
      intro d
      constructor
      · rintro (h | ⟨h1, h2, h3⟩ | ⟨h1, h2, h3⟩ | ⟨h1, h2⟩)
        · exact .nothing h
        · cases h2
        · cases h2
        · exact .credentials h1 h2
      · rintro (h | ⟨h1, h2, h3⟩ | ⟨h1, h2, h3⟩ | ⟨h1, h2⟩)
        · exact .nothing h
        · cases h2
        · cases h2
        · exact .credentials h1 h2
    constructor
    · rintro (_ | _ | _ | _ | h); exact .custom ((key _).1 h)
    · rintro (_ | _ | _ | _ | h); exact .custom ((key _).2 h)
  · exact Iff.rfl

theorem demands_stored : t.stored.Demands = t.Demands := by
  funext n d
  unfold Thing.Demands
  show (∃ s, HMap.get? (HMap.mapVals SecurityScheme.stored t.securityDefinitions) n = some s ∧ _) = _
  rw [HMap.get?_mapVals]
  apply propext
  constructor
  · rintro ⟨s, hs, h⟩
    obtain ⟨s', hs', rfl⟩ := Option.map_eq_some_iff.1 hs
    exact ⟨s', hs', asks_stored.1 h⟩
  · rintro ⟨s, hs, h⟩
    exact ⟨_, congrArg (Option.map _) hs, asks_stored.2 h⟩

theorem formAt_stored (p : Place) : t.stored.formAt p = (t.formAt p).map Form.stored := by
  cases p with
  | thing i =>
    show (t.forms.map _).bind _ = (t.forms.bind _).map _
    cases t.forms with
    | none => rfl
    | some l => simp
  | property n i =>
    show (t.properties.map _).bind _ = (t.properties.bind _).map _
    cases t.properties with
    | none => rfl
    | some m =>
      simp only [Option.map_some, Option.bind_some, HMap.get?_mapVals]
      cases m.get? n <;> simp [PropertyAffordance.stored, PropertyAffordance.merged, Interaction.withInfo, Interaction.stored]
  | action n i =>
    show (t.actions.map _).bind _ = (t.actions.bind _).map _
    cases t.actions with
    | none => rfl
    | some m =>
      simp only [Option.map_some, Option.bind_some, HMap.get?_mapVals]
      cases m.get? n <;> simp [ActionAffordance.stored, Interaction.stored]
  | event n i =>
    show (t.events.map _).bind _ = (t.events.bind _).map _
    cases t.events with
    | none => rfl
    | some m =>
      simp only [Option.map_some, Option.bind_some, HMap.get?_mapVals]
      cases m.get? n <;> simp [EventAffordance.stored, Interaction.stored]

theorem opens_stored {has : String → Prop} {p : Place} : t.stored.Opens has p ↔ t.Opens has p := by
  unfold Thing.Opens
  rw [formAt_stored, demands_stored]
  constructor
  · rintro ⟨x, hx, h⟩
    obtain ⟨y, hy, rfl⟩ := Option.map_eq_some_iff.1 hx
    exact ⟨y, hy, h⟩
  · rintro ⟨y, hy, h⟩
    exact ⟨_, congrArg (Option.map _) hy, h⟩

theorem flags_stored (p : Place) :
    t.stored.readOnlyAt p = t.readOnlyAt p ∧ t.stored.writeOnlyAt p = t.writeOnlyAt p := by
  cases p with
  | property n i =>
    show ((t.properties.map _).bind _).any _ = (t.properties.bind _).any _ ∧
      ((t.properties.map _).bind _).any _ = (t.properties.bind _).any _
    cases t.properties with
    | none => exact ⟨rfl, rfl⟩
    | some m =>
      simp only [Option.map_some, Option.bind_some, HMap.get?_mapVals]
      cases m.get? n with
      | none => exact ⟨rfl, rfl⟩
      | some p =>
        have hh : p.stored.dataSchema.head = { p.merged.dataSchema.head with
          constant := dropNull p.merged.dataSchema.head.constant, default := dropNull p.merged.dataSchema.head.default } :=
          stored_head
        simp only [Option.map_some, Option.any_some, hh]
        exact ⟨rfl, rfl⟩
  | _ => exact ⟨rfl, rfl⟩

theorem offers_stored (hf : ∀ p x, t.formAt p = some x → x.op ≠ .custom []) {p : Place} {o : FormOperation} :
    t.stored.Offers p o ↔ t.Offers p o := by
  unfold Thing.Offers
  rw [formAt_stored, (flags_stored p).1, (flags_stored p).2]
  constructor
  · rintro ⟨x, hx, h⟩
    obtain ⟨y, hy, rfl⟩ := Option.map_eq_some_iff.1 hx
    rw [form_eq_self.2 (hf p y hy)] at h
    exact ⟨y, hy, h⟩
  · rintro ⟨y, hy, h⟩
    refine ⟨y.stored, congrArg (Option.map _) hy, ?_⟩
    rw [form_eq_self.2 (hf p y hy)]
    exact h

/-! ### Changing twice -/

section
variable {Z : ExtTypes} {f' : ExtMap Y Z} {f : ExtMap X Y}

theorem schema_comp {D₁ D₂ D₃ A₁ A₂ A₃ O₁ O₂ O₃ : Type} {f₁ : D₁ → D₂} {f₂ : D₂ → D₃} {g₁ : A₁ → A₂} {g₂ : A₂ → A₃}
    {h₁ : O₁ → O₂} {h₂ : O₂ → O₃} (s : Schema L D₁ A₁ O₁) :
    (s.withExt f₁ g₁ h₁).withExt f₂ g₂ h₂ = s.withExt (f₂ ∘ f₁) (g₂ ∘ g₁) (h₂ ∘ h₁) := by
  induction s using Schema.ind with
  | h hd o st ih1 ih2 =>
    rw [Reader.withExt_mk, Reader.withExt_mk, Reader.withExt_mk]
    congr 1
    · cases o with
      | none => rfl
      | some l =>
        show some _ = some _
        rw [List.map_map]
        exact congrArg some (List.map_congr_left fun c hc => ih1 l rfl c hc)
    · cases st with
      | none => rfl
      | some u =>
        have ih := ih2 u rfl
        rcases u with ⟨_ | (c | l), _, _, _⟩ | _ | _ | _ | ⟨_ | m, _, _⟩ | _ | _
        all_goals try rfl
        · simp [SubtypeF.map, SubtypeF.withExt, ElemOrVec.map]
          exact ih c (by simp [SubtypeF.children, ElemOrVec.toList])
        · simp [SubtypeF.map, SubtypeF.withExt, ElemOrVec.map]
          exact fun c hc => ih c (by simpa [SubtypeF.children, ElemOrVec.toList] using hc)
        · simp [SubtypeF.map, SubtypeF.withExt, HMap.mapVals]
          exact fun k c hc => ih c (by simp [SubtypeF.children, HMap.values]; exact ⟨k, hc⟩)

theorem ds_comp (s : DS X) : DS.withExt f' (DS.withExt f s) = DS.withExt (f'.comp f) s := schema_comp s

theorem opt_comp {A B C : Type} {g : B → C} {f : A → B} {k : A → C} (h : ∀ a, g (f a) = k a) (o : Option A) :
    (o.map f).map g = o.map k := by
  cases o with
  | none => rfl
  | some a => exact congrArg some (h a)

theorem list_comp {A B C : Type} {g : B → C} {f : A → B} {k : A → C} (h : ∀ a, g (f a) = k a) (l : List A) :
    (l.map f).map g = l.map k := by
  rw [List.map_map]; exact List.map_congr_left fun a _ => h a

theorem map_comp {A B C : Type} {g : B → C} {f : A → B} {k : A → C} (h : ∀ a, g (f a) = k a) (m : HMap A) :
    HMap.mapVals g (HMap.mapVals f m) = HMap.mapVals k m :=
  list_comp (fun kv => by simp only [h]) m

theorem form_comp (x : Form X) : (x.withExt f).withExt f' = x.withExt (f'.comp f) := by
  simp only [Form.withExt]
  rw [opt_comp (f := ExpectedResponse.withExt f.response) (g := ExpectedResponse.withExt f'.response)
    (k := ExpectedResponse.withExt (f'.comp f).response) fun _ => rfl]; rfl

theorem interaction_comp (i : Interaction X) : (i.withExt f).withExt f' = i.withExt (f'.comp f) := by
  simp only [Interaction.withExt]
  rw [list_comp form_comp, opt_comp (map_comp ds_comp)]; rfl

theorem property_comp (p : PropertyAffordance X) : (p.withExt f).withExt f' = p.withExt (f'.comp f) := by
  simp only [PropertyAffordance.withExt]
  rw [interaction_comp, ds_comp]; rfl

theorem action_comp (a : ActionAffordance X) : (a.withExt f).withExt f' = a.withExt (f'.comp f) := by
  simp only [ActionAffordance.withExt]
  rw [interaction_comp, opt_comp ds_comp, opt_comp ds_comp]; rfl

theorem event_comp (a : EventAffordance X) : (a.withExt f).withExt f' = a.withExt (f'.comp f) := by
  simp only [EventAffordance.withExt]
  rw [interaction_comp, opt_comp ds_comp, opt_comp ds_comp, opt_comp ds_comp, opt_comp ds_comp]; rfl

theorem thing_comp (t : Thing X) : (t.withExt f).withExt f' = t.withExt (f'.comp f) := by
  simp only [Thing.withExt]
  rw [opt_comp (map_comp property_comp), opt_comp (map_comp action_comp), opt_comp (map_comp event_comp),
    opt_comp (list_comp form_comp), opt_comp (map_comp ds_comp), opt_comp (map_comp ds_comp)]; rfl

theorem plain_ext (f : ExtMap X Y) : (t.withExt f).plain = t.plain := thing_comp t

end

end Blind
end Wot
