import Verif.Spec.Values
import Verif.Lemmas.Meaning
import Verif.Lemmas.Vocabulary
import Verif.Lemmas.Range
/-
Which values documents and schemas admit.
-/
namespace Wot
variable {DSx AS OS : Type} {V : ValueRules} {L : LimitNames}

/-! ### Lists -/

theorem Pointwise.flip {α β : Type} {R : α → β → Prop} {l : List α} {m : List β} (h : Pointwise R l m) :
    Pointwise (fun b a => R a b) m l := by
  induction h with
  | nil => exact .nil
  | cons r _ ih => exact .cons r ih

theorem Pointwise.imp_left {α β : Type} {R R' : α → β → Prop} {l : List α} {m : List β} (h : Pointwise R l m)
    (hr : ∀ a ∈ l, ∀ b, R a b → R' a b) : Pointwise R' l m := by
  induction h with
  | nil => exact .nil
  | cons r _ ih =>
    exact .cons (hr _ List.mem_cons_self _ r) (ih fun a ha b => hr a (List.mem_cons_of_mem _ ha) b)

theorem Pointwise.split {α β : Type} {R : α → β → Prop} {l : List α} {m : List β} (h : Pointwise R l m) :
    ∀ {a : List α} {x : α} {b : List α}, l = a ++ x :: b →
    ∃ a' y b', m = a' ++ y :: b' ∧ Pointwise R a a' ∧ R x y ∧ Pointwise R b b' := by
  induction h with
  | nil => intro a x b e; cases a <;> simp at e
  | @cons p q _ _ r hl ih =>
    intro a x b e
    cases a with
    | nil => simp only [List.nil_append, List.cons.injEq] at e; obtain ⟨rfl, rfl⟩ := e; exact ⟨[], _, _, rfl, .nil, r, hl⟩
    | cons y a =>
      simp only [List.cons_append, List.cons.injEq] at e
      obtain ⟨rfl, e⟩ := e
      obtain ⟨a', z, b', e', h1, h2, h3⟩ := ih e
      exact ⟨q :: a', z, b', by rw [e']; rfl, .cons r h1, h2, h3⟩

theorem Pointwise.getElem?_left {α β : Type} {R : α → β → Prop} {l : List α} {m : List β} (h : Pointwise R l m) :
    ∀ {i : Nat} {x : α}, l[i]? = some x → ∃ y, m[i]? = some y ∧ R x y := by
  induction h with
  | nil => intro i x e; simp at e
  | cons r _ ih =>
    intro i x e
    cases i with
    | zero => simp at e; subst e; exact ⟨_, by simp, r⟩
    | succ i => simp at e ⊢; exact ih e

theorem one_of_pointwise {α β : Type} {P : α → Prop} {Q : β → Prop} {l : List α} {m : List β}
    (h : Pointwise (fun a b => P a ↔ Q b) l m) (hl : ∃ a s b, l = a ++ s :: b ∧ P s ∧ ∀ u, u ∈ a ++ b → ¬ P u) :
    ∃ a s b, m = a ++ s :: b ∧ Q s ∧ ∀ u, u ∈ a ++ b → ¬ Q u := by
  obtain ⟨a, s, b, e, hs, hu⟩ := hl
  obtain ⟨a', y, b', e', ha, hy, hb⟩ := h.split e
  refine ⟨a', y, b', e', hy.1 hs, fun u hm hq => ?_⟩
  rcases List.mem_append.1 hm with hm | hm
  · obtain ⟨w, hw, hwu⟩ := ha.of_mem_right _ hm
    exact hu w (List.mem_append_left _ hw) (hwu.2 hq)
  · obtain ⟨w, hw, hwu⟩ := hb.of_mem_right _ hm
    exact hu w (List.mem_append_right _ hw) (hwu.2 hq)

theorem one_of_iff {α β : Type} {P : α → Prop} {Q : β → Prop} {l : List α} {m : List β}
    (h : Pointwise (fun a b => P a ↔ Q b) l m) : (∃ a s b, l = a ++ s :: b ∧ P s ∧ ∀ u, u ∈ a ++ b → ¬ P u) ↔
    ∃ a s b, m = a ++ s :: b ∧ Q s ∧ ∀ u, u ∈ a ++ b → ¬ Q u :=
  ⟨one_of_pointwise h, one_of_pointwise (h.flip.imp_left fun _ _ _ h => h.symm)⟩

/-! ### Equations -/

/-- What a schema of the library admits, with the nested schemas spelled out. -/
theorem Schema.admits_iff {L : Type} (s : Schema L DSx AS OS) (v : Json) : s.Admits V v ↔
    (∀ c, s.head.constant = some c → V.same c v) ∧
    (∀ l, s.head.enumeration = some l → ∃ c ∈ l, V.same c v) ∧
    (∀ f, s.head.format = some f → V.hasFormat f v) ∧
    (∀ l, s.oneOf = some l → ∃ a c b, l = a ++ c :: b ∧ c.Admits V v ∧ ∀ u, u ∈ a ++ b → ¬ u.Admits V v) ∧
    ∀ st, s.subtype = some st → (st.map (Schema.Admits V)).Admits V v := by
  obtain ⟨h, o, st⟩ := s
  have e : (Schema.mk h o st).Admits V v = _ := congrFun (Schema.fold_mk _ h o st) v
  rw [e]
  simp only [Schema.head, Schema.oneOf, Schema.subtype]
  refine and_congr .rfl (and_congr .rfl (and_congr .rfl (and_congr ?_ ?_)))
  · cases o with
    | none => simp
    | some l =>
      simp only [Option.map_some, Option.some.injEq, forall_eq']
      refine (one_of_iff (P := fun p : Json → Prop => p v) (Q := fun c => Schema.Admits V c v)
        (pointwise_map_left.2 (pointwise_self fun _ _ => .rfl)))
  · cases st with
    | none => simp
    | some st => simp only [Option.map_some, Option.some.injEq, forall_eq']; rfl

theorem Json.admits_iff (d v : Json) : d.Admits V L v ↔
    (∀ c, d.member "const" = some c → V.same c v) ∧
    (∀ l, d.member "enum" = some (.arr l) → ∃ c ∈ l, V.same c v) ∧
    (∀ f, d.member "format" = some (.str f) → V.hasFormat f v) ∧
    (∀ l, d.member "oneOf" = some (.arr l) → ∃ a s b, l = a ++ s :: b ∧ s.Admits V L v ∧
      ∀ u, u ∈ a ++ b → ¬ u.Admits V L v) ∧
    (d.member "type" = some (.str "boolean") → ∃ b, v = .bool b) ∧
    (d.member "type" = some (.str "null") → v = .null) ∧
    (d.member "type" = some (.str "string") → ∃ t, v = .str t ∧ d.SizeWithin "minLength" "maxLength" t.length ∧
      ∀ p, d.member "pattern" = some (.str p) → V.isMatch p t) ∧
    (d.member "type" = some (.str "number") → ∃ x, v = .num x ∧ d.NumberWithin x.value) ∧
    (d.member "type" = some (.str "integer") → ∃ x, v = .num x ∧ (∃ z : Int, x.value = z) ∧ d.NumberWithin x.value) ∧
    (d.member "type" = some (.str "array") → ∃ l, v = .arr l ∧ d.SizeWithin L.least L.most l.length ∧
      (∀ m, d.member "items" = some (.obj m) → ∀ x ∈ l, (Json.obj m).Admits V L x) ∧
      ∀ ss, d.member "items" = some (.arr ss) → ∀ (i : Nat) s, ss[i]? = some s → ∀ x, l[i]? = some x →
        s.Admits V L x) ∧
    (d.member "type" = some (.str "object") → v.IsObject ∧
      (∀ p, d.member "properties" = some p → ∀ k s, p.member k = some s → ∀ x, v.member k = some x →
        s.Admits V L x) ∧
      ∀ l, d.member "required" = some (.arr l) → ∀ k, .str k ∈ l → v.member k ≠ none) := by
  rw [Json.Admits]
  simp only [exists_prop]

/-! ### What one schema says -/

/-- The field is what the member says. -/
inductive Field {T : Type} (d : Json) (k : String) (Is : Json → T → Prop) : Option T → Prop
  | none : d.member k = none ∨ d.member k = some .null → Field d k Is none
  | some {w : Json} {x : T} : d.member k = some w → Is w x → Field d k Is (some x)

/-- The items. -/
inductive ItemsSay {S : Type} (R : Json → S → Prop) : Json → ElemOrVec S → Prop
  | elem {m : Members} {s : S} : R (.obj m) s → ItemsSay R (.obj m) (.elem s)
  | vec {l : List Json} {ss : List S} : Pointwise R l ss → ItemsSay R (.arr l) (.vec ss)

/-- The properties. -/
def PropertiesSay {S : Type} (R : Json → S → Prop) (p : Json) (m : List (String × S)) : Prop :=
  p.IsObject ∧ ∀ k, OptRel R (p.member k) (HMap.get? m k)

def SaysNat (w : Json) (n : Nat) : Prop := w = .num (.pos n)

/-- The bounds of numbers. -/
def RangeSays {T M : Type} (val : T → Rat) (step : M → Rat) (d : Json) (lo : Option (Minimum T))
    (hi : Option (Maximum T)) (m : Option M) : Prop :=
  ∀ q, RangeAdmits val step lo hi m q ↔ d.NumberWithin q

/-- The members that depend on the type. -/
inductive FieldsOfType {S : Type} (L : LimitNames) (R : Json → S → Prop) (d : Json) : Option (SubtypeF AS OS S) → Prop
  | none : (∀ T ∈ Doc.types, d.member "type" ≠ some (.str T)) → FieldsOfType L R d none
  | boolean : d.member "type" = some (.str "boolean") → FieldsOfType L R d (some .boolean)
  | null : d.member "type" = some (.str "null") → FieldsOfType L R d (some .null)
  | string {s : StringSchema} : d.member "type" = some (.str "string") →
      Field d "minLength" (fun w n => SaysNat w n.val) s.minLength →
      Field d "maxLength" (fun w n => SaysNat w n.val) s.maxLength →
      Field d "pattern" Doc.IsString s.pattern → FieldsOfType L R d (some (.string s))
  | number {n : NumberSchema} : d.member "type" = some (.str "number") →
      RangeSays F64.value F64.value d n.minimum n.maximum n.multipleOf → FieldsOfType L R d (some (.number n))
  | integer {n : IntegerSchema} : d.member "type" = some (.str "integer") →
      RangeSays (fun z : I64 => (z.val : Rat)) (fun k : NonZeroU64 => (k.val : Rat)) d n.minimum n.maximum n.multipleOf →
      FieldsOfType L R d (some (.integer n))
  | array {a : ArrayF AS S} : d.member "type" = some (.str "array") → Field d "items" (ItemsSay R) a.items →
      Field d L.least (fun w n => SaysNat w n.val) a.minItems →
      Field d L.most (fun w n => SaysNat w n.val) a.maxItems → FieldsOfType L R d (some (.array a))
  | object {o : ObjectF OS S} : d.member "type" = some (.str "object") →
      Field d "properties" (PropertiesSay R) o.properties → Field d "required" Doc.IsStrings o.required →
      FieldsOfType L R d (some (.object o))

/-- The members that matter. -/
structure Fields (L : LimitNames) (R : Json → DataSchema DSx AS OS → Prop) (d : Json) (s : DataSchema DSx AS OS) : Prop where
  constant : OptRel (fun w c => w.norm = c.norm) (d.member "const") s.head.constant
  enumeration : Field d "enum" (fun w l => ∃ ws, w = .arr ws ∧ Pointwise (fun u c => u.norm = c.norm) ws l)
    s.head.enumeration
  format : Field d "format" Doc.IsString s.head.format
  oneOf : Field d "oneOf" (fun w l => ∃ ws, w = .arr ws ∧ Pointwise R ws l) s.oneOf
  subtype : FieldsOfType L R d s.subtype

theorem ValueRules.Lawful.congr (h : V.Lawful) {c c' : Json} (e : c.norm = c'.norm) (v : Json) :
    V.same c v ↔ V.same c' v := by
  rw [← h c, e, h c']

theorem natCast_le {a b : Nat} : (a : Rat) ≤ (b : Rat) ↔ a ≤ b := Rat.natCast_le_natCast

theorem size_iff {d : Json} {least most : String} {a b : Option U32} (ha : Field d least (fun w n => SaysNat w n.val) a)
    (hb : Field d most (fun w n => SaysNat w n.val) b) (size : Nat) :
    SizeAdmits a b size ↔ d.SizeWithin least most size := by
  unfold SizeAdmits Json.SizeWithin
  refine and_congr ?_ ?_
  · cases ha with
    | none h => rcases h with h | h <;> simp [h]
    | some h e => unfold SaysNat at e; subst e; simp [h, JNum.value, natCast_le]
  · cases hb with
    | none h => rcases h with h | h <;> simp [h]
    | some h e => unfold SaysNat at e; subst e; simp [h, JNum.value, natCast_le]

section
variable {R : Json → DataSchema DSx AS OS → Prop} {d : Json}

theorem subtype_iff (ih : ∀ w s, sizeOf w < sizeOf d → R w s → ∀ v, s.Admits V v ↔ w.Admits V L v)
    {st : Option (SubtypeF AS OS (DataSchema DSx AS OS))} (h : FieldsOfType L R d st) (v : Json) :
    (∀ x, st = some x → (x.map (Schema.Admits V)).Admits V v) ↔
    (d.member "type" = some (.str "boolean") → ∃ b, v = .bool b) ∧
    (d.member "type" = some (.str "null") → v = .null) ∧
    (d.member "type" = some (.str "string") → ∃ t, v = .str t ∧ d.SizeWithin "minLength" "maxLength" t.length ∧
      ∀ p, d.member "pattern" = some (.str p) → V.isMatch p t) ∧
    (d.member "type" = some (.str "number") → ∃ x, v = .num x ∧ d.NumberWithin x.value) ∧
    (d.member "type" = some (.str "integer") → ∃ x, v = .num x ∧ (∃ z : Int, x.value = z) ∧ d.NumberWithin x.value) ∧
    (d.member "type" = some (.str "array") → ∃ l, v = .arr l ∧ d.SizeWithin L.least L.most l.length ∧
      (∀ m, d.member "items" = some (.obj m) → ∀ x ∈ l, (Json.obj m).Admits V L x) ∧
      ∀ ss, d.member "items" = some (.arr ss) → ∀ (i : Nat) s, ss[i]? = some s → ∀ x, l[i]? = some x →
        s.Admits V L x) ∧
    (d.member "type" = some (.str "object") → v.IsObject ∧
      (∀ p, d.member "properties" = some p → ∀ k s, p.member k = some s → ∀ x, v.member k = some x →
        s.Admits V L x) ∧
      ∀ l, d.member "required" = some (.arr l) → ∀ k, .str k ∈ l → v.member k ≠ none) := by
  cases h with
  | none h =>
    simp [Doc.types] at h
    simp [h]
  | boolean h => simp [h, SubtypeF.map, SubtypeF.Admits]
  | null h => simp [h, SubtypeF.map, SubtypeF.Admits]
  | @string s h h1 h2 h3 =>
    simp only [h, SubtypeF.map, SubtypeF.Admits, Option.some.injEq, forall_eq', Json.str.injEq, forall_const,
      String.reduceEq, false_implies, true_and, and_true, size_iff h1 h2]
    refine exists_congr fun t => and_congr_right fun _ => and_congr_right fun _ => ?_
    generalize s.pattern = o at h3
    cases h3 with
    | none h => rcases h with h | h <;> simp [h]
    | some h e => cases e; simp [h]
  | number h h1 =>
    simp only [h, SubtypeF.map, SubtypeF.Admits, Option.some.injEq, forall_eq', Json.str.injEq, forall_const,
      String.reduceEq, false_implies, true_and, and_true, h1 _]
  | integer h h1 =>
    simp only [h, SubtypeF.map, SubtypeF.Admits, Option.some.injEq, forall_eq', Json.str.injEq, forall_const,
      String.reduceEq, false_implies, true_and, and_true, h1 _]
  | @array a h h1 h2 h3 =>
    simp only [h, SubtypeF.map, SubtypeF.Admits, Option.some.injEq, forall_eq', Json.str.injEq, forall_const,
      String.reduceEq, false_implies, true_and, and_true, size_iff h2 h3]
    refine exists_congr fun t => and_congr_right fun _ => and_congr_right fun _ => ?_
    generalize a.items = o at h1
    cases h1 with
    | none h => rcases h with h | h <;> simp [h]
    | some h e =>
      have hsz := Json.member_sizeOf h
      cases e with
      | elem r => simp [h, ElemOrVec.map, ih _ _ hsz r]
      | vec hp =>
        simp only [h, ElemOrVec.map, Option.map_some, Option.some.injEq, reduceCtorEq, false_implies, implies_true,
          true_and, ElemOrVec.vec.injEq, forall_eq', Json.arr.injEq]
        have hp' := hp.imp_left (R' := fun w s => ∀ v, s.Admits V v ↔ w.Admits V L v)
          fun w hw s r => ih w s (Json.mem_sizeOf h hw) r
        constructor
        · intro hi i s hs x hx
          obtain ⟨c, hc, hcs⟩ := hp'.getElem?_left hs
          exact (hcs x).1 (hi i (Schema.Admits V c) x (by simp [hc]) hx)
        · intro hi i p x hx hl
          simp only [List.getElem?_map, Option.map_eq_some_iff] at hx
          obtain ⟨c, hc, rfl⟩ := hx
          obtain ⟨w, hw, hcs⟩ := hp'.flip.getElem?_left hc
          exact (hcs x).2 (hi i w hw x hl)
  | @object o h h1 h2 =>
    simp only [h, SubtypeF.map, SubtypeF.Admits, Option.some.injEq, forall_eq', Json.str.injEq, forall_const,
      String.reduceEq, false_implies, true_and]
    refine and_congr_right fun _ => and_congr ?_ ?_
    · generalize o.properties = ps at h1
      cases h1 with
      | none h =>
        rcases h with h | h
        · simp [h]
        · simp only [h, Option.map_none, reduceCtorEq, false_implies, implies_true, Option.some.injEq, forall_eq', true_iff]
          intro k s hs
          cases hs
      | @some p m h e =>
        obtain ⟨_, hp⟩ := e
        simp only [Option.map_some, Option.some.injEq, forall_eq', h]
        constructor
        · intro hi k s hs x hx
          have := hp k
          rw [hs] at this
          generalize hc : HMap.get? m k = c at this
          cases this with
          | some r =>
            refine (ih _ _ (Nat.lt_trans (Json.member_sizeOf hs) (Json.member_sizeOf h)) r x).1
              (hi k (Schema.Admits V _) x ?_ hx)
            rw [HMap.get?_mapVals, hc]; rfl
        · intro hi k q x hq hx
          rw [HMap.get?_mapVals] at hq
          obtain ⟨c, hc, rfl⟩ := Option.map_eq_some_iff.1 hq
          have := hp k
          rw [hc] at this
          generalize hs : p.member k = s at this
          cases this with
          | some r =>
            exact (ih _ _ (Nat.lt_trans (Json.member_sizeOf hs) (Json.member_sizeOf h)) r x).2 (hi k _ hs x hx)
    · generalize o.required = l at h2
      cases h2 with
      | none h => rcases h with h | h <;> simp [h]
      | some h e => unfold Doc.IsStrings at e; subst e; simp [h]

theorem node_iff (hV : V.Lawful)
    (ih : ∀ w s, sizeOf w < sizeOf d → R w s → ∀ v, s.Admits V v ↔ w.Admits V L v)
    {s : DataSchema DSx AS OS} (h : Fields L R d s) (v : Json) : s.Admits V v ↔ d.Admits V L v := by
  rw [Schema.admits_iff, Json.admits_iff]
  refine and_congr ?_ (and_congr ?_ (and_congr ?_ (and_congr ?_ (subtype_iff ih h.subtype v))))
  · have := h.constant
    generalize s.head.constant = a at this
    generalize d.member "const" = b at this
    cases this with
    | none => simp
    | some e => simp [hV.congr e v]
  · have := h.enumeration
    generalize s.head.enumeration = a at this
    cases this with
    | none h => rcases h with h | h <;> simp [h]
    | some h e =>
      obtain ⟨ws, rfl, hp⟩ := e
      simp only [Option.some.injEq, forall_eq', h, Json.arr.injEq]
      constructor
      · rintro ⟨c, hc, hs⟩
        obtain ⟨u, hu, e⟩ := hp.of_mem_right _ hc
        exact ⟨u, hu, (hV.congr e v).2 hs⟩
      · rintro ⟨u, hu, hs⟩
        obtain ⟨c, hc, e⟩ := hp.of_mem_left _ hu
        exact ⟨c, hc, (hV.congr e v).1 hs⟩
  · have := h.format
    generalize s.head.format = a at this
    cases this with
    | none h => rcases h with h | h <;> simp [h]
    | some h e => cases e; simp [h]
  · have := h.oneOf
    generalize s.oneOf = a at this
    cases this with
    | none h => rcases h with h | h <;> simp [h]
    | some h e =>
      obtain ⟨ws, rfl, hp⟩ := e
      simp only [Option.some.injEq, forall_eq', h, Json.arr.injEq]
      exact (one_of_iff (hp.imp_left fun w hw s r => (ih w s (Json.mem_sizeOf h hw) r v).symm)).symm

end


/-! ### Nested schemas -/

/-- The nested schemas that are related are nested in the document and in the schema. -/
def Inner (R : Json → DataSchema DSx AS OS → Prop) (d : Json) (s : DataSchema DSx AS OS) (w : Json)
    (c : DataSchema DSx AS OS) : Prop :=
  R w c ∧ (∀ u, w.HasSchema u → d.HasSchema u) ∧ ∀ x, Within x c → Within x s

theorem Fields.inner {R : Json → DataSchema DSx AS OS → Prop} {d : Json} {s : DataSchema DSx AS OS}
    (h : Fields L R d s) : Fields L (Inner R d s) d s := by
  obtain ⟨h1, h2, h3, h4, h5⟩ := h
  refine ⟨h1, h2, h3, ?_, ?_⟩
  · generalize ho : s.oneOf = o at h4
    cases h4 with
    | none h => exact .none h
    | some h e =>
      obtain ⟨ws, rfl, hp⟩ := e
      refine .some h ⟨ws, rfl, ?_⟩
      have hp' := (hp.flip.imp_left (R' := fun c w => R w c ∧ ∀ x, Within x c → Within x s)
        fun c hc w r => ⟨r, fun x hx => .oneOf ho hc hx⟩).flip
      exact hp'.imp_left fun w hw c r => ⟨r.1, fun u hu => .oneOf h hw hu, r.2⟩
  · generalize hst : s.subtype = st at h5
    cases h5 with
    | none h => exact .none h
    | boolean h => exact .boolean h
    | null h => exact .null h
    | string h h1 h2 h3 => exact .string h h1 h2 h3
    | number h h1 => exact .number h h1
    | integer h h1 => exact .integer h h1
    | @array a h h1 h2 h3 =>
      refine .array h ?_ h2 h3
      generalize ha : a.items = o at h1
      cases h1 with
      | none h => exact .none h
      | some h e =>
        refine .some h ?_
        cases e with
        | elem r => exact .elem ⟨r, fun u hu => .item h hu, fun x hx => .item hst ha hx⟩
        | vec hp =>
          refine .vec ?_
          have hp' := (hp.flip.imp_left (R' := fun c w => R w c ∧ ∀ x, Within x c → Within x s)
            fun c hc w r => ⟨r, fun x hx => .items hst ha hc hx⟩).flip
          exact hp'.imp_left fun w hw c r => ⟨r.1, fun u hu => .items h hw hu, r.2⟩
    | @object b h h1 h2 =>
      refine .object h ?_ h2
      generalize ha : b.properties = o at h1
      cases h1 with
      | none h => exact .none h
      | @some p m h e =>
        refine .some h ⟨e.1, fun k => ?_⟩
        have := e.2 k
        generalize hw : p.member k = w at this
        generalize hc : HMap.get? m k = c at this
        cases this with
        | none => exact .none
        | some r => exact .some ⟨r, fun u hu => .property h hw hu, fun x hx => .property hst ha (HMap.mem_of_get? hc) hx⟩

/-! ### Bounds -/

section
variable {T M : Type} {val : T → Rat} {step : M → Rat} {d : Json}

inductive MinSays (val : T → Rat) (d : Json) : Option (Minimum T) → Prop
  | none : (∀ n, d.member "minimum" ≠ some (.num n)) → (∀ n, d.member "exclusiveMinimum" ≠ some (.num n)) →
      MinSays val d none
  | inclusive {n : JNum} {a : T} : d.member "minimum" = some (.num n) → n.value = val a →
      (∀ n, d.member "exclusiveMinimum" ≠ some (.num n)) → MinSays val d (some (.inclusive a))
  | exclusive {n : JNum} {a : T} : d.member "exclusiveMinimum" = some (.num n) → n.value = val a →
      (∀ n, d.member "minimum" ≠ some (.num n)) → MinSays val d (some (.exclusive a))

inductive MaxSays (val : T → Rat) (d : Json) : Option (Maximum T) → Prop
  | none : (∀ n, d.member "maximum" ≠ some (.num n)) → (∀ n, d.member "exclusiveMaximum" ≠ some (.num n)) →
      MaxSays val d none
  | inclusive {n : JNum} {a : T} : d.member "maximum" = some (.num n) → n.value = val a →
      (∀ n, d.member "exclusiveMaximum" ≠ some (.num n)) → MaxSays val d (some (.inclusive a))
  | exclusive {n : JNum} {a : T} : d.member "exclusiveMaximum" = some (.num n) → n.value = val a →
      (∀ n, d.member "maximum" ≠ some (.num n)) → MaxSays val d (some (.exclusive a))

theorem MinSays.iff {lo : Option (Minimum T)} (h : MinSays val d lo) (q : Rat) :
    (∀ b, lo = some b → b.Admits val q) ↔ (∀ n, d.member "minimum" = some (.num n) → n.value ≤ q) ∧
      ∀ n, d.member "exclusiveMinimum" = some (.num n) → n.value < q := by
  cases h with
  | none h1 h2 => simp [h1, h2]
  | inclusive h1 e h2 => simp [h1, h2, Minimum.Admits, e]
  | exclusive h1 e h2 => simp [h1, h2, Minimum.Admits, e]

theorem MaxSays.iff {hi : Option (Maximum T)} (h : MaxSays val d hi) (q : Rat) :
    (∀ b, hi = some b → b.Admits val q) ↔ (∀ n, d.member "maximum" = some (.num n) → q ≤ n.value) ∧
      ∀ n, d.member "exclusiveMaximum" = some (.num n) → q < n.value := by
  cases h with
  | none h1 h2 => simp [h1, h2]
  | inclusive h1 e h2 => simp [h1, h2, Maximum.Admits, e]
  | exclusive h1 e h2 => simp [h1, h2, Maximum.Admits, e]

theorem rangeSays {lo : Option (Minimum T)} {hi : Option (Maximum T)} {m : Option M} (h1 : MinSays val d lo)
    (h2 : MaxSays val d hi) (h3 : Field d "multipleOf" (fun w x => ∃ n, w = .num n ∧ n.value = step x) m) :
    RangeSays val step d lo hi m := by
  intro q
  have e3 : (∀ x, m = some x → ∃ k : Int, q = k * step x) ↔
      ∀ n, d.member "multipleOf" = some (.num n) → ∃ k : Int, q = k * n.value := by
    cases h3 with
    | none h => rcases h with h | h <;> simp [h]
    | some h e => obtain ⟨n, rfl, e⟩ := e; simp [h, e]
  constructor
  · rintro ⟨a1, a2, a3⟩
    have b1 := (h1.iff q).1 a1
    have b2 := (h2.iff q).1 a2
    exact ⟨b1.1, b1.2, b2.1, b2.2, e3.1 a3⟩
  · rintro ⟨a1, a2, a3, a4, a5⟩
    exact ⟨(h1.iff q).2 ⟨a1, a2⟩, (h2.iff q).2 ⟨a3, a4⟩, e3.2 a5⟩

/-! ### Written schemas -/

theorem MinimumShown.says {R : T → Json → Prop} {lo : Option (Minimum T)} (h : MinimumShown R lo d)
    (hr : ∀ b, lo = some b → ∀ w, R b.bound w → ∃ n, w = .num n ∧ n.value = val b.bound) : MinSays val d lo := by
  cases h with
  | none h1 h2 => exact .none (by simp [h1]) (by simp [h2])
  | inclusive h1 r h2 =>
    obtain ⟨n, rfl, e⟩ := hr _ rfl _ r
    exact .inclusive h1 e (by simp [h2])
  | exclusive h2 h1 r =>
    obtain ⟨n, rfl, e⟩ := hr _ rfl _ r
    exact .exclusive h1 e (by simp [h2])

theorem MaximumShown.says {R : T → Json → Prop} {hi : Option (Maximum T)} (h : MaximumShown R hi d)
    (hr : ∀ b, hi = some b → ∀ w, R b.bound w → ∃ n, w = .num n ∧ n.value = val b.bound) : MaxSays val d hi := by
  cases h with
  | none h1 h2 => exact .none (by simp [h1]) (by simp [h2])
  | inclusive h1 r h2 =>
    obtain ⟨n, rfl, e⟩ := hr _ rfl _ r
    exact .inclusive h1 e (by simp [h2])
  | exclusive h2 h1 r =>
    obtain ⟨n, rfl, e⟩ := hr _ rfl _ r
    exact .exclusive h1 e (by simp [h2])

theorem floatShown_says {x : F64} (hf : x.isFinite = true) {w : Json} (h : FloatShown x w) :
    ∃ n, w = .num n ∧ n.value = x.value := by
  cases h with
  | finite => exact ⟨_, rfl, rfl⟩
  | other h => rw [hf] at h; cases h

theorem intShown_says {z : Int} {w : Json} (h : IntShown z w) : ∃ n, w = .num n ∧ n.value = (z : Rat) := by
  cases h with
  | pos n => exact ⟨_, rfl, (Rat.intCast_natCast n).symm⟩
  | neg n => exact ⟨_, rfl, by simp [JNum.value, Rat.intCast_natCast]⟩

theorem field_shown {Is : Json → T → Prop} {R : T → Json → Prop} {k : String} {o : Option T}
    (h : OptRel R o (d.member k)) (hr : ∀ x, o = some x → ∀ w, R x w → Is w x) : Field d k Is o := by
  generalize hm : d.member k = m at h
  cases h with
  | none => exact .none (.inl hm)
  | some r => exact .some hm (hr _ rfl _ r)

variable {C : ExtCodec DSx} {CA : ExtCodec AS} {CO : ExtCodec OS}

theorem typeShown_fields {R : DataSchema DSx AS OS → Json → Prop} (ho : ∀ s w, R s w → w.IsObject)
    {s : DataSchema DSx AS OS} (hf : FiniteBounds s) (h : TypeShown CA CO R s.subtype d) :
    FieldsOfType .crate (fun w s => R s w) d s.subtype := by
  obtain ⟨hd, oo, st⟩ := s
  simp only [Schema.subtype] at h
  simp only [Schema.subtype]
  cases h with
  | none h => exact .none fun T _ e => by rw [h "type" (by decide) (by decide)] at e; cases e
  | boolean h => exact .boolean h
  | null h => exact .null h
  | string h h1 h2 h3 => exact .string h (field_shown h1 fun _ _ _ h => h) (field_shown h2 fun _ _ _ h => h) (field_shown h3 fun _ _ _ h => h)
  | @number n _ h h1 h2 h3 =>
    exact .number h (rangeSays (h2.says fun b e w => floatShown_says (hf.minimum n b rfl e))
      (h1.says fun b e w => floatShown_says (hf.maximum n b rfl e))
      (field_shown h3 fun x e w => floatShown_says (hf.multipleOf n x rfl e)))
  | integer h h1 h2 h3 =>
    exact .integer h (rangeSays (h2.says fun b e w => intShown_says) (h1.says fun b e w => intShown_says)
      (field_shown h3 fun x e w hw => ⟨_, hw, rfl⟩))
  | array h h1 h2 h3 =>
    refine .array h (field_shown h1 fun x _ w hw => ?_) (field_shown h2 fun _ _ _ h => h) (field_shown h3 fun _ _ _ h => h)
    cases hw with
    | elem r => obtain ⟨m, rfl⟩ := ho _ _ r; exact .elem r
    | vec hl => obtain ⟨hp⟩ := hl; exact .vec hp.flip
  | object h h1 h2 =>
    refine .object h (field_shown h1 fun x _ w hw => ?_) (field_shown h2 fun x e w hw => ?_)
    · obtain ⟨h1, h2⟩ := hw
      refine ⟨h1, fun k => ?_⟩
      have := h2 k
      revert this
      generalize HMap.get? x k = a
      generalize w.member k = b
      intro this
      cases this with
      | none => exact .none
      | some r => exact .some r
    · obtain ⟨hp⟩ := hw
      unfold Doc.IsStrings
      congr 1
      clear e
      induction hp with
      | nil => rfl
      | cons r _ ih => rw [List.map_cons, ← ih, r]

theorem nodeShown_fields {R : DataSchema DSx AS OS → Json → Prop} (ho : ∀ s w, R s w → w.IsObject)
    {s : DataSchema DSx AS OS} (hf : FiniteBounds s) (h : NodeShown C CA CO R s d) : Fields .crate (fun w s => R s w) d s := by
  obtain ⟨-, -, -, -, -, h1, -, -, h2, h3, -, -, h4, h5, -⟩ := h
  refine ⟨?_, field_shown h3 fun x _ w hw => ?_, field_shown h4 fun _ _ _ h => h, field_shown h2 fun x _ w hw => ?_,
    typeShown_fields ho hf h5⟩
  · rw [h1]
    cases s.head.constant with
    | none => exact .none
    | some c => exact .some (norm_norm c)
  · obtain ⟨hp⟩ := hw
    exact ⟨_, rfl, hp.flip.imp_left fun u _ c e => by rw [e, norm_norm]⟩
  · obtain ⟨hp⟩ := hw
    exact ⟨_, rfl, hp.flip⟩

theorem shown_admits (hV : V.Lawful) : ∀ (n : Nat) {s : DataSchema DSx AS OS} {d : Json}, sizeOf d ≤ n →
    (∀ x, Within x s → FiniteBounds x) → SchemaShown C CA CO s d → ∀ v, s.Admits V v ↔ d.Admits V .crate v := by
  intro n
  induction n with
  | zero => intro s d hn; cases d <;> simp at hn
  | succ n ih =>
    intro s d hn hf h v
    obtain ⟨h, -⟩ := h
    have := (nodeShown_fields (fun s w r => schemaShown_object r) (hf s (.self s)) h).inner
    exact node_iff hV (fun w c hw r v => ih (by omega) (fun x hx => hf x (r.2.2 x hx)) r.1 v) this v

/-! ### Documents that are read -/

theorem member_occ {es : Members} {k : String} : (Json.obj es).member k = (occ k es).head? := by
  unfold Json.member
  induction es with
  | nil => rfl
  | cons kv es ih =>
    obtain ⟨k', x⟩ := kv
    simp only at ih ⊢
    rw [HMap.get?_cons, occ_cons]
    by_cases h : k = k'
    · simp [h]
    · rw [if_neg h, ih]; simp [Ne.symm h]

theorem occ_member {es : Members} (hn : (es.map (·.1)).Nodup) {k : String} {w : Json}
    (h : (Json.obj es).member k = some w) : occ k es = [w] := occ_nodup hn (HMap.mem_of_get? h)

theorem field_may {es : Members} {k : String} {Is Is' : Json → T → Prop} {o : Option T} (h : Doc.May k Is es o)
    (hi : ∀ w x, (Json.obj es).member k = some w → Is w x → Is' w x) : Field (.obj es) k Is' o := by
  cases h with
  | absent h => exact .none (.inl (by rw [member_occ, h]; rfl))
  | @given _ v _ h ho =>
    have hm : (Json.obj es).member k = some v := by rw [member_occ, h]; rfl
    cases ho with
    | null => exact .none (.inr hm)
    | value _ hw => exact .some hm (hi _ _ hm hw)

theorem member_first {es : Members} {k k' : String} {w : Json} (h : Doc.First k k' es w) :
    (Json.obj es).member k = some w := by
  obtain ⟨a, b, rfl, h⟩ := h
  rw [member_occ, occ_append, occ_cons]
  rw [occ_eq_nil.2 fun hm => by obtain ⟨kv, h1, h2⟩ := List.mem_map.1 hm; exact (h kv h1).1 h2]
  simp

theorem first_member {es : Members} {k k' : String} {w : Json} (h : (Json.obj es).member k = some w)
    (h' : (Json.obj es).member k' = none) : Doc.First k k' es w := by
  induction es with
  | nil => cases h
  | cons kv es ih =>
    obtain ⟨k1, x⟩ := kv
    simp only [Json.member, HMap.get?_cons] at h h' ih
    by_cases e : k = k1
    · rw [if_pos e] at h
      cases h
      exact ⟨[], es, by rw [e]; rfl, nofun⟩
    · rw [if_neg e] at h
      by_cases e' : k' = k1
      · rw [if_pos e'] at h'; cases h'
      · rw [if_neg e'] at h'
        obtain ⟨a, b, e1, e2⟩ := ih h h'
        refine ⟨(k1, x) :: a, b, by rw [e1]; rfl, fun kv hk => ?_⟩
        rcases List.mem_cons.1 hk with rfl | hk
        · exact ⟨Ne.symm e, Ne.symm e'⟩
        · exact e2 kv hk

theorem only_one {a b : Option Json} {x : Json} (h : a = none ∨ b = none) (e : a = some x) : b = none := by
  rcases h with h | h
  · rw [h] at e; cases e
  · exact h

theorem only_one' {a b : Option Json} {x : Json} (h : a = none ∨ b = none) (e : a = some x) (n : JNum) :
    b ≠ some (.num n) := by
  rw [only_one h e]; nofun

theorem minSays_read {es : Members} {Is : Json → T → Prop} {lo : Option (Minimum T)} (h : Doc.SaysMinimum es Is lo)
    (h1 : (Json.obj es).member "minimum" = none ∨ (Json.obj es).member "exclusiveMinimum" = none)
    (hx : ∀ k ∈ ["minimum", "exclusiveMinimum", "maximum", "exclusiveMaximum"], ∀ n,
      (Json.obj es).member k = some (.num n) → ∃ x, Is (.num n) x)
    (hv : ∀ k ∈ ["minimum", "exclusiveMinimum", "maximum", "exclusiveMaximum"], ∀ w x,
      (Json.obj es).member k = some w → Is w x → ∃ n, w = .num n ∧ n.value = val x) : MinSays val (.obj es) lo := by
  cases lo with
  | none =>
    refine .none (fun n e => ?_) (fun n e => ?_)
    · obtain ⟨x, hx⟩ := hx _ (by simp) n e
      have := (h x).1.2 ⟨_, first_member e (only_one h1 e), hx⟩
      cases this
    · obtain ⟨x, hx⟩ := hx _ (by simp) n e
      have := (h x).2.2 ⟨_, first_member e (only_one h1.symm e), hx⟩
      cases this
  | some b =>
    cases b with
    | inclusive x =>
      obtain ⟨w, hw, hi⟩ := (h x).1.1 rfl
      have hm := member_first hw
      obtain ⟨n, rfl, e⟩ := hv _ (by simp) w x hm hi
      exact .inclusive hm e (only_one' h1 hm)
    | exclusive x =>
      obtain ⟨w, hw, hi⟩ := (h x).2.1 rfl
      have hm := member_first hw
      obtain ⟨n, rfl, e⟩ := hv _ (by simp) w x hm hi
      exact .exclusive hm e (only_one' h1.symm hm)

theorem maxSays_read {es : Members} {Is : Json → T → Prop} {hi : Option (Maximum T)} (h : Doc.SaysMaximum es Is hi)
    (h1 : (Json.obj es).member "maximum" = none ∨ (Json.obj es).member "exclusiveMaximum" = none)
    (hx : ∀ k ∈ ["minimum", "exclusiveMinimum", "maximum", "exclusiveMaximum"], ∀ n,
      (Json.obj es).member k = some (.num n) → ∃ x, Is (.num n) x)
    (hv : ∀ k ∈ ["minimum", "exclusiveMinimum", "maximum", "exclusiveMaximum"], ∀ w x,
      (Json.obj es).member k = some w → Is w x → ∃ n, w = .num n ∧ n.value = val x) : MaxSays val (.obj es) hi := by
  cases hi with
  | none =>
    refine .none (fun n e => ?_) (fun n e => ?_)
    · obtain ⟨x, hx⟩ := hx _ (by simp) n e
      have := (h x).1.2 ⟨_, first_member e (only_one h1 e), hx⟩
      cases this
    · obtain ⟨x, hx⟩ := hx _ (by simp) n e
      have := (h x).2.2 ⟨_, first_member e (only_one h1.symm e), hx⟩
      cases this
  | some b =>
    cases b with
    | inclusive x =>
      obtain ⟨w, hw, hi⟩ := (h x).1.1 rfl
      have hm := member_first hw
      obtain ⟨n, rfl, e⟩ := hv _ (by simp) w x hm hi
      exact .inclusive hm e (only_one' h1 hm)
    | exclusive x =>
      obtain ⟨w, hw, hi⟩ := (h x).2.1 rfl
      have hm := member_first hw
      obtain ⟨n, rfl, e⟩ := hv _ (by simp) w x hm hi
      exact .exclusive hm e (only_one' h1.symm hm)

theorem isInteger_value {w : Json} {z : Int} (h : Doc.IsInteger w z) : ∃ n, w = .num n ∧ n.value = (z : Rat) := by
  rcases h with ⟨n, rfl, rfl⟩ | ⟨n, rfl, rfl⟩
  · exact intShown_says (.pos n)
  · exact intShown_says (.neg n)

theorem value_of_units {x : F64} {z : Int} : x.units = z * (2 ^ 1074 : Nat) ↔ x.value = (z : Rat) := by
  unfold F64.value
  have hp : 0 < 2 ^ 1074 := Nat.two_pow_pos 1074
  revert hp
  generalize 2 ^ 1074 = p
  intro hp
  generalize x.units = u
  have h : (0 : Rat) < (p : Rat) := Rat.natCast_pos.2 hp
  have h0 : (p : Rat) ≠ 0 := fun e => by rw [e] at h; exact absurd h (by decide)
  constructor
  · rintro rfl
    rw [Rat.intCast_mul, Rat.intCast_natCast, Rat.mul_div_cancel h0]
  · intro e
    have : (u : Rat) = z * p := by rw [← e, Rat.div_mul_cancel h0]
    rw [← Rat.intCast_natCast, ← Rat.intCast_mul, Rat.intCast_inj] at this
    exact this

theorem float_value {n : JNum} {x y : F64} (h : Doc.IsFloat (.num n) x) (hy : y.isFinite = true)
    (e : y.value = n.value) : x.value = n.value := by
  rcases h with h | ⟨z, hz, hn, -⟩
  · cases h; rfl
  · obtain ⟨n', e', hv⟩ := isInteger_value hz
    cases e'
    rw [hv] at e ⊢
    have hd := hn.nearest y hy
    rw [← value_of_units] at e ⊢
    unfold F64.distance at hd
    have h2 : ((2 ^ 1074 : Nat) : Int) = 2 ^ 1074 := Int.natCast_pow 2 1074
    rw [h2] at e ⊢
    generalize (2 : Int) ^ 1074 = p at *
    generalize z * p = q at *
    omega

theorem member_inRange {es : Members} (hn : (Json.obj es).NumbersInRange) {k : String} {w : Json}
    (h : (Json.obj es).member k = some w) : w.NumbersInRange :=
  fun n hw => hn n (.member (HMap.mem_of_get? h) hw)

theorem float_exists {n : JNum} (h : (Json.num n).NumbersInRange) : ∃ x, Doc.IsFloat (.num n) x := by
  cases n with
  | float x => exact ⟨x, .inl rfl⟩
  | pos n => exact ⟨_, (float_iff h).1 rfl⟩
  | neg n => exact ⟨_, (float_iff h).1 rfl⟩

theorem type_member {env : SerdeEnv} {K : List String} {es : Members} (hp : (Json.obj es).PlainNode env C CA CO K)
    {T : String} (h : Doc.TypeIs T es) : (Json.obj es).member "type" = some (.str T) := by
  obtain ⟨v, h, e⟩ := h
  have hm : (Json.obj es).member "type" = some v := by rw [member_occ, h]; rfl
  rcases e with rfl | ⟨n, rfl, _⟩
  · exact hm
  · exact absurd hm (hp.type _)

theorem isFloat_num {w : Json} {x : F64} (h : Doc.IsFloat w x) : ∃ n, w = .num n := by
  rcases h with rfl | ⟨z, hz, _⟩
  · exact ⟨_, rfl⟩
  · obtain ⟨n, e, _⟩ := isInteger_value hz
    exact ⟨n, e⟩

theorem isType_fields {env : SerdeEnv} {K : List String} {R : Json → DataSchema DSx AS OS → Prop}
    (ho : ∀ w s, R w s → w.IsObject) {es : Members} {st : Option (SubtypeF AS OS (DataSchema DSx AS OS))}
    (hp : (Json.obj es).PlainNode env C CA CO K) (hn : (Json.obj es).NumbersInRange)
    (h : Doc.IsType env C CA CO K R es st) : FieldsOfType .crate R (.obj es) st := by
  cases h with
  | none h =>
    refine .none fun T hT e => h T ⟨_, occ_member (hp.names es rfl) e, .inl rfl⟩ (hp.constraints es T rfl hT e)
  | boolean h => exact .boolean (type_member hp h)
  | null h => exact .null (type_member hp h)
  | string h h1 h2 h3 =>
    exact .string (type_member hp h) (field_may h1 fun _ _ _ h => h) (field_may h2 fun _ _ _ h => h)
      (field_may h3 fun _ _ _ h => h)
  | number h h1 h2 h3 =>
    have ht := type_member hp h
    have hv : ∀ k ∈ ["minimum", "exclusiveMinimum", "maximum", "exclusiveMaximum", "multipleOf"], ∀ w x,
        (Json.obj es).member k = some w → Doc.IsFloat w x → ∃ n, w = .num n ∧ n.value = x.value := by
      intro k hk w x hw hx
      obtain ⟨n, rfl⟩ := isFloat_num hx
      obtain ⟨y, hy, e⟩ := hp.number ht k hk n hw
      exact ⟨n, rfl, (float_value hx hy e).symm⟩
    have hx : ∀ k ∈ ["minimum", "exclusiveMinimum", "maximum", "exclusiveMaximum"], ∀ n,
        (Json.obj es).member k = some (.num n) → ∃ x, Doc.IsFloat (.num n) x :=
      fun k _ n hm => float_exists (member_inRange hn hm)
    have hs : ∀ k ∈ ["minimum", "exclusiveMinimum", "maximum", "exclusiveMaximum"],
      k ∈ ["minimum", "exclusiveMinimum", "maximum", "exclusiveMaximum", "multipleOf"] := by simp
    exact .number ht (rangeSays (minSays_read h2 hp.minimum hx fun k hk => hv k (hs k hk))
      (maxSays_read h1 hp.maximum hx fun k hk => hv k (hs k hk))
      (field_may h3 fun w x hw hx => hv _ (by simp) w x hw hx))
  | integer h h1 h2 h3 =>
    have ht := type_member hp h
    have hx : ∀ k ∈ ["minimum", "exclusiveMinimum", "maximum", "exclusiveMaximum"], ∀ n,
        (Json.obj es).member k = some (.num n) → ∃ x, Doc.IsI64 (.num n) x := hp.integer ht
    refine .integer ht (rangeSays (minSays_read h2 hp.minimum hx fun k hk w x _ h => isInteger_value h)
      (maxSays_read h1 hp.maximum hx fun k hk w x _ h => isInteger_value h)
      (field_may h3 fun w x hw hx => ⟨_, hx, rfl⟩))
  | array h h1 h2 h3 =>
    refine .array (type_member hp h) (field_may h1 fun w x hw hx => ?_) (field_may h2 fun _ _ _ h => h)
      (field_may h3 fun _ _ _ h => h)
    cases hx with
    | elem r => obtain ⟨m, rfl⟩ := ho _ _ r; exact .elem r
    | vec hl => obtain ⟨hp⟩ := hl; exact .vec hp
  | object h h1 h2 =>
    refine .object (type_member hp h) (field_may h1 fun w x hw hx => ?_) (field_may h2 fun _ _ _ h => h)
    obtain ⟨_, hm, ho⟩ := hx
    refine ⟨⟨_, rfl⟩, fun k => ?_⟩
    have := ho k
    rw [occ_get? (hp.properties _ hw)] at this
    exact this

theorem read_fields {env : SerdeEnv} {K : List String} {R : Json → DataSchema DSx AS OS → Prop}
    (ho : ∀ w s, R w s → w.IsObject) {es : Members} {s : DataSchema DSx AS OS}
    (hp : (Json.obj es).PlainNode env C CA CO K) (hn : (Json.obj es).NumbersInRange)
    (h : Doc.IsSchemaMembers env C CA CO K R es s) : Fields .crate R (.obj es) s := by
  obtain ⟨-, -, -, -, -, h1, -, -, h2, h3, -, -, h4, h5, -⟩ := h
  refine ⟨?_, field_may h3 fun w x hw hx => ?_, field_may h4 fun _ _ _ h => h, field_may h2 fun w x hw hx => ?_,
    isType_fields ho hp hn h5⟩
  · have := hp.constant
    generalize s.head.constant = c at h1
    cases h1 with
    | absent h => rw [member_occ, h]; exact .none
    | given h hv =>
      rw [member_occ, h] at this ⊢
      cases hv with
      | null => exact absurd rfl this
      | value _ e => cases e; exact .some (norm_norm _).symm
  · obtain ⟨hp⟩ := hx
    exact ⟨_, rfl, hp.imp_left fun u _ c e => by rw [e, norm_norm]⟩
  · obtain ⟨hp⟩ := hx
    exact ⟨_, rfl, hp⟩

theorem hasSchema_size {d u : Json} (h : d.HasSchema u) : sizeOf u ≤ sizeOf d := by
  induction h with
  | self => exact Nat.le_refl _
  | oneOf h hm _ ih => exact Nat.le_of_lt (Nat.lt_of_le_of_lt ih (Json.mem_sizeOf h hm))
  | item h _ ih => exact Nat.le_of_lt (Nat.lt_of_le_of_lt ih (Json.member_sizeOf h))
  | items h hm _ ih => exact Nat.le_of_lt (Nat.lt_of_le_of_lt ih (Json.mem_sizeOf h hm))
  | property h hm _ ih =>
    exact Nat.le_of_lt (Nat.lt_of_le_of_lt ih (Nat.lt_trans (Json.member_sizeOf hm) (Json.member_sizeOf h)))

theorem hasSchema_inRange {d u : Json} (h : d.HasSchema u) (hn : d.NumbersInRange) : u.NumbersInRange := by
  have hm : ∀ {d w : Json} {k : String}, d.NumbersInRange → d.member k = some w → w.NumbersInRange := by
    intro d w k hn h
    cases d <;> first | exact member_inRange hn h | cases h
  have hl : ∀ {l : List Json} {w : Json}, (Json.arr l).NumbersInRange → w ∈ l → w.NumbersInRange :=
    fun hn hw n hnw => hn n (.element hw hnw)
  induction h with
  | self => exact hn
  | oneOf h hs _ ih => exact ih (hl (hm hn h) hs)
  | item h _ ih => exact ih (hm hn h)
  | items h hs _ ih => exact ih (hl (hm hn h) hs)
  | property h hs _ ih => exact ih (hm (hm hn h) hs)

theorem read_admits {env : SerdeEnv} (hV : V.Lawful) : ∀ (n : Nat) {s : DataSchema DSx AS OS} {d : Json}, sizeOf d ≤ n →
    d.NumbersInRange → (∀ u, d.HasSchema u → u.PlainNode env C CA CO []) → Doc.IsSchema env C CA CO d s →
    ∀ v, s.Admits V v ↔ d.Admits V .crate v := by
  intro n
  induction n with
  | zero => intro s d hn; cases d <;> simp at hn
  | succ n ih =>
    intro s d hn hr hp h v
    obtain ⟨h⟩ := h
    have := (read_fields (fun w s r => by obtain ⟨_⟩ := r; exact ⟨_, rfl⟩) (hp _ .self) hr h).inner
    exact node_iff hV (fun w c hw r v => ih (by omega) (hasSchema_inRange (r.2.1 _ .self) hr)
      (fun u hu => hp u (r.2.1 u hu)) r.1 v) this v

end

/-! ### Names of limits -/

theorem limit_names {L' : LimitNames} : ∀ (n : Nat) {d : Json}, sizeOf d ≤ n →
    (∀ u, d.HasSchema u → ∀ n, (u.member L.least = some (.num n) ↔ u.member L'.least = some (.num n)) ∧
      (u.member L.most = some (.num n) ↔ u.member L'.most = some (.num n))) →
    ∀ v, d.Admits V L v ↔ d.Admits V L' v := by
  intro n
  induction n with
  | zero => intro d hn; cases d <;> simp at hn
  | succ n ih =>
    intro d hn h v
    rw [Json.admits_iff, Json.admits_iff]
    refine and_congr .rfl (and_congr .rfl (and_congr .rfl (and_congr ?_ (and_congr .rfl (and_congr .rfl
      (and_congr .rfl (and_congr .rfl (and_congr .rfl (and_congr ?_ ?_)))))))))
    · refine forall_congr' fun l => forall_congr' fun hl => one_of_iff (pointwise_self fun s hs => ?_)
      exact ih (by have := Json.mem_sizeOf hl hs; omega) (fun u hu => h u (.oneOf hl hs hu)) v
    · refine forall_congr' fun _ => exists_congr fun l => and_congr .rfl (and_congr ?_ (and_congr ?_ ?_))
      · unfold Json.SizeWithin
        simp only [(h d .self _).1, (h d .self _).2]
      · refine forall_congr' fun m => forall_congr' fun hm => forall_congr' fun x => forall_congr' fun hx => ?_
        exact ih (by have := Json.member_sizeOf hm; omega) (fun u hu => h u (.item hm hu)) x
      · refine forall_congr' fun ss => forall_congr' fun hss => forall_congr' fun i => forall_congr' fun s =>
          forall_congr' fun hs => forall_congr' fun x => forall_congr' fun hx => ?_
        have hs := List.mem_of_getElem? hs
        exact ih (by have := Json.mem_sizeOf hss hs; omega) (fun u hu => h u (.items hss hs hu)) x
    · refine forall_congr' fun _ => and_congr .rfl (and_congr ?_ .rfl)
      refine forall_congr' fun p => forall_congr' fun hp => forall_congr' fun k => forall_congr' fun s =>
          forall_congr' fun hs => forall_congr' fun x => forall_congr' fun hx => ?_
      exact ih (by have := Json.member_sizeOf hp; have := Json.member_sizeOf hs; omega) (fun u hu => h u (.property hp hs hu)) x

theorem unlimited_admits {d : Json} (h : d.Unlimited) (v : Json) :
    d.Admits V .recommendation v ↔ d.Admits V .crate v :=
  limit_names _ (Nat.le_refl _) (fun u hu n => by
    simp [LimitNames.recommendation, LimitNames.crate, h u hu]) v

/-! ### Limits that are not seen -/

theorem withoutLimits_eq {L : Type} (s : Schema L DSx AS OS) : s.withoutLimits = .mk s.head
    (s.oneOf.map (List.map Schema.withoutLimits))
    ((s.subtype.map (SubtypeF.map Schema.withoutLimits)).map SubtypeF.withoutLimits) := by
  obtain ⟨h, o, st⟩ := s
  exact Schema.fold_mk _ h o st

theorem Fields.lax {R : Json → DataSchema DSx AS OS → Prop} {d : Json} {s : DataSchema DSx AS OS}
    (h : Fields .crate R d s) (hd : ∀ k ∈ ["minItems", "maxItems"], d.member k = none) :
    Fields .recommendation (fun w c' => ∃ c, R w c ∧ c' = c.withoutLimits) d s.withoutLimits := by
  obtain ⟨h1, h2, h3, h4, h5⟩ := h
  rw [withoutLimits_eq]
  have hpw : ∀ {ws : List Json} {l : List (DataSchema DSx AS OS)}, Pointwise R ws l →
      Pointwise (fun w c' => ∃ c, R w c ∧ c' = c.withoutLimits) ws (l.map Schema.withoutLimits) := by
    intro ws l h
    induction h with
    | nil => exact .nil
    | cons r _ ih => exact .cons ⟨_, r, rfl⟩ ih
  refine ⟨h1, h2, h3, ?_, ?_⟩
  · show Field d "oneOf" _ (s.oneOf.map (List.map Schema.withoutLimits))
    generalize s.oneOf = o at h4
    cases h4 with
    | none h => exact .none h
    | some h e =>
      obtain ⟨ws, rfl, hp⟩ := e
      exact .some h ⟨ws, rfl, hpw hp⟩
  · show FieldsOfType _ _ d ((s.subtype.map (SubtypeF.map Schema.withoutLimits)).map SubtypeF.withoutLimits)
    generalize s.subtype = st at h5
    cases h5 with
    | none h => exact .none h
    | boolean h => exact .boolean h
    | null h => exact .null h
    | string h h1 h2 h3 => exact .string h h1 h2 h3
    | number h h1 => exact .number h h1
    | integer h h1 => exact .integer h h1
    | @array a h h1 h2 h3 =>
      refine .array h ?_ (.none (.inl (hd "minItems" (by simp)))) (.none (.inl (hd "maxItems" (by simp))))
      show Field d "items" _ (a.items.map (ElemOrVec.map Schema.withoutLimits))
      generalize a.items = o at h1
      cases h1 with
      | none h => exact .none h
      | some h e =>
        refine .some h ?_
        cases e with
        | elem r => exact .elem ⟨_, r, rfl⟩
        | vec hp => exact .vec (hpw hp)
    | @object b h h1 h2 =>
      refine .object h ?_ h2
      show Field d "properties" _ (b.properties.map (HMap.mapVals Schema.withoutLimits))
      generalize b.properties = o at h1
      cases h1 with
      | none h => exact .none h
      | @some p m h e =>
        refine .some h ⟨e.1, fun k => ?_⟩
        have := e.2 k
        rw [HMap.get?_mapVals]
        generalize p.member k = w at this
        generalize HMap.get? m k = c at this
        cases this with
        | none => exact .none
        | some r => exact .some ⟨_, r, rfl⟩

theorem shown_lax {C : ExtCodec DSx} {CA : ExtCodec AS} {CO : ExtCodec OS} (hV : V.Lawful) : ∀ (n : Nat)
    {s : DataSchema DSx AS OS} {d : Json}, sizeOf d ≤ n → (∀ x, Within x s → FiniteBounds x) → d.LimitsUnsaid →
    SchemaShown C CA CO s d → ∀ v, s.withoutLimits.Admits V v ↔ d.Admits V .recommendation v := by
  intro n
  induction n with
  | zero => intro s d hn; cases d <;> simp at hn
  | succ n ih =>
    intro s d hn hf hd h v
    obtain ⟨h, -⟩ := h
    have := (nodeShown_fields (fun s w r => schemaShown_object r) (hf s (.self s)) h).inner.lax (hd d .self)
    refine node_iff hV (fun w c' hw r v => ?_) this v
    obtain ⟨c, r, rfl⟩ := r
    exact ih (by omega) (fun x hx => hf x (r.2.2 x hx)) (fun u hu => hd u (r.2.1 u hu)) r.1 v

/-! ### Things -/

theorem unsaid_shown {C : ExtCodec DSx} {CA : ExtCodec AS} {CO : ExtCodec OS} (hc : C.keys = []) (ha : CA.keys = [])
    (ho : CO.keys = []) {d : Json} {s : DataSchema DSx AS OS} (hs : SchemaShown C CA CO s d) : d.LimitsUnsaid := by
  intro u h
  have step : ∀ {d w : Json} {s : DataSchema DSx AS OS}, SchemaShown C CA CO s d → d.SchemaIn w →
      ∃ c, SchemaShown C CA CO c w := by
    intro d w s hs hw
    obtain ⟨hn, -⟩ := hs
    obtain ⟨c, hc, r⟩ := node_nested hn hw fun _ _ => schemaShown_object
    exact ⟨c, r⟩
  induction h generalizing s with
  | self =>
    obtain ⟨hn, honly⟩ := hs
    rw [hc, typeKeys_nil ha ho] at honly
    intro k hk
    apply Classical.byContradiction
    intro e
    have := honly.2 k e
    clear e
    revert this hk
    revert k
    decide
  | oneOf h hm _ ih =>
    obtain ⟨c, h1⟩ := step hs (.oneOf ⟨_, h, hm⟩)
    exact ih h1
  | item h _ ih =>
    obtain ⟨c, h1⟩ := step hs (.items (.inr ⟨h, _, rfl⟩))
    exact ih h1
  | items h hm _ ih =>
    obtain ⟨c, h1⟩ := step hs (.items (.inl ⟨_, h, hm⟩))
    exact ih h1
  | property h hm _ ih =>
    obtain ⟨c, h1⟩ := step hs (.properties ⟨_, _, h, hm⟩)
    exact ih h1

theorem unlimited_shown {C : ExtCodec DSx} {CA : ExtCodec AS} {CO : ExtCodec OS} (hc : C.keys = []) (ha : CA.keys = [])
    (ho : CO.keys = []) {d u : Json} (h : d.HasSchema u) {s : DataSchema DSx AS OS} (hs : SchemaShown C CA CO s d)
    (hu : s.Unlimited) : ∀ k ∈ ["minItems", "maxItems", "min_items", "max_items"], u.member k = none := by
  have step : ∀ {d w : Json} {s : DataSchema DSx AS OS}, SchemaShown C CA CO s d → d.SchemaIn w → s.Unlimited →
      ∃ c, SchemaShown C CA CO c w ∧ c.Unlimited := by
    intro d w s hs hw hu
    obtain ⟨hn, -⟩ := hs
    obtain ⟨c, hc, r⟩ := node_nested hn hw fun _ _ => schemaShown_object
    refine ⟨c, r, fun x hx => hu x (within_iff.2 (.inr ?_))⟩
    exact hc.imp (fun ⟨l, h1, h2⟩ => ⟨l, h1, c, h2, hx⟩) fun ⟨st, h1, h2⟩ => ⟨st, h1, c, h2, hx⟩
  induction h generalizing s with
  | self =>
    obtain ⟨hn, honly⟩ := hs
    rw [hc, typeKeys_nil ha ho] at honly
    intro k hk
    by_cases hk' : k ∈ ["min_items", "max_items"]
    · obtain ⟨-, -, -, -, -, -, -, -, -, -, -, -, -, ht, -⟩ := hn
      have hN : k ∈ Names.schemaType := by revert hk'; revert k; decide
      generalize hst : s.subtype = st at ht
      cases ht with
      | none h => exact h k hN nofun
      | boolean _ h => exact h k hN (by revert hk'; revert k; decide)
      | null _ h => exact h k hN (by revert hk'; revert k; decide)
      | string _ _ _ _ _ _ h => exact h k hN (by revert hk'; revert k; decide)
      | number _ _ _ _ h => exact h k hN (by revert hk'; revert k; decide)
      | integer _ _ _ _ h => exact h k hN (by revert hk'; revert k; decide)
      | object _ _ _ h => exact h k hN (by revert hk'; revert k; decide)
      | @array a _ _ _ h1 h2 =>
        obtain ⟨e1, e2⟩ := hu s (.self s) a hst
        rw [e1] at h1
        rw [e2] at h2
        simp only [List.mem_cons, List.not_mem_nil, or_false] at hk'
        rcases hk' with rfl | rfl
        · generalize Json.member _ "min_items" = m at h1 ⊢
          cases h1; rfl
        · generalize Json.member _ "max_items" = m at h2 ⊢
          cases h2; rfl
    · apply Classical.byContradiction
      intro e
      have := honly.2 k e
      clear e
      revert this hk' hk
      revert k
      decide
  | oneOf h hm _ ih =>
    obtain ⟨c, h1, h2⟩ := step hs (.oneOf ⟨_, h, hm⟩) hu
    exact ih h1 h2
  | item h _ ih =>
    obtain ⟨c, h1, h2⟩ := step hs (.items (.inr ⟨h, _, rfl⟩)) hu
    exact ih h1 h2
  | items h hm _ ih =>
    obtain ⟨c, h1, h2⟩ := step hs (.items (.inl ⟨_, h, hm⟩)) hu
    exact ih h1 h2
  | property h hm _ ih =>
    obtain ⟨c, h1, h2⟩ := step hs (.properties ⟨_, _, h, hm⟩) hu
    exact ih h1 h2

section
variable {X : ExtTypes} {C : ExtCodecs X} {env : SerdeEnv} {t : Thing X} {V : ValueRules}

theorem at_cons {v w : Json} {k : String} {ks : List String} (h : v.member k = some w) : v.at (k :: ks) = w.at ks := by
  simp [Json.at, h]

/-- A data schema that is shown, or the data schema of a property. -/
inductive ShownAs (C : ExtCodecs X) (s : DS X) (w : Json) : Prop
  | alone : DSShown C s w → ShownAs C s w
  | property {n : Info} : NodeShown C.dataSchema C.arraySchema C.objectSchema (DSShown C) (s.withInfo n) w → ShownAs C s w

theorem withInfo_admits {s : DS X} {n : Info} (v : Json) : (s.withInfo n).Admits V v ↔ s.Admits V v := by
  rw [Schema.admits_iff, Schema.admits_iff]; rfl

theorem ShownAs.admits (hV : V.Lawful) {s : DS X} {w : Json} (h : ShownAs C s w)
    (hf : ∀ x, Within x s → FiniteBounds x) (v : Json) : w.Admits V .crate v ↔ s.Admits V v := by
  cases h with
  | alone h => exact (shown_admits hV _ (Nat.le_refl _) hf h v).symm
  | @property n h =>
    rw [← withInfo_admits (n := n)]
    have hf0 : FiniteBounds (s.withInfo n) :=
      ⟨(hf s (.self s)).maximum, (hf s (.self s)).minimum, (hf s (.self s)).multipleOf⟩
    have hf' : ∀ x, Within x (s.withInfo n) → FiniteBounds x := by
      intro x hx
      rcases within_withInfo hx with rfl | hx
      · exact hf0
      · exact hf x hx
    have := (nodeShown_fields (fun s w r => schemaShown_object r) hf0 h).inner
    exact (node_iff hV (fun w c hw r v => shown_admits hV _ (Nat.le_refl _) (fun x hx => hf' x (r.2.2 x hx)) r.1 v) this v).symm

theorem withInfo_lax {s : DS X} {n : Info} (v : Json) :
    (s.withInfo n).withoutLimits.Admits V v ↔ s.withoutLimits.Admits V v := by
  rw [withoutLimits_eq, withoutLimits_eq, Schema.admits_iff, Schema.admits_iff]; rfl

theorem ShownAs.lax (hV : V.Lawful) {s : DS X} {w : Json} (h : ShownAs C s w)
    (hf : ∀ x, Within x s → FiniteBounds x) (hd : w.LimitsUnsaid) (v : Json) :
    w.Admits V .recommendation v ↔ s.withoutLimits.Admits V v := by
  cases h with
  | alone h => exact (shown_lax hV _ (Nat.le_refl _) hf hd h v).symm
  | @property n h =>
    rw [← withInfo_lax (n := n)]
    have hf0 : FiniteBounds (s.withInfo n) :=
      ⟨(hf s (.self s)).maximum, (hf s (.self s)).minimum, (hf s (.self s)).multipleOf⟩
    have hf' : ∀ x, Within x (s.withInfo n) → FiniteBounds x := by
      intro x hx
      rcases within_withInfo hx with rfl | hx
      · exact hf0
      · exact hf x hx
    have := (nodeShown_fields (fun s w r => schemaShown_object r) hf0 h).inner.lax (hd w .self)
    refine (node_iff hV (fun u c' hw r v => ?_) this v).symm
    obtain ⟨c, r, rfl⟩ := r
    exact shown_lax hV _ (Nat.le_refl _) (fun x hx => hf' x (r.2.2 x hx)) (fun y hy => hd y (r.2.1 y hy)) r.1 v

theorem opt_member {A : Type} {R : A → Json → Prop} {o : Option A} {a : A} {v : Json} {k : String}
    (h : OptRel R o (v.member k)) (e : o = some a) : ∃ w, v.member k = some w ∧ R a w := by
  subst e
  generalize v.member k = m at h
  cases h with
  | some r => exact ⟨_, rfl, r⟩

theorem map_member {A : Type} {R : A → Json → Prop} {m : HMap A} {v : Json} (h : MapShown R m v) {k : String} {a : A}
    (e : m.get? k = some a) : ∃ w, v.member k = some w ∧ R a w := by
  obtain ⟨-, h⟩ := h
  exact opt_member (h k) e

theorem shown_at {v : Json} (h : ThingShown C env t v) {path : List String} {s : DS X} (hs : t.SchemaAt path s) :
    ∃ w, v.at path = some w ∧ ShownAs C s w := by
  have hvars : ∀ {i : Interaction X} {w : Json} {u : HMap (DS X)} {k : String} {s : DS X}, InteractionShown C i w →
      i.uriVariables = some u → u.get? k = some s → ∃ x, w.at ["uriVariables", k] = some x ∧ ShownAs C s x := by
    intro i w u k s h e e'
    obtain ⟨w1, a1, b1⟩ := opt_member h.uriVariables e
    obtain ⟨w2, a2, b2⟩ := map_member b1 e'
    exact ⟨w2, by rw [at_cons a1, at_cons a2]; rfl, .alone b2⟩
  cases hs with
  | property e1 e2 =>
    obtain ⟨w1, a1, b1⟩ := opt_member h.properties e1
    obtain ⟨w2, a2, b2⟩ := map_member b1 e2
    exact ⟨w2, by rw [at_cons a1, at_cons a2]; rfl, .property b2.dataSchema⟩
  | propertyVariable e1 e2 e3 e4 =>
    obtain ⟨w1, a1, b1⟩ := opt_member h.properties e1
    obtain ⟨w2, a2, b2⟩ := map_member b1 e2
    rw [at_cons a1, at_cons a2]
    exact hvars b2.interaction e3 e4
  | input e1 e2 e3 =>
    obtain ⟨w1, a1, b1⟩ := opt_member h.actions e1
    obtain ⟨w2, a2, b2⟩ := map_member b1 e2
    obtain ⟨w3, a3, b3⟩ := opt_member b2.input e3
    exact ⟨w3, by rw [at_cons a1, at_cons a2, at_cons a3]; rfl, .alone b3⟩
  | output e1 e2 e3 =>
    obtain ⟨w1, a1, b1⟩ := opt_member h.actions e1
    obtain ⟨w2, a2, b2⟩ := map_member b1 e2
    obtain ⟨w3, a3, b3⟩ := opt_member b2.output e3
    exact ⟨w3, by rw [at_cons a1, at_cons a2, at_cons a3]; rfl, .alone b3⟩
  | actionVariable e1 e2 e3 e4 =>
    obtain ⟨w1, a1, b1⟩ := opt_member h.actions e1
    obtain ⟨w2, a2, b2⟩ := map_member b1 e2
    rw [at_cons a1, at_cons a2]
    exact hvars b2.interaction e3 e4
  | subscription e1 e2 e3 =>
    obtain ⟨w1, a1, b1⟩ := opt_member h.events e1
    obtain ⟨w2, a2, b2⟩ := map_member b1 e2
    obtain ⟨w3, a3, b3⟩ := opt_member b2.subscription e3
    exact ⟨w3, by rw [at_cons a1, at_cons a2, at_cons a3]; rfl, .alone b3⟩
  | data e1 e2 e3 =>
    obtain ⟨w1, a1, b1⟩ := opt_member h.events e1
    obtain ⟨w2, a2, b2⟩ := map_member b1 e2
    obtain ⟨w3, a3, b3⟩ := opt_member b2.data e3
    exact ⟨w3, by rw [at_cons a1, at_cons a2, at_cons a3]; rfl, .alone b3⟩
  | cancellation e1 e2 e3 =>
    obtain ⟨w1, a1, b1⟩ := opt_member h.events e1
    obtain ⟨w2, a2, b2⟩ := map_member b1 e2
    obtain ⟨w3, a3, b3⟩ := opt_member b2.cancellation e3
    exact ⟨w3, by rw [at_cons a1, at_cons a2, at_cons a3]; rfl, .alone b3⟩
  | eventVariable e1 e2 e3 e4 =>
    obtain ⟨w1, a1, b1⟩ := opt_member h.events e1
    obtain ⟨w2, a2, b2⟩ := map_member b1 e2
    rw [at_cons a1, at_cons a2]
    exact hvars b2.interaction e3 e4
  | uriVariable e1 e2 =>
    obtain ⟨w1, a1, b1⟩ := opt_member h.uriVariables e1
    obtain ⟨w2, a2, b2⟩ := map_member b1 e2
    exact ⟨w2, by rw [at_cons a1, at_cons a2]; rfl, .alone b2⟩
  | schemaDefinition e1 e2 =>
    obtain ⟨w1, a1, b1⟩ := opt_member h.schemaDefinitions e1
    obtain ⟨w2, a2, b2⟩ := map_member b1 e2
    exact ⟨w2, by rw [at_cons a1, at_cons a2]; rfl, .alone b2⟩

/-! ### Things that are read -/

/-- A data schema that is read, or the data schema of a property. -/
def ReadAs (env : SerdeEnv) (C : ExtCodecs X) (K : List String) (w : Json) (s : DS X) : Prop :=
  ∃ es, w = .obj es ∧ Doc.IsSchemaMembers env C.dataSchema C.arraySchema C.objectSchema K (Doc.IsDS env C) es s

theorem ReadAs.admits {K : List String} (hV : V.Lawful) {s : DS X} {w : Json} (h : ReadAs env C K w s)
    (hn : w.NumbersInRange) (hp : w.Plain env C.dataSchema C.arraySchema C.objectSchema K) (v : Json) :
    s.Admits V v ↔ w.Admits V .crate v := by
  obtain ⟨es, rfl, h⟩ := h
  have hi : ∀ w' c, sizeOf w' < sizeOf (Json.obj es) → Inner (Doc.IsDS env C) (.obj es) s w' c →
      ∀ v, c.Admits V v ↔ w'.Admits V .crate v := by
    intro w c hw r v
    refine read_admits hV _ (Nat.le_refl _) (hasSchema_inRange (r.2.1 _ .self) hn) (fun u hu => ?_) r.1 v
    rcases hp.2 u (r.2.1 u hu) with rfl | h
    · have := hasSchema_size hu
      omega
    · exact h
  exact node_iff hV hi (read_fields (fun w s r => by obtain ⟨_⟩ := r; exact ⟨_, rfl⟩) hp.1 hn h).inner v

theorem may_member {A : Type} {Is : Json → A → Prop} {k : String} {es : Members} {o : Option A} {x : A}
    (h : Doc.May k Is es o) (e : o = some x) : ∃ w, (Json.obj es).member k = some w ∧ Is w x := by
  subst e
  cases h with
  | given h ho =>
    cases ho with
    | value _ hw => exact ⟨_, by rw [member_occ, h]; rfl, hw⟩

theorem member_noDup {v w : Json} {k : String} (hd : v.NoDup) (h : v.member k = some w) : w.NoDup := by
  cases v with
  | obj es => exact (noDupMembers_iff es).1 hd.2 _ (HMap.mem_of_get? h)
  | _ => cases h

theorem mapOf_member {A : Type} {R : Json → A → Prop} {v : Json} {m : HMap A} (h : Doc.IsMapOf R v m) (hd : v.NoDup)
    {k : String} {x : A} (e : m.get? k = some x) : ∃ w, v.member k = some w ∧ R w x := by
  obtain ⟨_, _, h⟩ := h
  have := h k
  rw [occ_get? hd.1, e] at this
  unfold Json.member
  simp only
  generalize HMap.get? _ k = w at this ⊢
  cases this with
  | some r => exact ⟨_, rfl, r⟩

theorem read_at {d : Json} (hd : d.NoDup) (h : Doc.IsThing env C d t) {path : List String} {s : DS X}
    (hs : t.SchemaAt path s) : ∃ w, d.at path = some w ∧ ReadAs env C (outerNames path) w s := by
  obtain ⟨h⟩ := h
  rename_i es
  have hds : ∀ {w : Json} {s : DS X}, Doc.IsDS env C w s → ReadAs env C [] w s := fun h => by
    obtain ⟨h⟩ := h; exact ⟨_, rfl, h⟩
  have hvars : ∀ {K : List String} {i : Interaction X} {es : Members} {u : HMap (DS X)} {k : String} {s : DS X},
      (Json.obj es).NoDup → Doc.IsInteraction env C K es i →
      i.uriVariables = some u → u.get? k = some s → ∃ x, (Json.obj es).at ["uriVariables", k] = some x ∧ ReadAs env C [] x s := by
    intro K i es u k s hd h e e'
    obtain ⟨w1, a1, b1⟩ := may_member h.uriVariables e
    obtain ⟨w2, a2, b2⟩ := mapOf_member b1 (member_noDup hd a1) e'
    exact ⟨w2, by rw [at_cons a1, at_cons a2]; rfl, hds b2⟩
  cases hs with
  | property e1 e2 =>
    obtain ⟨w1, a1, b1⟩ := may_member h.properties e1
    obtain ⟨w2, a2, b2⟩ := mapOf_member b1 (member_noDup hd a1) e2
    obtain ⟨b2⟩ := b2
    exact ⟨_, by rw [at_cons a1, at_cons a2]; rfl, _, rfl, b2.dataSchema⟩
  | propertyVariable e1 e2 e3 e4 =>
    obtain ⟨w1, a1, b1⟩ := may_member h.properties e1
    obtain ⟨w2, a2, b2⟩ := mapOf_member b1 (member_noDup hd a1) e2
    obtain ⟨b2⟩ := b2
    rw [at_cons a1, at_cons a2]
    exact hvars (member_noDup (member_noDup hd a1) a2) b2.interaction e3 e4
  | input e1 e2 e3 =>
    obtain ⟨w1, a1, b1⟩ := may_member h.actions e1
    obtain ⟨w2, a2, b2⟩ := mapOf_member b1 (member_noDup hd a1) e2
    obtain ⟨b2⟩ := b2
    obtain ⟨w3, a3, b3⟩ := may_member b2.input e3
    exact ⟨w3, by rw [at_cons a1, at_cons a2, at_cons a3]; rfl, hds b3⟩
  | output e1 e2 e3 =>
    obtain ⟨w1, a1, b1⟩ := may_member h.actions e1
    obtain ⟨w2, a2, b2⟩ := mapOf_member b1 (member_noDup hd a1) e2
    obtain ⟨b2⟩ := b2
    obtain ⟨w3, a3, b3⟩ := may_member b2.output e3
    exact ⟨w3, by rw [at_cons a1, at_cons a2, at_cons a3]; rfl, hds b3⟩
  | actionVariable e1 e2 e3 e4 =>
    obtain ⟨w1, a1, b1⟩ := may_member h.actions e1
    obtain ⟨w2, a2, b2⟩ := mapOf_member b1 (member_noDup hd a1) e2
    obtain ⟨b2⟩ := b2
    rw [at_cons a1, at_cons a2]
    exact hvars (member_noDup (member_noDup hd a1) a2) b2.interaction e3 e4
  | subscription e1 e2 e3 =>
    obtain ⟨w1, a1, b1⟩ := may_member h.events e1
    obtain ⟨w2, a2, b2⟩ := mapOf_member b1 (member_noDup hd a1) e2
    obtain ⟨b2⟩ := b2
    obtain ⟨w3, a3, b3⟩ := may_member b2.subscription e3
    exact ⟨w3, by rw [at_cons a1, at_cons a2, at_cons a3]; rfl, hds b3⟩
  | data e1 e2 e3 =>
    obtain ⟨w1, a1, b1⟩ := may_member h.events e1
    obtain ⟨w2, a2, b2⟩ := mapOf_member b1 (member_noDup hd a1) e2
    obtain ⟨b2⟩ := b2
    obtain ⟨w3, a3, b3⟩ := may_member b2.data e3
    exact ⟨w3, by rw [at_cons a1, at_cons a2, at_cons a3]; rfl, hds b3⟩
  | cancellation e1 e2 e3 =>
    obtain ⟨w1, a1, b1⟩ := may_member h.events e1
    obtain ⟨w2, a2, b2⟩ := mapOf_member b1 (member_noDup hd a1) e2
    obtain ⟨b2⟩ := b2
    obtain ⟨w3, a3, b3⟩ := may_member b2.cancellation e3
    exact ⟨w3, by rw [at_cons a1, at_cons a2, at_cons a3]; rfl, hds b3⟩
  | eventVariable e1 e2 e3 e4 =>
    obtain ⟨w1, a1, b1⟩ := may_member h.events e1
    obtain ⟨w2, a2, b2⟩ := mapOf_member b1 (member_noDup hd a1) e2
    obtain ⟨b2⟩ := b2
    rw [at_cons a1, at_cons a2]
    exact hvars (member_noDup (member_noDup hd a1) a2) b2.interaction e3 e4
  | uriVariable e1 e2 =>
    obtain ⟨w1, a1, b1⟩ := may_member h.uriVariables e1
    obtain ⟨w2, a2, b2⟩ := mapOf_member b1 (member_noDup hd a1) e2
    exact ⟨w2, by rw [at_cons a1, at_cons a2]; rfl, hds b2⟩
  | schemaDefinition e1 e2 =>
    obtain ⟨w1, a1, b1⟩ := may_member h.schemaDefinitions e1
    obtain ⟨w2, a2, b2⟩ := mapOf_member b1 (member_noDup hd a1) e2
    exact ⟨w2, by rw [at_cons a1, at_cons a2]; rfl, hds b2⟩

theorem at_inRange {d w : Json} (hn : d.NumbersInRange) : ∀ {path : List String}, d.at path = some w → w.NumbersInRange := by
  intro path
  induction path generalizing d with
  | nil => intro h; cases h; exact hn
  | cons k ks ih =>
    intro h
    cases hm : d.member k with
    | none => simp [Json.at, hm] at h
    | some x =>
      rw [at_cons hm] at h
      refine ih ?_ h
      cases d with
      | obj es => exact member_inRange hn hm
      | _ => cases hm

end

end Wot
