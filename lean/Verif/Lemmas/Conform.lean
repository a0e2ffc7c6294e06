import Verif.Spec.Conform
import Verif.Lemmas.Vocabulary
import Verif.Lemmas.Stored
/-
Which Things are written as documents that conform to the Recommendation.
-/
namespace Wot
namespace Conform

/-! ### Members -/

section
variable {A : Type} {R : A → Json → Prop} {P : Json → Prop} {Q : A → Prop} {v w : Json} {k : String}

theorem may_iff {o : Option A} (h : OptRel R o (v.member k)) (hpq : ∀ a w, o = some a → R a w → (P w ↔ Q a)) :
    May k P v ↔ ∀ a, o = some a → Q a := by
  constructor
  · intro hm a ha
    rw [ha] at h
    generalize e : v.member k = x at h
    cases h with
    | some r => exact (hpq a _ ha r).1 (hm _ e)
  · intro hq w hw
    obtain ⟨a, ha, r⟩ := optRel_some h hw
    exact (hpq a w ha r).2 (hq a ha)

theorem may_of {o : Option A} (h : OptRel R o (v.member k)) (hp : ∀ a w, R a w → P w) : May k P v := by
  intro w hw
  obtain ⟨a, _, r⟩ := optRel_some h hw
  exact hp a w r

theorem may_absent (h : v.member k = none) : May k P v := fun w hw => by rw [h] at hw; cases hw

theorem text_of (s : String) (w : Json) (h : StrShown s w) : Text w := ⟨s, h, trivial⟩

theorem text_not_array (l : List Json) (D : String → Prop) : ¬ Str D (.arr l) := fun ⟨_, h, _⟩ => by cases h

theorem str_iff {D : String → Prop} {s : String} (h : StrShown s w) : Str D w ↔ D s :=
  ⟨fun ⟨s', e, hd⟩ => by rw [h] at e; cases e; exact hd, fun hd => ⟨s, h, hd⟩⟩

theorem pointwise_all {l : List A} {ws : List Json} (h : Pointwise R l ws) (hpq : ∀ a w, a ∈ l → R a w → (P w ↔ Q a)) :
    (∀ w ∈ ws, P w) ↔ ∀ a ∈ l, Q a := by
  constructor
  · intro hp a ha
    obtain ⟨w, hw, r⟩ := h.exists_right ha
    exact (hpq a w ha r).1 (hp w hw)
  · intro hq w hw
    obtain ⟨a, ha, r⟩ := h.of_right hw
    exact (hpq a w ha r).2 (hq a ha)

theorem pointwise_length {l : List A} {ws : List Json} (h : Pointwise R l ws) : ws.length = l.length := by
  induction h with
  | nil => rfl
  | cons _ _ ih => rw [List.length_cons, List.length_cons, ih]

theorem arrayMin_iff {l : List A} {n : Nat} (h : ListShown R l w) (hpq : ∀ a w, a ∈ l → R a w → (P w ↔ Q a)) :
    ArrayMin n P w ↔ n ≤ l.length ∧ ∀ a ∈ l, Q a := by
  cases h with
  | mk h =>
    constructor
    · rintro ⟨ws, e, hn, hp⟩
      cases e
      exact ⟨pointwise_length h ▸ hn, (pointwise_all h hpq).1 hp⟩
    · rintro ⟨hn, hq⟩
      exact ⟨_, rfl, pointwise_length h ▸ hn, (pointwise_all h hpq).2 hq⟩

theorem array_iff {l : List A} (h : ListShown R l w) (hpq : ∀ a w, a ∈ l → R a w → (P w ↔ Q a)) :
    Array P w ↔ ∀ a ∈ l, Q a := by
  cases h with
  | mk h =>
    constructor
    · rintro ⟨ws, e, hp⟩
      cases e
      exact (pointwise_all h hpq).1 hp
    · intro hq
      exact ⟨_, rfl, (pointwise_all h hpq).2 hq⟩

theorem array_of {l : List A} (h : ListShown R l w) (hp : ∀ a w, R a w → P w) : Array P w :=
  (array_iff (Q := fun _ => True) h fun a w _ r => iff_of_true (hp a w r) trivial).2 fun _ _ => trivial

theorem oneOrMany_iff {l : List A} (h : OneOrManyShown R l w) (hP : ∀ l, ¬ P (.arr l)) (hR : ∀ a l, ¬ R a (.arr l))
    (hpq : ∀ a w, a ∈ l → R a w → (P w ↔ Q a)) : OneOrMany P w ↔ ∀ a ∈ l, Q a := by
  cases h with
  | @one a _ r =>
    constructor
    · rintro (hp | ⟨l, rfl, _⟩) b hb
      · rw [List.mem_singleton.1 hb]
        exact (hpq a w List.mem_cons_self r).1 hp
      · exact absurd r (hR _ _)
    · intro hq
      exact .inl ((hpq a w List.mem_cons_self r).2 (hq a List.mem_cons_self))
  | many _ h =>
    constructor
    · rintro (hp | hp)
      · cases h with
        | mk _ => exact absurd hp (hP _)
      · exact (array_iff h hpq).1 hp
    · intro hq
      exact .inr ((array_iff h hpq).2 hq)

theorem texts_of (l : List String) (w : Json) (h : StringsShown l w) : OneOrMany Text w :=
  (oneOrMany_iff (Q := fun _ => True) h (fun l => text_not_array l _) (fun _ _ e => by cases e)
    fun a w _ r => str_iff r).2 fun _ _ => trivial

theorem names_iff {D : String → Prop} {l : List String} (h : StringsShown l w) :
    Names D w ↔ l ≠ [] ∧ ∀ n ∈ l, D n := by
  cases h with
  | one r =>
    constructor
    · rintro (hp | ⟨_, rfl, _⟩)
      · refine ⟨by simp, fun n hn => ?_⟩
        rw [List.mem_singleton.1 hn]
        exact (str_iff r).1 hp
      · cases r
    · intro hq
      exact .inl ((str_iff r).2 (hq.2 _ List.mem_cons_self))
  | many _ h =>
    have hi := arrayMin_iff (P := Str D) (Q := D) (n := 1) h fun a w _ r => str_iff r
    have hl : 1 ≤ l.length ↔ l ≠ [] := by cases l <;> simp
    rw [hl] at hi
    constructor
    · rintro (hp | hp)
      · cases h with
        | mk _ => exact absurd hp (text_not_array _ _)
      · exact hi.1 hp
    · intro hq
      exact .inr (hi.2 hq)

theorem map_iff {m : HMap A} (h : MapShown R m w) {P : String → Json → Prop} {Q : String → A → Prop}
    (hpq : ∀ k a w, m.get? k = some a → R a w → (P k w ↔ Q k a)) :
    (w.IsObject ∧ ∀ k x, w.member k = some x → P k x) ↔ ∀ k a, m.get? k = some a → Q k a := by
  cases h with
  | mk ho h =>
    have hk : ∀ k, May k (P k) w ↔ ∀ a, m.get? k = some a → Q k a := fun k => may_iff (h k) fun a w ha r => hpq k a w ha r
    constructor
    · rintro ⟨_, hp⟩ k
      exact (hk k).1 (hp k)
    · intro hq
      exact ⟨ho, fun k => (hk k).2 (hq k)⟩

end

variable {F : Formats}

theorem mem_keys_iff {A : Type} {m : HMap A} {k : String} : k ∈ HMap.keys m ↔ ∃ a, m.get? k = some a := by
  constructor
  · intro h
    induction m with
    | nil => cases h
    | cons kv m ih =>
      obtain ⟨k', a⟩ := kv
      rw [HMap.get?]
      split
      · exact ⟨a, rfl⟩
      · next hne =>
        rcases List.mem_cons.1 h with e | e
        · exact absurd e hne
        · exact ih e
  · rintro ⟨a, ha⟩
    exact List.mem_map.2 ⟨_, HMap.mem_of_get? ha, rfl⟩

theorem translations_iff {m : MultiLanguage} {w : Json} (h : LangShown m w) :
    Translations F w ↔ ∀ k ∈ HMap.keys m.map, F.tag k := by
  rw [Translations, map_iff h (Q := fun k _ => F.tag k) fun k a w _ r => and_iff_left (text_of a w r)]
  constructor
  · intro hq k hk
    obtain ⟨a, ha⟩ := mem_keys_iff.1 hk
    exact hq k a ha
  · intro hq k a ha
    exact hq k (mem_keys_iff.2 ⟨a, ha⟩)

theorem mayTranslations_iff {o : Option MultiLanguage} {v : Json} {k : String} (h : OptRel LangShown o (v.member k)) :
    May k (Translations F) v ↔ TagsIn F o :=
  may_iff h fun _ _ _ r => translations_iff r

theorem info_iff {v : Json} {ty : Option (List String)} {title desc : Option String} {titles descs : Option MultiLanguage}
    (h1 : OptRel StringsShown ty (v.member "@type")) (h2 : OptRel StrShown title (v.member "title"))
    (h3 : OptRel LangShown titles (v.member "titles")) (h4 : OptRel StrShown desc (v.member "description"))
    (h5 : OptRel LangShown descs (v.member "descriptions")) : Info F v ↔ TagsIn F titles ∧ TagsIn F descs := by
  constructor
  · intro h
    exact ⟨(mayTranslations_iff h3).1 h.titles, (mayTranslations_iff h5).1 h.descriptions⟩
  · rintro ⟨ht, hd⟩
    exact ⟨may_of h1 texts_of, may_of h2 text_of, (mayTranslations_iff h3).2 ht, may_of h4 text_of,
      (mayTranslations_iff h5).2 hd⟩

/-! ### Data schemas -/

section
variable {DSx AS OS : Type} {C : ExtCodec DSx} {CA : ExtCodec AS} {CO : ExtCodec OS}
variable {R : DataSchema DSx AS OS → Json → Prop}

/-- The members of a schema that depend on its type, but for limits of arrays. -/
structure TypeNode (v : Json) : Prop where
  type : May "type" (Str (· ∈ ["object", "array", "string", "number", "integer", "boolean", "null"])) v
  items : May "items" (fun w => w.IsObject ∨ Array (fun _ => True) w) v
  minimum : May "minimum" Number v
  exclusiveMinimum : May "exclusiveMinimum" Number v
  maximum : May "maximum" Number v
  exclusiveMaximum : May "exclusiveMaximum" Number v
  multipleOf : May "multipleOf" Positive v
  properties : May "properties" (fun w => w.IsObject) v
  required : May "required" (Array Text) v
  minLength : May "minLength" Natural v
  maxLength : May "maxLength" Natural v
  pattern : May "pattern" Text v
  contentEncoding : May "contentEncoding" Text v
  contentMediaType : May "contentMediaType" Text v

theorem may_lacks {v : Json} {K : List String} {k : String} {P : Json → Prop} (h : v.Lacks Names.schemaType K)
    (hk : k ∈ Names.schemaType) (hn : k ∉ K) : May k P v := may_absent (h k hk hn)

theorem may_str {v : Json} {k s : String} {D : String → Prop} (h : v.member k = some (.str s)) (hd : D s) :
    May k (Str D) v := fun w hw => by rw [h] at hw; cases hw; exact ⟨s, rfl, hd⟩

theorem natural_of {A : Type} {f : A → Nat} (a : A) (w : Json) (h : NatShown (f a) w) : Natural w := ⟨_, h⟩

theorem number_iff {f : F64} {w : Json} (h : FloatShown f w) : Number w ↔ f.isFinite = true := by
  cases h with
  | finite h => exact iff_of_true ⟨_, rfl⟩ h
  | other h => exact iff_of_false (fun ⟨_, e⟩ => by cases e) (by rw [h]; exact nofun)

theorem positive_iff {f : F64} {w : Json} (h : FloatShown f w) :
    Positive w ↔ f.isFinite = true ∧ F64.Lt F64.zero f := by
  cases h with
  | finite h => exact ⟨fun p => by cases p with | float p => exact ⟨h, p⟩, fun p => .float p.2⟩
  | other h => exact iff_of_false (fun p => by cases p) (fun p => by rw [h] at p; cases p.1)

theorem int_number {z : Int} {w : Json} (h : IntShown z w) : Number w := by
  cases h <;> exact ⟨_, rfl⟩

theorem maximum_iff {T : Type} {R : T → Json → Prop} {o : Option (Maximum T)} {v : Json} (h : MaximumShown R o v)
    {Q : T → Prop} (hpq : ∀ a w, R a w → (Number w ↔ Q a)) :
    May "maximum" Number v ∧ May "exclusiveMaximum" Number v ↔ ∀ b, o = some b → Q b.bound := by
  cases h with
  | none h1 h2 => exact iff_of_true ⟨may_absent h1, may_absent h2⟩ nofun
  | inclusive h1 r h2 =>
    constructor
    · rintro ⟨h, _⟩ b e
      cases e
      exact (hpq _ _ r).1 (h _ h1)
    · intro h
      exact ⟨fun w hw => by rw [h1] at hw; cases hw; exact (hpq _ _ r).2 (h _ rfl), may_absent h2⟩
  | exclusive h1 h2 r =>
    constructor
    · rintro ⟨_, h⟩ b e
      cases e
      exact (hpq _ _ r).1 (h _ h2)
    · intro h
      exact ⟨may_absent h1, fun w hw => by rw [h2] at hw; cases hw; exact (hpq _ _ r).2 (h _ rfl)⟩

theorem minimum_iff {T : Type} {R : T → Json → Prop} {o : Option (Minimum T)} {v : Json} (h : MinimumShown R o v)
    {Q : T → Prop} (hpq : ∀ a w, R a w → (Number w ↔ Q a)) :
    May "minimum" Number v ∧ May "exclusiveMinimum" Number v ↔ ∀ b, o = some b → Q b.bound := by
  cases h with
  | none h1 h2 => exact iff_of_true ⟨may_absent h1, may_absent h2⟩ nofun
  | inclusive h1 r h2 =>
    constructor
    · rintro ⟨h, _⟩ b e
      cases e
      exact (hpq _ _ r).1 (h _ h1)
    · intro h
      exact ⟨fun w hw => by rw [h1] at hw; cases hw; exact (hpq _ _ r).2 (h _ rfl), may_absent h2⟩
  | exclusive h1 h2 r =>
    constructor
    · rintro ⟨_, h⟩ b e
      cases e
      exact (hpq _ _ r).1 (h _ h2)
    · intro h
      exact ⟨may_absent h1, fun w hw => by rw [h2] at hw; cases hw; exact (hpq _ _ r).2 (h _ rfl)⟩

/-- What a type needs. -/
def TypeProper {S : Type} (st : Option (SubtypeF AS OS S)) : Prop :=
  ∀ n, st = some (.number n) → (∀ b, n.minimum = some b → b.bound.isFinite = true) ∧
    (∀ b, n.maximum = some b → b.bound.isFinite = true) ∧
    ∀ m, n.multipleOf = some m → m.isFinite = true ∧ F64.Lt F64.zero m

theorem type_iff (hobj : ∀ s w, R s w → w.IsObject) {st : Option (SubtypeF AS OS (DataSchema DSx AS OS))} {v : Json}
    (h : TypeShown CA CO R st v) : TypeNode v ↔ TypeProper st := by
  cases h with
  | none hl =>
    refine iff_of_true ?_ nofun
    constructor <;> exact may_lacks hl (by decide) (by decide)
  | boolean ht hl =>
    refine iff_of_true ?_ nofun
    constructor
    · exact may_str ht (by decide)
    all_goals exact may_lacks hl (by decide) (by decide)
  | null ht hl =>
    refine iff_of_true ?_ nofun
    constructor
    · exact may_str ht (by decide)
    all_goals exact may_lacks hl (by decide) (by decide)
  | array ht hi _ _ hl _ =>
    refine iff_of_true ?_ nofun
    constructor
    · exact may_str ht (by decide)
    · refine may_of hi fun a w r => ?_
      cases r with
      | elem r => exact .inl (hobj _ _ r)
      | vec r => exact .inr (array_of r fun _ _ _ => trivial)
    all_goals exact may_lacks hl (by decide) (by decide)
  | object ht hp hr hl _ =>
    refine iff_of_true ?_ nofun
    constructor
    · exact may_str ht (by decide)
    case properties => exact may_of hp fun a w r => by cases r with | mk h _ => exact h
    case required => exact may_of hr fun a w r => array_of r text_of
    all_goals exact may_lacks hl (by decide) (by decide)
  | string ht h1 h2 h3 h4 h5 hl =>
    refine iff_of_true ?_ nofun
    constructor
    · exact may_str ht (by decide)
    case minLength => exact may_of h1 fun a w r => ⟨_, r⟩
    case maxLength => exact may_of h2 fun a w r => ⟨_, r⟩
    case pattern => exact may_of h3 text_of
    case contentEncoding => exact may_of h4 text_of
    case contentMediaType => exact may_of h5 text_of
    all_goals exact may_lacks hl (by decide) (by decide)
  | integer ht h1 h2 h3 hl =>
    refine iff_of_true ?_ nofun
    have h1 := (maximum_iff (Q := fun _ => True) h1 fun a w r => iff_of_true (int_number r) trivial).2 fun _ _ => trivial
    have h2 := (minimum_iff (Q := fun _ => True) h2 fun a w r => iff_of_true (int_number r) trivial).2 fun _ _ => trivial
    constructor
    · exact may_str ht (by decide)
    case maximum => exact h1.1
    case exclusiveMaximum => exact h1.2
    case minimum => exact h2.1
    case exclusiveMinimum => exact h2.2
    case multipleOf => exact may_of h3 fun a w r => by cases r; exact .integer a.2.1
    all_goals exact may_lacks hl (by decide) (by decide)
  | @number n _ ht h1 h2 h3 hl =>
    have h1 := maximum_iff h1 fun a w r => number_iff r
    have h2 := minimum_iff h2 fun a w r => number_iff r
    have h3 := may_iff h3 fun a w _ r => positive_iff r
    constructor
    · intro h n e
      cases e
      exact ⟨h2.1 ⟨h.minimum, h.exclusiveMinimum⟩, h1.1 ⟨h.maximum, h.exclusiveMaximum⟩, h3.1 h.multipleOf⟩
    · intro h
      obtain ⟨q2, q1, q3⟩ := h n rfl
      constructor
      · exact may_str ht (by decide)
      case maximum => exact (h1.2 q1).1
      case exclusiveMaximum => exact (h1.2 q1).2
      case minimum => exact (h2.2 q2).1
      case exclusiveMinimum => exact (h2.2 q2).2
      case multipleOf => exact h3.2 q3
      all_goals exact may_lacks hl (by decide) (by decide)

theorem flag_of {v : Json} {k : String} {b : Bool} (h : v.member k = some (.bool b)) : May k Flag v :=
  fun w hw => by rw [h] at hw; cases hw; exact ⟨b, rfl⟩

theorem flag_opt {v : Json} {k : String} {b : Option Bool} (h : v.member k = b.map .bool) : May k Flag v := by
  intro w hw
  rw [h] at hw
  obtain ⟨b, _, rfl⟩ := Option.map_eq_some_iff.1 hw
  exact ⟨b, rfl⟩

theorem node_iff (hobj : ∀ s w, R s w → w.IsObject) {s : DataSchema DSx AS OS} {v : Json} (h : NodeShown C CA CO R s v)
    (ho : v.IsObject) (h1 : v.member "minItems" = none) (h2 : v.member "maxItems" = none) :
    SchemaNode F v ↔ NodeProper F s := by
  cases h with
  | mk attype title titles description descriptions constant default unit oneOf enumeration readOnly writeOnly format subtype _ =>
    have hi := info_iff (F := F) attype title titles description descriptions
    have ht := type_iff hobj subtype
    constructor
    · intro h
      have hp := ht.1 ⟨h.type, h.items, h.minimum, h.exclusiveMinimum, h.maximum, h.exclusiveMaximum, h.multipleOf,
        h.properties, h.required, h.minLength, h.maxLength, h.pattern, h.contentEncoding, h.contentMediaType⟩
      have hi := hi.1 h.info
      exact ⟨hi.1, hi.2, fun n b e => (hp n e).1 b, fun n b e => (hp n e).2.1 b, fun n m e => (hp n e).2.2 m⟩
    · intro h
      have hp := ht.2 fun n e => ⟨fun b => h.minimum n b e, fun b => h.maximum n b e, fun m => h.multipleOf n m e⟩
      exact ⟨ho, hi.2 ⟨h.titles, h.descriptions⟩, may_of unit text_of, may_of oneOf fun _ _ r => array_of r fun _ _ _ => trivial,
        may_of enumeration fun _ _ r => array_of r fun _ _ _ => trivial, flag_of readOnly, flag_of writeOnly,
        may_of format text_of, hp.type, hp.items, may_absent h1, may_absent h2, hp.minimum, hp.exclusiveMinimum,
        hp.maximum, hp.exclusiveMaximum, hp.multipleOf, hp.properties, hp.required, hp.minLength, hp.maxLength,
        hp.pattern, hp.contentEncoding, hp.contentMediaType⟩

/-- A schema directly in another one. -/
def Inside (c s : DataSchema DSx AS OS) : Prop :=
  (∃ l, s.oneOf = some l ∧ c ∈ l) ∨ ∃ st, s.subtype = some st ∧ c ∈ st.children

theorem within_iff {x s : DataSchema DSx AS OS} : Within x s ↔ x = s ∨ ∃ c, Inside c s ∧ Within x c := by
  constructor
  · intro h
    cases h with
    | self => exact .inl rfl
    | oneOf h1 h2 h3 => exact .inr ⟨_, .inl ⟨_, h1, h2⟩, h3⟩
    | item h1 h2 h3 => exact .inr ⟨_, .inr ⟨_, h1, by simp [SubtypeF.children, h2, ElemOrVec.toList]⟩, h3⟩
    | items h1 h2 h3 h4 => exact .inr ⟨_, .inr ⟨_, h1, by simpa [SubtypeF.children, h2, ElemOrVec.toList] using h3⟩, h4⟩
    | property h1 h2 h3 h4 =>
      refine .inr ⟨_, .inr ⟨_, h1, ?_⟩, h4⟩
      simp only [SubtypeF.children, h2, Option.map_some, Option.getD_some]
      exact List.mem_map.2 ⟨_, h3, rfl⟩
  · rintro (rfl | ⟨c, ⟨l, h1, h2⟩ | ⟨st, h1, h2⟩, h3⟩)
    · exact .self _
    · exact .oneOf h1 h2 h3
    · cases st with
      | array a =>
        cases hi : a.items with
        | none => simp [SubtypeF.children, hi] at h2
        | some i =>
          cases i with
          | elem d =>
            have : c = d := by simpa [SubtypeF.children, hi, ElemOrVec.toList] using h2
            exact .item h1 hi (this ▸ h3)
          | vec l => exact .items h1 hi (by simpa [SubtypeF.children, hi, ElemOrVec.toList] using h2) h3
      | object o =>
        cases hp : o.properties with
        | none => simp [SubtypeF.children, hp] at h2
        | some m =>
          simp only [SubtypeF.children, hp, Option.map_some, Option.getD_some] at h2
          obtain ⟨kv, hkv, rfl⟩ := List.mem_map.1 h2
          exact .property h1 hp hkv h3
      | _ => cases h2

theorem inside_shown {s c : DataSchema DSx AS OS} {v : Json} (h : NodeShown C CA CO R s v) (hobj : ∀ s w, R s w → w.IsObject)
    (hm : ∀ o m, s.subtype = some (.object o) → o.properties = some m → HMap.Sorted m) (hc : Inside c s) :
    ∃ w, v.SchemaIn w ∧ R c w := by
  cases h with
  | mk _ _ _ _ _ _ _ _ oneOf _ _ _ _ subtype _ =>
    rcases hc with ⟨l, hl, hc⟩ | ⟨st, hst, hc⟩
    · rw [hl] at oneOf
      generalize e : v.member "oneOf" = x at oneOf
      cases oneOf with
      | some r =>
        cases r with
        | mk hp =>
          obtain ⟨w, hw, r⟩ := hp.exists_right hc
          exact ⟨w, .oneOf ⟨_, e, hw⟩, r⟩
    · rw [hst] at subtype
      cases subtype with
      | @array a _ _ hi _ _ _ _ =>
        cases hai : a.items with
        | none => simp [SubtypeF.children, hai] at hc
        | some i =>
          rw [hai] at hi
          generalize e : v.member "items" = x at hi
          cases hi with
          | some r =>
            cases r with
            | elem r =>
              simp only [SubtypeF.children, hai, Option.map_some, Option.getD_some, ElemOrVec.toList] at hc
              rw [List.mem_singleton.1 hc]
              exact ⟨_, .items (.inr ⟨e, hobj _ _ r⟩), r⟩
            | vec r =>
              simp only [SubtypeF.children, hai, Option.map_some, Option.getD_some, ElemOrVec.toList] at hc
              cases r with
              | mk hp =>
                obtain ⟨w, hw, r⟩ := hp.exists_right hc
                exact ⟨w, .items (.inl ⟨_, e, hw⟩), r⟩
      | @object o _ _ hp _ _ _ =>
        cases hop : o.properties with
        | none => simp [SubtypeF.children, hop] at hc
        | some m =>
          simp only [SubtypeF.children, hop, Option.map_some, Option.getD_some] at hc
          obtain ⟨kv, hkv, rfl⟩ := List.mem_map.1 hc
          rw [hop] at hp
          generalize e : v.member "properties" = x at hp
          cases hp with
          | some r =>
            cases r with
            | mk _ hg =>
              have hg := hg kv.1
              rw [HMap.get?_eq_some_of_mem (hm o m hst hop).nodup hkv] at hg
              generalize e' : Json.member _ kv.1 = y at hg
              cases hg with
              | some r => exact ⟨_, .properties ⟨_, _, e, e'⟩, r⟩
      | _ => cases hc

theorem schema_of_node (hobj : ∀ s w, R s w → w.IsObject) {s : DataSchema DSx AS OS} {v : Json}
    (h : NodeShown C CA CO R s v) (ho : v.IsObject) (h1 : v.member "minItems" = none) (h2 : v.member "maxItems" = none)
    (hm : ∀ o m, s.subtype = some (.object o) → o.properties = some m → HMap.Sorted m)
    (ih : ∀ c w, Inside c s → R c w → (Schema F w ↔ ∀ x, Within x c → NodeProper F x)) :
    Schema F v ↔ ∀ x, Within x s → NodeProper F x := by
  have hn := node_iff (F := F) hobj h ho h1 h2
  constructor
  · rintro ⟨hv, hw⟩ x hx
    rcases within_iff.1 hx with rfl | ⟨c, hc, hx⟩
    · exact hn.1 hv
    · obtain ⟨w, hin, r⟩ := inside_shown h hobj hm hc
      exact (ih c w hc r).1 (hw w hin) x hx
  · intro hp
    refine .mk (hn.2 (hp s (.self s))) fun w hw => ?_
    obtain ⟨c, hc, r⟩ := node_nested h hw hobj
    exact (ih c w hc r).2 fun x hx => hp x (within_iff.2 (.inr ⟨c, hc, hx⟩))

theorem not_named {v : Json} {K : List String} (h : v.Only K) {k : String} (hk : k ∉ K) : v.member k = none :=
  Classical.byContradiction fun hc => hk (h.2 k hc)

theorem typeKeys_foreign {S : Type} {st : Option (SubtypeF AS OS S)} {k : String} (ha : k ∉ CA.keys) (ho : k ∉ CO.keys) :
    k ∉ typeKeys CA CO st := by
  unfold typeKeys
  split
  · exact ha
  · exact ho
  · exact nofun

theorem schema_iff (hk : ∀ k ∈ ["minItems", "maxItems"], k ∉ C.keys ∧ k ∉ CA.keys ∧ k ∉ CO.keys) (s : DataSchema DSx AS OS) :
    (∀ x, Within x s → ∀ o m, x.subtype = some (.object o) → o.properties = some m → HMap.Sorted m) →
    ∀ v, SchemaShown C CA CO s v → (Schema F v ↔ ∀ x, Within x s → NodeProper F x) := by
  induction s using Schema.ind with
  | h hd o st ih1 ih2 =>
    intro hm v hv
    cases hv with
    | mk hn honly =>
      have hnot : ∀ k ∈ ["minItems", "maxItems"], v.member k = none := by
        intro k hk'
        refine not_named honly ?_
        have h0 : k ∉ Names.schema := by revert k; decide
        obtain ⟨h1, h2, h3⟩ := hk k hk'
        simp only [List.mem_append, not_or]
        exact ⟨⟨h0, h1⟩, typeKeys_foreign h2 h3⟩
      refine schema_of_node (fun _ _ => schemaShown_object) hn honly.1 (hnot _ (by decide)) (hnot _ (by decide))
        (hm _ (.self _)) fun c w hc r => ?_
      have hm' : ∀ x, Within x c → ∀ o m, x.subtype = some (.object o) → o.properties = some m → HMap.Sorted m :=
        fun x hx => hm x (within_iff.2 (.inr ⟨c, hc, hx⟩))
      rcases hc with ⟨l, hl, hs⟩ | ⟨x, hl, hs⟩
      · exact ih1 l hl c hs hm' w r
      · exact ih2 x hl c hs hm' w r

end

/-! ### Forms, links, security definitions -/

section
variable {X : ExtTypes} {C : ExtCodecs X}

theorem operations_iff {ctx : FormContext} {o : FormOperation} : o.name ∈ operations ctx ↔ o ∈ operationsOf ctx := by
  cases ctx <;> cases o <;> decide

theorem must_str {v : Json} {k s : String} {D : String → Prop} (h : v.member k = some (.str s)) (hd : D s) :
    Must k (Str D) v := ⟨_, h, s, rfl, hd⟩

theorem additional_iff {S : String → Prop} {r : AdditionalResponse} {w : Json} (h : AdditionalShown r w) :
    Additional S w ↔ ∀ n, r.schema = some n → S n := by
  have hs : May "schema" (Str S) w ↔ ∀ n, r.schema = some n → S n := may_iff h.schema fun _ _ _ r => str_iff r
  constructor
  · intro ha
    exact hs.1 ha.schema
  · intro hq
    refine ⟨h.only.1, ?_, may_of h.contentType text_of, hs.2 hq⟩
    intro x hx
    rw [h.success] at hx
    split at hx
    · cases hx; exact ⟨_, rfl⟩
    · cases hx

theorem form_iff {ctx : FormContext} {D S : String → Prop} {f : Wot.Form X} {v : Json} (h : FormShown C f v) :
    Form ctx D S v ↔ FormProper ctx D S f := by
  have hsec : May "security" (Names D) v ↔ ∀ l, f.security = some l → l ≠ [] ∧ ∀ n ∈ l, D n :=
    may_iff h.security fun _ _ _ r => names_iff r
  have hadd : May "additionalResponses" (OneOrMany (Additional S)) v ↔
      ∀ l, f.additionalResponses = some l → ∀ r ∈ l, ∀ n, r.schema = some n → S n := by
    refine may_iff h.additionalResponses fun l w _ r => oneOrMany_iff r ?_ ?_ fun _ _ _ r => additional_iff r
    · rintro l ⟨⟨_, e⟩, _⟩
      cases e
    · intro a l r
      obtain ⟨_, e⟩ := r.only.1
      cases e
  have hop : (May "op" (OneOrMany (Str (· ∈ operations ctx))) v ∧ (ctx = .thing → v.member "op" ≠ none)) ↔
      (f.op = .default → ctx ≠ .thing) ∧ ∀ l, f.op = .custom l → l ≠ [] ∧ ∀ o ∈ l, o ∈ operationsOf ctx := by
    have ho := h.op
    generalize f.op = op at ho
    generalize e : v.member "op" = x at ho
    cases ho with
    | default =>
      constructor
      · rintro ⟨_, h⟩
        exact ⟨fun _ hc => h hc rfl, nofun⟩
      · rintro ⟨h, _⟩
        exact ⟨may_absent e, fun hc => absurd hc (h rfl)⟩
    | empty =>
      refine iff_of_false ?_ fun ⟨_, h⟩ => (h [] rfl).1 rfl
      rintro ⟨h, _⟩
      rcases h _ e with ⟨_, e, _⟩ | ⟨_, e, _⟩ <;> cases e
    | @some o l w r =>
      have hi : OneOrMany (Str (· ∈ operations ctx)) w ↔ ∀ a ∈ o :: l, a ∈ operationsOf ctx := by
        have := array_iff (P := Str (· ∈ operations ctx)) (Q := (· ∈ operationsOf ctx)) r
          fun a w _ r => (str_iff r).trans operations_iff
        rw [← this]
        refine ⟨fun h => h.resolve_left ?_, .inr⟩
        cases r
        exact text_not_array _ _
      constructor
      · rintro ⟨h, _⟩
        refine ⟨nofun, fun l' e' => ?_⟩
        cases e'
        exact ⟨nofun, hi.1 (h _ e)⟩
      · rintro ⟨_, h⟩
        refine ⟨fun w hw => ?_, fun _ => nofun⟩
        rw [e] at hw
        cases hw
        exact hi.2 (h _ rfl).2
  constructor
  · intro hf
    have ho := hop.1 ⟨hf.op, hf.opGiven⟩
    exact ⟨ho.1, ho.2, hsec.1 hf.security, fun l r n hl hr hn => hadd.1 hf.additionalResponses l hl r hr n hn⟩
  · intro hf
    have ho := hop.2 ⟨hf.default, hf.ops⟩
    refine ⟨h.only.1, must_str h.href trivial, may_of h.contentType text_of, may_of h.contentCoding text_of,
      may_of h.subprotocol text_of, hsec.2 hf.security, may_of h.scopes texts_of, may_of h.response ?_,
      hadd.2 fun l hl r hr n hn => hf.schemas l r n hl hr hn, ho.1, ho.2⟩
    intro a w r
    exact ⟨r.only.1, must_str r.contentType trivial⟩

theorem link_iff {l : Wot.Link} {v : Json} (h : LinkShown l v) : Link F v ↔ LinkProper F l := by
  have hlang : May "hreflang" (OneOrMany (Str F.tag)) v ↔ ∀ ks, l.hreflang = some ks → ∀ k ∈ ks, F.tag k :=
    may_iff h.hreflang fun _ _ _ r => oneOrMany_iff r (fun l => text_not_array l _) (fun _ _ e => by cases e)
      fun _ _ _ r => str_iff r
  have hrel : v.member "rel" = some (.str "icon") ↔ l.rel = some "icon" := by
    have hr := h.rel
    generalize l.rel = rel at hr
    generalize v.member "rel" = x at hr
    cases hr with
    | none => simp
    | some r => cases r; simp
  have hs : May "sizes" (fun w => Text w ∧ v.member "rel" = some (.str "icon")) v ↔
      (l.sizes ≠ none → l.rel = some "icon") := by
    rw [may_iff (Q := fun _ => l.rel = some "icon") h.sizes fun a w _ r => (and_iff_right (text_of a w r)).trans hrel]
    cases l.sizes <;> simp
  constructor
  · intro hl
    exact ⟨hs.1 hl.sizes, hlang.1 hl.hreflang⟩
  · intro hl
    exact ⟨h.only.1, must_str h.href trivial, may_of h.type text_of, may_of h.rel text_of, may_of h.anchor text_of,
      hs.2 hl.sizes, hlang.2 hl.hreflang⟩

/-- A custom scheme does not have the name of a predefined one. -/

theorem place_iff {v : Json} {l : SecLocation} (h : v.member "in" = some (.str l.text)) :
    May "in" (Str (· ∈ places)) v ↔ l ≠ .uri := by
  constructor
  · intro hm e
    subst e
    obtain ⟨s, e, hs⟩ := hm _ h
    cases e
    exact absurd hs (by decide)
  · intro hl
    refine may_str h ?_
    cases l <;> first | decide | exact absurd rfl hl

theorem combo_iff {D : String → Prop} {l : List String} {w : Json} (h : StringsShown l w) :
    ArrayMin 2 (Str D) w ↔ 2 ≤ l.length ∧ ∀ n ∈ l, D n := by
  cases h with
  | one r => exact iff_of_false (fun ⟨_, e, _⟩ => by rw [r] at e; cases e) (fun h => by simp at h)
  | many _ h => exact arrayMin_iff h fun _ _ _ r => str_iff r

theorem must_iff {v w : Json} {k : String} {P : Json → Prop} (h : v.member k = some w) : Must k P v ↔ P w :=
  ⟨fun ⟨_, e, hp⟩ => by rw [h] at e; cases e; exact hp, fun hp => ⟨w, h, hp⟩⟩

theorem ne_none_iff {A : Type} {R : A → Json → Prop} {o : Option A} {x : Option Json} (h : OptRel R o x) :
    x ≠ none ↔ o ≠ none := by cases h <;> simp

theorem eq_none_iff {A : Type} {R : A → Json → Prop} {o : Option A} {x : Option Json} (h : OptRel R o x) :
    x = none ↔ o = none := by cases h <;> simp

/-- The members that the definitions of schemes look at. -/
def schemeNames : List String :=
  ["oneOf", "allOf", "in", "name", "qop", "authorization", "alg", "format", "identity", "flow", "token", "refresh", "scopes"]

theorem scheme_congr {D : String → Prop} {n : String} {v w : Json} (h : ∀ k ∈ schemeNames, w.member k = v.member k)
    (hs : Scheme D n v) : Scheme D n w := by
  have hm : ∀ {k : String} {P : Json → Prop}, k ∈ schemeNames → May k P v → May k P w :=
    fun hk hp x hx => hp x (by rw [← h _ hk]; exact hx)
  have hl : ∀ {ps : List String}, Located ps v → Located ps w :=
    fun hp => ⟨hm (by decide) hp.place, hm (by decide) hp.name⟩
  cases hs with
  | nosec => exact .nosec
  | auto => exact .auto
  | oneOf h1 h2 => exact .oneOf (by rw [Must, h _ (by decide)]; exact h1) (by rw [h _ (by decide)]; exact h2)
  | allOf h1 h2 => exact .allOf (by rw [Must, h _ (by decide)]; exact h1) (by rw [h _ (by decide)]; exact h2)
  | basic h1 => exact .basic (hl h1)
  | digest h1 h2 => exact .digest (hl h1) (hm (by decide) h2)
  | apikey h1 => exact .apikey (hl h1)
  | bearer h1 h2 h3 h4 => exact .bearer (hl h1) (hm (by decide) h2) (hm (by decide) h3) (hm (by decide) h4)
  | psk h1 => exact .psk (hm (by decide) h1)
  | oauth2 h0 h1 h2 h3 h4 q1 q2 q3 =>
    refine .oauth2 (by rw [h _ (by decide)]; exact h0) (hm (by decide) h1) (hm (by decide) h2) (hm (by decide) h3)
      (hm (by decide) h4) ?_ ?_ ?_ <;> rw [h _ (by decide)] <;> assumption
  | other h1 => exact .other h1

theorem scheme_same {D : String → Prop} {n : String} {v w : Json} (h : ∀ k ∈ schemeNames, w.member k = v.member k) :
    Scheme D n w ↔ Scheme D n v :=
  ⟨scheme_congr fun k hk => (h k hk).symm, scheme_congr h⟩

theorem scheme_iff {D : String → Prop} {s : SchemeSubtype} {v : Json} {K names : List String} (h : SchemeShown s v names)
    (hk : ∀ k ∈ schemeNames, k ∉ K) (ho : v.Only (K ++ names)) :
    Must "scheme" (Str fun n => Scheme D n v) v ↔ SchemeProper D s := by
  have key : ∀ {n : String}, v.member "scheme" = some (.str n) →
      (Must "scheme" (Str fun n => Scheme D n v) v ↔ Scheme D n v) := fun h =>
    (must_iff h).trans ⟨fun ⟨_, e, h⟩ => by cases e; exact h, fun h => ⟨_, rfl, h⟩⟩
  cases h with
  | @custom _ m _ h hm =>
    rw [key h]
    refine scheme_same fun k hk' => ?_
    by_cases hkm : k ∈ m.map (·.1)
    · exact hm k hkm
    · rw [not_named ho (by
        simp only [List.mem_append, List.mem_cons, not_or]
        exact ⟨hk k hk', by rintro rfl; revert hk'; decide, hkm⟩), member_norm, written, occ_eq_nil.2 hkm]
      rfl
  | customNull h =>
    rw [key h]
    refine scheme_same fun k hk' => ?_
    rw [not_named ho (by
      simp only [List.mem_append, List.mem_singleton, not_or]
      exact ⟨hk k hk', by rintro rfl; revert hk'; decide⟩)]
    rfl
  | known h =>
    cases h with
    | noSec h =>
      rw [key h]
      exact iff_of_true .nosec trivial
    | auto h =>
      rw [key h]
      exact iff_of_true .auto trivial
    | oneOf h h1 h2 =>
      rw [key h]
      have ha : v.member "allOf" = none := not_named ho (by simp [hk "allOf" (by decide)])
      constructor
      · intro hs
        generalize e0 : "combo" = name at hs
        cases hs with
        | oneOf hs _ => exact (combo_iff h2).1 ((must_iff h1).1 hs)
        | allOf hs _ => obtain ⟨_, e, _⟩ := hs; rw [ha] at e; cases e
        | other hs => subst e0; exact absurd (by decide) hs
        | _ => exact absurd e0 (by decide)
      · intro hs
        exact .oneOf ((must_iff h1).2 ((combo_iff h2).2 hs)) ha
    | allOf h h1 h2 =>
      rw [key h]
      have ha : v.member "oneOf" = none := not_named ho (by simp [hk "oneOf" (by decide)])
      constructor
      · intro hs
        generalize e0 : "combo" = name at hs
        cases hs with
        | allOf hs _ => exact (combo_iff h2).1 ((must_iff h1).1 hs)
        | oneOf hs _ => obtain ⟨_, e, _⟩ := hs; rw [ha] at e; cases e
        | other hs => subst e0; exact absurd (by decide) hs
        | _ => exact absurd e0 (by decide)
      · intro hs
        exact .allOf ((must_iff h1).2 ((combo_iff h2).2 hs)) ha
    | basic h h1 h2 =>
      rw [key h]
      constructor
      · intro hs
        generalize e0 : "basic" = name at hs
        cases hs with
        | basic hs => exact (place_iff h1).1 hs.place
        | other hs => subst e0; exact absurd (by decide) hs
        | _ => exact absurd e0 (by decide)
      · intro hs
        exact .basic ⟨(place_iff h1).2 hs, may_of h2 text_of⟩
    | @digest _ s h h0 h1 h2 =>
      rw [key h]
      constructor
      · intro hs
        generalize e0 : "digest" = name at hs
        cases hs with
        | digest hs _ => exact (place_iff h1).1 hs.place
        | other hs => subst e0; exact absurd (by decide) hs
        | _ => exact absurd e0 (by decide)
      · intro hs
        refine .digest ⟨(place_iff h1).2 hs, may_of h2 text_of⟩ (may_str h0 ?_)
        cases s.qop <;> decide
    | @apiKey _ s h h1 h2 =>
      rw [key h]
      refine iff_of_true (.apikey ⟨may_str h1 ?_, may_of h2 text_of⟩) trivial
      cases s.location <;> decide
    | bearer h h1 h2 h3 h4 h5 =>
      rw [key h]
      constructor
      · intro hs
        generalize e0 : "bearer" = name at hs
        cases hs with
        | bearer hs _ _ _ => exact (place_iff h4).1 hs.place
        | other hs => subst e0; exact absurd (by decide) hs
        | _ => exact absurd e0 (by decide)
      · intro hs
        exact .bearer ⟨(place_iff h4).2 hs, may_of h5 text_of⟩ (may_of h1 text_of) (may_str h2 trivial)
          (may_str h3 trivial)
    | psk h h1 =>
      rw [key h]
      exact iff_of_true (.psk (may_of h1 text_of)) trivial
    | oauth2 h h1 h2 h3 h4 h5 =>
      rw [key h]
      constructor
      · intro hs
        generalize e0 : "oauth2" = name at hs
        cases hs with
        | oauth2 h0 _ _ _ _ q1 q2 q3 =>
          rw [h5] at h0
          cases h0
          exact ⟨fun hf => (ne_none_iff h2).1 (q1 hf), fun hf => (ne_none_iff h1).1 (q2 hf),
            fun hf => (eq_none_iff h1).1 (q3 hf)⟩
        | other hs => subst e0; exact absurd (by decide) hs
        | _ => exact absurd e0 (by decide)
      · rintro ⟨q1, q2, q3⟩
        exact .oauth2 h5 (may_of h1 text_of) (may_of h2 text_of) (may_of h3 text_of) (may_of h4 texts_of)
          (fun hf => (ne_none_iff h2).2 (q1 hf)) (fun hf => (ne_none_iff h1).2 (q2 hf))
          (fun hf => (eq_none_iff h1).2 (q3 hf))

theorem security_iff {D : String → Prop} {s : SecurityScheme} {v : Json} (h : SecurityShown s v) :
    Security F D v ↔ SchemeProper D s.subtype ∧ TagsIn F s.descriptions := by
  obtain ⟨names, hs, ho⟩ := h.scheme
  have hi := scheme_iff (D := D) hs (by decide) ho
  constructor
  · intro hv
    exact ⟨hi.1 hv.scheme, (mayTranslations_iff h.descriptions).1 hv.descriptions⟩
  · rintro ⟨h1, h2⟩
    exact ⟨ho.1, may_of h.attype texts_of, may_of h.description text_of, (mayTranslations_iff h.descriptions).2 h2,
      may_of h.proxy text_of, hi.2 h1⟩

end

/-! ### Affordances -/

section
variable {X : ExtTypes} {C : ExtCodecs X} {D S : String → Prop}

/-- The maps in a schema have no repeated keys. -/
abbrev Tidy (s : DS X) : Prop :=
  ∀ x, Within x s → ∀ o m, x.subtype = some (.object o) → o.properties = some m → HMap.Sorted m

abbrev AllProper (F : Formats) (s : DS X) : Prop := ∀ x, Within x s → NodeProper F x

theorem ds_iff (hk : C.Foreign) {s : DS X} (hs : Tidy s) {v : Json} (h : DSShown C s v) : Schema F v ↔ AllProper F s := by
  refine schema_iff (fun k hk' => ?_) s hs v h
  have := hk k (by revert k; decide)
  exact ⟨this.2.2.2.1, this.2.2.2.2⟩

theorem type_member {DSx AS OS : Type} {CA : ExtCodec AS} {CO : ExtCodec OS} {R : DataSchema DSx AS OS → Json → Prop}
    {st : Option (SubtypeF AS OS (DataSchema DSx AS OS))} {v : Json} (h : TypeShown CA CO R st v) :
    (v.member "type" ≠ some (.str "array") ∧ v.member "type" ≠ some (.str "object")) ↔
      (∀ a, st ≠ some (.array a)) ∧ ∀ o, st ≠ some (.object o) := by
  cases h with
  | none hl => rw [hl "type" (by decide) (by decide)]; exact iff_of_true ⟨nofun, nofun⟩ ⟨nofun, nofun⟩
  | array h => rw [h]; exact iff_of_false (fun h => h.1 rfl) (fun h => h.1 _ rfl)
  | object h => rw [h]; exact iff_of_false (fun h => h.2 rfl) (fun h => h.2 _ rfl)
  | boolean h => rw [h]; exact iff_of_true ⟨by simp, by simp⟩ ⟨nofun, nofun⟩
  | null h => rw [h]; exact iff_of_true ⟨by simp, by simp⟩ ⟨nofun, nofun⟩
  | string h => rw [h]; exact iff_of_true ⟨by simp, by simp⟩ ⟨nofun, nofun⟩
  | number h => rw [h]; exact iff_of_true ⟨by simp, by simp⟩ ⟨nofun, nofun⟩
  | integer h => rw [h]; exact iff_of_true ⟨by simp, by simp⟩ ⟨nofun, nofun⟩

/-- What a URI variable needs. -/
def UriProper (F : Formats) (s : DS X) : Prop :=
  AllProper F s ∧ (∀ a, s.subtype ≠ some (.array a)) ∧ ∀ o, s.subtype ≠ some (.object o)

theorem uriVariable_iff (hk : C.Foreign) {s : DS X} (hs : Tidy s) {v : Json} (h : DSShown C s v) :
    UriVariable F v ↔ UriProper F s := by
  rw [UriVariable, UriProper, ds_iff hk hs h]
  cases h with
  | mk h _ =>
    cases h with
    | mk _ _ _ _ _ _ _ _ _ _ _ _ _ subtype _ => rw [type_member subtype]

theorem mapOf_iff {A : Type} {R : A → Json → Prop} {P : Json → Prop} {Q : A → Prop} {m : HMap A} {w : Json}
    (h : MapShown R m w) (hs : m.Sorted) (hpq : ∀ k a w, (k, a) ∈ m → R a w → (P w ↔ Q a)) :
    Map P w ↔ ∀ k a, (k, a) ∈ m → Q a := by
  rw [Map, map_iff h (Q := fun _ => Q) fun k a w ha r => hpq k a w (HMap.mem_of_get? ha) r]
  exact ⟨fun h k a ha => h k a (HMap.get?_eq_some_of_mem hs.nodup ha), fun h k a ha => h k a (HMap.mem_of_get? ha)⟩

/-- What an affordance needs. -/
structure InteractionProper (F : Formats) (ctx : FormContext) (D S : String → Prop) (i : Wot.Interaction X) : Prop where
  titles : TagsIn F i.titles
  descriptions : TagsIn F i.descriptions
  present : i.forms ≠ []
  forms : ∀ f ∈ i.forms, FormProper ctx D S f
  uriVariables : ∀ m, i.uriVariables = some m → ∀ k s, (k, s) ∈ m → UriProper F s

theorem interaction_iff (hk : C.Foreign) {ctx : FormContext} {i : Wot.Interaction X} {v : Json} (h : InteractionShown C i v)
    (ho : v.IsObject) (hm : ∀ m, i.uriVariables = some m → m.Sorted ∧ ∀ k s, (k, s) ∈ m → Tidy s) :
    Interaction F ctx D S v ↔ InteractionProper F ctx D S i := by
  have hi := info_iff (F := F) h.attype h.title h.titles h.description h.descriptions
  obtain ⟨w, hw, hl⟩ := h.forms
  have hf := (must_iff (P := ArrayMin 1 (Form ctx D S)) hw).trans
    (arrayMin_iff hl fun f w _ r => form_iff (ctx := ctx) (D := D) (S := S) r)
  have hu : May "uriVariables" (Map (UriVariable F)) v ↔ ∀ m, i.uriVariables = some m → ∀ k s, (k, s) ∈ m → UriProper F s :=
    may_iff h.uriVariables fun m w e r => mapOf_iff r (hm m e).1 fun k s w hks r => uriVariable_iff hk ((hm m e).2 k s hks) r
  have hlen : 1 ≤ i.forms.length ↔ i.forms ≠ [] := by cases i.forms <;> simp
  rw [hlen] at hf
  constructor
  · intro hv
    have h1 := hi.1 hv.info
    have h2 := hf.1 hv.forms
    exact ⟨h1.1, h1.2, h2.1, h2.2, hu.1 hv.uriVariables⟩
  · intro hv
    exact ⟨ho, hi.2 ⟨hv.titles, hv.descriptions⟩, hf.2 ⟨hv.present, hv.forms⟩, hu.2 hv.uriVariables⟩

theorem property_iff (hk : C.Foreign) {p : PropertyAffordance X} {v : Json} (h : PropertyShown C p v)
    (hm : ∀ m, p.interaction.uriVariables = some m → m.Sorted ∧ ∀ k s, (k, s) ∈ m → Tidy s) (hs : Tidy p.dataSchema) :
    Property F D S v ↔ InteractionProper F .property D S p.interaction ∧ AllProper F p.dataSchema := by
  have hnot : ∀ k ∈ ["minItems", "maxItems"], v.member k = none := by
    intro k hk'
    refine not_named h.only ?_
    have h0 : k ∉ "observable" :: Names.interaction ∧ k ∉ Names.schema := by revert k; decide
    obtain ⟨h1, h2, _, h3, h4, h5⟩ := hk k (by revert k; decide)
    simp only [List.mem_append, not_or]
    exact ⟨⟨⟨⟨⟨h0.1, h1⟩, h0.2⟩, h3⟩, typeKeys_foreign h4 h5⟩, h2⟩
  have hi := interaction_iff (F := F) (ctx := .property) (D := D) (S := S) hk h.interaction h.only.1 hm
  have hd : Schema F v ↔ AllProper F p.dataSchema := by
    refine schema_of_node (fun _ _ => schemaShown_object) h.dataSchema h.only.1 (hnot _ (by decide)) (hnot _ (by decide))
      (hs _ (.self _)) fun c w hc r => ?_
    exact ds_iff hk (fun x hx => hs x (within_iff.2 (.inr ⟨c, hc, hx⟩))) r
  constructor
  · intro hv
    exact ⟨hi.1 hv.interaction, hd.1 hv.schema⟩
  · intro hv
    exact ⟨hi.2 hv.1, hd.2 hv.2, flag_opt h.observable⟩

theorem maySchema_iff (hk : C.Foreign) {o : Option (DS X)} {v : Json} {k : String} (h : OptRel (DSShown C) o (v.member k))
    (hs : ∀ s, o = some s → Tidy s) : May k (Schema F) v ↔ ∀ s, o = some s → AllProper F s :=
  may_iff h fun s _ e r => ds_iff hk (hs s e) r

theorem action_iff (hk : C.Foreign) {a : ActionAffordance X} {v : Json} (h : ActionShown C a v)
    (hm : ∀ m, a.interaction.uriVariables = some m → m.Sorted ∧ ∀ k s, (k, s) ∈ m → Tidy s)
    (h1 : ∀ s, a.input = some s → Tidy s) (h2 : ∀ s, a.output = some s → Tidy s) :
    Action F D S v ↔ InteractionProper F .action D S a.interaction ∧ (∀ s, a.input = some s → AllProper F s) ∧
      ∀ s, a.output = some s → AllProper F s := by
  have hi := interaction_iff (F := F) (ctx := .action) (D := D) (S := S) hk h.interaction h.only.1 hm
  have h1 := maySchema_iff (F := F) hk h.input h1
  have h2 := maySchema_iff (F := F) hk h.output h2
  constructor
  · intro hv
    exact ⟨hi.1 hv.interaction, h1.1 hv.input, h2.1 hv.output⟩
  · intro hv
    exact ⟨hi.2 hv.1, h1.2 hv.2.1, h2.2 hv.2.2, flag_of h.safe, flag_of h.idempotent, flag_opt h.synchronous⟩

theorem event_iff (hk : C.Foreign) {e : EventAffordance X} {v : Json} (h : EventShown C e v)
    (hm : ∀ m, e.interaction.uriVariables = some m → m.Sorted ∧ ∀ k s, (k, s) ∈ m → Tidy s)
    (h1 : ∀ s, e.subscription = some s → Tidy s) (h2 : ∀ s, e.data = some s → Tidy s)
    (h3 : ∀ s, e.cancellation = some s → Tidy s) :
    Event F D S v ↔ InteractionProper F .event D S e.interaction ∧ (∀ s, e.subscription = some s → AllProper F s) ∧
      (∀ s, e.data = some s → AllProper F s) ∧ ∀ s, e.cancellation = some s → AllProper F s := by
  have hnot : v.member "dataResponse" = none := by
    refine not_named h.only ?_
    obtain ⟨h1, _, h2, _⟩ := hk "dataResponse" (by decide)
    simp only [List.mem_append, not_or]
    exact ⟨⟨⟨by decide, by decide⟩, h1⟩, h2⟩
  have hi := interaction_iff (F := F) (ctx := .event) (D := D) (S := S) hk h.interaction h.only.1 hm
  have h1 := maySchema_iff (F := F) hk h.subscription h1
  have h2 := maySchema_iff (F := F) hk h.data h2
  have h3 := maySchema_iff (F := F) hk h.cancellation h3
  constructor
  · intro hv
    exact ⟨hi.1 hv.interaction, h1.1 hv.subscription, h2.1 hv.data, h3.1 hv.cancellation⟩
  · intro hv
    exact ⟨hi.2 hv.1, h1.2 hv.2.1, h2.2 hv.2.2.1, may_absent hnot, h3.2 hv.2.2.2⟩

/-! ### Things -/

variable {env : SerdeEnv} {t : Wot.Thing X}

theorem defined_map {A : Type} {R : A → Json → Prop} {m : HMap A} {v w : Json} {k n : String} (hw : v.member k = some w)
    (h : MapShown R m w) : Defined k v n ↔ n ∈ HMap.keys m := by
  cases h with
  | mk _ h =>
    rw [mem_keys_iff, ← Option.isSome_iff_exists, Option.isSome_iff_ne_none, ← ne_none_iff (h n)]
    exact ⟨fun ⟨o, e, h⟩ => by rw [hw] at e; cases e; exact h, fun h => ⟨w, hw, h⟩⟩

theorem version_iff {i : VersionInfo} {w : Json} (h : VersionShown i w) : Version w ↔ i.model ≠ none := by
  have hm := h.model
  constructor
  · rintro ⟨_, _, hv⟩ e
    rw [e] at hm
    obtain ⟨_, e, _⟩ := hv _ hm
    cases e
  · intro hn
    refine ⟨h.only.1, must_str h.instance_ trivial, ?_⟩
    cases e : i.model with
    | none => exact absurd e hn
    | some s =>
      rw [e] at hm
      exact may_str hm trivial

theorem instant_iff {o : Option OffsetDateTime} {v : Json} {k : String}
    (h : OptRel (fun d w => ∃ s, env.timeFormat d = some s ∧ w = .str s) o (v.member k)) :
    May k (Str F.instant) v ↔ ∀ d s, o = some d → env.timeFormat d = some s → F.instant s := by
  rw [may_iff (Q := fun d => ∀ s, env.timeFormat d = some s → F.instant s) h fun d w _ r => ?_]
  · exact ⟨fun h d s e => h d e s, fun h d e s => h d s e⟩
  · obtain ⟨s, hs, rfl⟩ := r
    rw [str_iff (s := s) rfl]
    exact ⟨fun h s' e => by rw [hs] at e; cases e; exact h, fun h => h s hs⟩

theorem thing_iff (hk : C.Foreign) (hm : t.Maps) (ha : ∀ m, t.properties = some m → ∀ kv ∈ m, kv.2.Agrees)
    {v : Json} (h : ThingShown C env t v) :
    Thing F v ↔ t.Proper F env := by
  have hi := info_iff (F := F) h.attype (title := some t.title) (by rw [h.title]; exact .some rfl) h.titles h.description
    h.descriptions
  obtain ⟨w1, hw1, hsd⟩ := h.securityDefinitions
  have hD : Defined "securityDefinitions" v = t.Defines := funext fun n => propext (defined_map hw1 hsd)
  have hS : Defined "schemaDefinitions" v = t.Declares := by
    funext n
    apply propext
    have hd := h.schemaDefinitions
    cases e : t.schemaDefinitions with
    | none =>
      rw [e] at hd
      generalize e' : v.member "schemaDefinitions" = x at hd
      cases hd
      exact iff_of_false (fun ⟨_, h, _⟩ => by rw [e'] at h; cases h) (fun ⟨_, h, _⟩ => by rw [e] at h; cases h)
    | some m =>
      rw [e] at hd
      generalize e' : v.member "schemaDefinitions" = x at hd
      cases hd with
      | some r =>
        rw [defined_map e' r]
        exact ⟨fun h => ⟨m, e, h⟩, fun ⟨m', e2, h⟩ => by rw [e] at e2; cases e2; exact h⟩
  have hsdi := (must_iff (P := Map (Security F t.Defines)) hw1).trans
    (mapOf_iff hsd hm.securityDefinitions fun n s w hs r => security_iff r)
  have htidy : ∀ {p s}, t.HasSchema p s → Tidy s := fun {p s} hs x hx => hm.schemas p s x hs hx
  have hprop : May "properties" (Map (Property F t.Defines t.Declares)) v ↔ ∀ m, t.properties = some m → ∀ n p, (n, p) ∈ m →
      InteractionProper F .property t.Defines t.Declares p.interaction ∧ AllProper F p.dataSchema :=
    may_iff h.properties fun m w e r => mapOf_iff r (hm.properties m e) fun n p w hp r => by
      rw [merged_eq_self.2 (ha m e _ hp)] at r
      exact property_iff hk r (fun u hu => ⟨hm.interactions _ (.property e hp) u hu,
        fun k s hs => htidy (.propertyUriVariable e hp hu hs)⟩) (htidy (.property e hp))
  have hact : May "actions" (Map (Action F t.Defines t.Declares)) v ↔ ∀ m, t.actions = some m → ∀ n a, (n, a) ∈ m →
      InteractionProper F .action t.Defines t.Declares a.interaction ∧ (∀ s, a.input = some s → AllProper F s) ∧
      ∀ s, a.output = some s → AllProper F s :=
    may_iff h.actions fun m w e r => mapOf_iff r (hm.actions m e) fun n p w hp r =>
      action_iff hk r (fun u hu => ⟨hm.interactions _ (.action e hp) u hu,
        fun k s hs => htidy (.actionUriVariable e hp hu hs)⟩) (fun s hs => htidy (.input e hp hs))
        (fun s hs => htidy (.output e hp hs))
  have hev : May "events" (Map (Event F t.Defines t.Declares)) v ↔ ∀ m, t.events = some m → ∀ n e, (n, e) ∈ m →
      InteractionProper F .event t.Defines t.Declares e.interaction ∧ (∀ s, e.subscription = some s → AllProper F s) ∧
      (∀ s, e.data = some s → AllProper F s) ∧ ∀ s, e.cancellation = some s → AllProper F s :=
    may_iff h.events fun m w e r => mapOf_iff r (hm.events m e) fun n p w hp r =>
      event_iff hk r (fun u hu => ⟨hm.interactions _ (.event e hp) u hu,
        fun k s hs => htidy (.eventUriVariable e hp hu hs)⟩) (fun s hs => htidy (.subscription e hp hs))
        (fun s hs => htidy (.data e hp hs)) (fun s hs => htidy (.cancellation e hp hs))
  have hlinks : May "links" (Array (Link F)) v ↔ ∀ ls, t.links = some ls → ∀ l ∈ ls, LinkProper F l :=
    may_iff h.links fun _ _ _ r => array_iff r fun _ _ _ r => link_iff r
  have hforms : May "forms" (Array (Form .thing t.Defines t.Declares)) v ↔
      ∀ fs, t.forms = some fs → ∀ f ∈ fs, FormProper .thing t.Defines t.Declares f :=
    may_iff h.forms fun _ _ _ r => array_iff r fun _ _ _ r => form_iff r
  obtain ⟨w2, hw2, hsec⟩ := h.security
  have hseci := (must_iff (P := Names t.Defines) hw2).trans (names_iff hsec)
  have huri : May "uriVariables" (Map (UriVariable F)) v ↔ ∀ m, t.uriVariables = some m → ∀ k s, (k, s) ∈ m → UriProper F s :=
    may_iff h.uriVariables fun m w e r => mapOf_iff r (hm.uriVariables m e) fun k s w hks r =>
      uriVariable_iff hk (htidy (.uriVariable e hks)) r
  have hdef : May "schemaDefinitions" (Map (Schema F)) v ↔
      ∀ m, t.schemaDefinitions = some m → ∀ k s, (k, s) ∈ m → AllProper F s :=
    may_iff h.schemaDefinitions fun m w e r => mapOf_iff r (hm.schemaDefinitions m e) fun k s w hks r =>
      ds_iff hk (htidy (.schemaDefinition e hks)) r
  have hver : May "version" Version v ↔ ∀ i, t.version = some i → i.model ≠ none :=
    may_iff h.version fun _ _ _ r => version_iff r
  have hctx := must_iff (P := Context) h.context
  constructor
  · rintro ⟨_, context, _, info, _, version, created, modified, _, _, properties, actions, events, links, forms, security,
      securityDefinitions, uriVariables, _, schemaDefinitions⟩
    rw [hD, hS] at properties actions events forms
    rw [hD] at security securityDefinitions
    have properties := hprop.1 properties
    have actions := hact.1 actions
    have events := hev.1 events
    have uriVariables := huri.1 uriVariables
    have info := hi.1 info
    refine ⟨hctx.1 context, info.1, info.2, hver.1 version, (instant_iff h.created).1 created,
      (instant_iff h.modified).1 modified, fun ls l e hl => hlinks.1 links ls e l hl, hseci.1 security,
      hsdi.1 securityDefinitions, ?_, ?_, ?_, ?_⟩
    · intro ctx f hf
      cases hf with
      | thing e hf => exact hforms.1 forms _ e f hf
      | property e hp hf => exact (properties _ e _ _ hp).1.forms f hf
      | action e hp hf => exact (actions _ e _ _ hp).1.forms f hf
      | event e hp hf => exact (events _ e _ _ hp).1.forms f hf
    · intro i hi
      cases hi with
      | property e hp => have := (properties _ e _ _ hp).1; exact ⟨this.present, this.titles, this.descriptions⟩
      | action e hp => have := (actions _ e _ _ hp).1; exact ⟨this.present, this.titles, this.descriptions⟩
      | event e hp => have := (events _ e _ _ hp).1; exact ⟨this.present, this.titles, this.descriptions⟩
    · intro s hs
      generalize hq : Position.uriVariable = p at hs
      cases hs with
      | uriVariable e hs => exact (uriVariables _ e _ _ hs).2
      | propertyUriVariable e hp hu hs => exact ((properties _ e _ _ hp).1.uriVariables _ hu _ _ hs).2
      | actionUriVariable e hp hu hs => exact ((actions _ e _ _ hp).1.uriVariables _ hu _ _ hs).2
      | eventUriVariable e hp hu hs => exact ((events _ e _ _ hp).1.uriVariables _ hu _ _ hs).2
      | _ => cases hq
    · intro p s x hq hs
      revert x
      cases hs with
      | property e hp => exact (properties _ e _ _ hp).2
      | input e hp hs => exact (actions _ e _ _ hp).2.1 _ hs
      | output e hp hs => exact (actions _ e _ _ hp).2.2 _ hs
      | subscription e hp hs => exact (events _ e _ _ hp).2.1 _ hs
      | data e hp hs => exact (events _ e _ _ hp).2.2.1 _ hs
      | cancellation e hp hs => exact (events _ e _ _ hp).2.2.2 _ hs
      | dataResponse => exact absurd rfl hq
      | uriVariable e hs => exact (uriVariables _ e _ _ hs).1
      | propertyUriVariable e hp hu hs => exact ((properties _ e _ _ hp).1.uriVariables _ hu _ _ hs).1
      | actionUriVariable e hp hu hs => exact ((actions _ e _ _ hp).1.uriVariables _ hu _ _ hs).1
      | eventUriVariable e hp hu hs => exact ((events _ e _ _ hp).1.uriVariables _ hu _ _ hs).1
      | schemaDefinition e hs => exact hdef.1 schemaDefinitions _ e _ _ hs
  · intro hp
    have hsch : ∀ {q s}, q ≠ .dataResponse → t.HasSchema q s → AllProper F s :=
      fun {q s} hq hs x hx => hp.schemas q s x hq hs hx
    have hint : ∀ {ctx i}, t.HasInteraction i → (∀ f ∈ i.forms, t.HasForm ctx f) →
        (∀ m, i.uriVariables = some m → ∀ k s, (k, s) ∈ m → t.HasSchema .uriVariable s) →
        InteractionProper F ctx t.Defines t.Declares i := by
      intro ctx i hi hf hu
      have h1 := hp.interactions i hi
      exact ⟨h1.2.1, h1.2.2, h1.1, fun f h => hp.forms ctx f (hf f h),
        fun m hm k s hs => ⟨hsch (by exact nofun) (hu m hm k s hs), hp.uriVariables s (hu m hm k s hs)⟩⟩
    refine ⟨h.only.1, hctx.2 hp.context, must_str h.title trivial, hi.2 ⟨hp.titles, hp.descriptions⟩, may_of h.id text_of,
      hver.2 hp.version, (instant_iff h.created).2 hp.created, (instant_iff h.modified).2 hp.modified,
      may_of h.support text_of, may_of h.base text_of, ?_, ?_, ?_, hlinks.2 fun ls e l hl => hp.links ls l e hl, ?_, ?_, ?_,
      huri.2 fun m e k s hs => ⟨hsch (by exact nofun) (.uriVariable e hs), hp.uriVariables s (.uriVariable e hs)⟩,
      may_of h.profile texts_of, hdef.2 fun m e k s hs => hsch (by exact nofun) (.schemaDefinition e hs)⟩
    · rw [hD, hS]
      exact hprop.2 fun m e n p hp => ⟨hint (.property e hp) (fun f hf => .property e hp hf)
        (fun u hu k s hs => .propertyUriVariable e hp hu hs), hsch (by exact nofun) (.property e hp)⟩
    · rw [hD, hS]
      exact hact.2 fun m e n p hp => ⟨hint (.action e hp) (fun f hf => .action e hp hf)
        (fun u hu k s hs => .actionUriVariable e hp hu hs), fun s hs => hsch (by exact nofun) (.input e hp hs),
        fun s hs => hsch (by exact nofun) (.output e hp hs)⟩
    · rw [hD, hS]
      exact hev.2 fun m e n p hp => ⟨hint (.event e hp) (fun f hf => .event e hp hf)
        (fun u hu k s hs => .eventUriVariable e hp hu hs), fun s hs => hsch (by exact nofun) (.subscription e hp hs),
        fun s hs => hsch (by exact nofun) (.data e hp hs), fun s hs => hsch (by exact nofun) (.cancellation e hp hs)⟩
    · rw [hD, hS]
      exact hforms.2 fun fs e f hf => hp.forms .thing f (.thing e hf)
    · rw [hD]
      exact hseci.2 hp.security
    · rw [hD]
      exact hsdi.2 hp.schemes

end

end Conform
end Wot
