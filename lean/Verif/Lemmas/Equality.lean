import Verif.Spec.Equality
import Verif.Spec.Unordered
import Verif.Lemmas.Order
import Verif.Lemmas.Basic
import Verif.Lemmas.Schema
import Verif.Lemmas.Built
import Verif.Lemmas.Serde
import Verif.Lemmas.Reread
/-
What `==` on Things decides.
-/
namespace Wot

variable {A B C D : Type}

/-! ### Containers -/

theorem optEq_iff {f : A → A → Bool} {c : A → A} {ok : A → Prop} {a b : Option A}
    (h : ∀ x, a = some x → ∀ y, b = some y → (f x y = true ↔ c x = c y ∧ ok x)) :
    optEq f a b = true ↔ a.map c = b.map c ∧ ∀ x, a = some x → ok x := by
  cases a with
  | none => cases b <;> simp [optEq]
  | some x =>
    cases b with
    | none => simp [optEq]
    | some y => simpa [optEq] using h x rfl y rfl

theorem listEq_iff {f : A → A → Bool} {c : A → A} {ok : A → Prop} {a b : List A}
    (h : ∀ x ∈ a, ∀ y ∈ b, (f x y = true ↔ c x = c y ∧ ok x)) :
    listEq f a b = true ↔ a.map c = b.map c ∧ ∀ x ∈ a, ok x := by
  induction a generalizing b with
  | nil => cases b <;> simp [listEq]
  | cons x a ih =>
    cases b with
    | nil => simp [listEq]
    | cons y b =>
      have h1 := h x (by simp) y (by simp)
      have h2 := ih (b := b) fun x hx y hy => h x (by simp [hx]) y (by simp [hy])
      simp only [listEq, Bool.and_eq_true, h1, h2, List.map_cons, List.cons.injEq, List.mem_cons, forall_eq_or_imp]
      constructor
      · rintro ⟨⟨h1, h2⟩, h3, h4⟩; exact ⟨⟨h1, h3⟩, h2, h4⟩
      · rintro ⟨⟨h1, h3⟩, h2, h4⟩; exact ⟨⟨h1, h2⟩, h3, h4⟩

theorem nodup_subset_perm {l m : List String} (hl : l.Nodup) (hlen : l.length = m.length) (hs : l ⊆ m) : m ⊆ l := by
  induction l generalizing m with
  | nil => cases m <;> simp at *
  | cons a l ih =>
    obtain ⟨ha, hl⟩ := List.nodup_cons.1 hl
    have ham : a ∈ m := hs (by simp)
    have hlen' : l.length = (m.erase a).length := by
      rw [List.length_erase_of_mem ham]
      simp at hlen
      omega
    have := ih hl hlen' fun x hx => (List.mem_erase_of_ne (by rintro rfl; exact ha hx)).2 (hs (by simp [hx]))
    intro x hx
    by_cases e : x = a
    · simp [e]
    · exact List.mem_cons_of_mem _ (this ((List.mem_erase_of_ne e).2 hx))

theorem mapEq_iff {f : A → A → Bool} {c : A → A} {ok : A → Prop} {a b : HMap A} (ha : a.Sorted) (hb : b.Sorted)
    (h : ∀ k x, (k, x) ∈ a → ∀ k' y, (k', y) ∈ b → (f x y = true ↔ c x = c y ∧ ok x)) :
    mapEq f a b = true ↔ HMap.mapVals c a = HMap.mapVals c b ∧ ∀ k x, (k, x) ∈ a → ok x := by
  have key : (∀ k x, (k, x) ∈ a → ∃ y, (k, y) ∈ b ∧ f x y = true) ↔
      ∀ k x, (k, x) ∈ a → ∃ y, (k, y) ∈ b ∧ c x = c y ∧ ok x := by
    constructor
    · intro h1 k x hx
      obtain ⟨y, hy, e⟩ := h1 k x hx
      exact ⟨y, hy, (h k x hx k y hy).1 e⟩
    · intro h1 k x hx
      obtain ⟨y, hy, e⟩ := h1 k x hx
      exact ⟨y, hy, (h k x hx k y hy).2 e⟩
  have hall : mapEq f a b = true ↔ a.length = b.length ∧ ∀ k x, (k, x) ∈ a → ∃ y, (k, y) ∈ b ∧ f x y = true := by
    unfold mapEq
    rw [Bool.and_eq_true, beq_iff_eq, List.all_eq_true]
    refine and_congr_right fun _ => ?_
    constructor
    · intro h1 k x hx
      have := h1 _ hx
      cases e : b.get? k with
      | none => simp [e] at this
      | some y => exact ⟨y, HMap.mem_of_get? e, by simpa [e] using this⟩
    · rintro h1 ⟨k, x⟩ hx
      obtain ⟨y, hy, e⟩ := h1 k x hx
      simp [(HMap.get?_eq_some_iff hb.nodup).2 hy, e]
  rw [hall, key]
  constructor
  · rintro ⟨hlen, h1⟩
    refine ⟨?_, fun k x hx => (h1 k x hx).choose_spec.2.2⟩
    have hsub : a.keys ⊆ b.keys := by
      intro k hk
      obtain ⟨⟨k', x⟩, hx, rfl⟩ := List.mem_map.1 hk
      obtain ⟨y, hy, -⟩ := h1 _ _ hx
      exact List.mem_map.2 ⟨_, hy, rfl⟩
    have hback := nodup_subset_perm ha.nodup (by simpa [HMap.keys] using hlen) hsub
    refine (ha.mapVals c).ext (hb.mapVals c) fun k => ?_
    rw [HMap.get?_mapVals, HMap.get?_mapVals]
    cases e : a.get? k with
    | none =>
      have : b.get? k = none := by
        rw [HMap.get?_eq_none_iff] at e ⊢
        exact fun hk => e (hback hk)
      rw [this]
    | some x =>
      obtain ⟨y, hy, e', -⟩ := h1 k x (HMap.mem_of_get? e)
      rw [(HMap.get?_eq_some_iff hb.nodup).2 hy]
      simp [e']
  · rintro ⟨e, hok⟩
    refine ⟨by simpa [HMap.mapVals] using congrArg List.length e, fun k x hx => ?_⟩
    have h1 : (k, c x) ∈ HMap.mapVals c b := e ▸ List.mem_map.2 ⟨_, hx, rfl⟩
    obtain ⟨⟨k', y⟩, hy, e'⟩ := List.mem_map.1 h1
    obtain ⟨e1, e2⟩ := Prod.mk.injEq _ _ _ _ ▸ e'
    subst e1
    exact ⟨y, hy, e2.symm, hok _ x hx⟩

/-! ### Numbers and values -/

theorem key_arith {P x y : Nat} (hx : x < 2 * P) (hy : y < 2 * P) (hP : 0 < P) :
    (if decide (P ≤ x) = true then -((x % P : Nat) : Int) else ((x % P : Nat) : Int)) =
      (if decide (P ≤ y) = true then -((y % P : Nat) : Int) else ((y % P : Nat) : Int)) ↔
    (if x % P = 0 then 0 else x) = (if y % P = 0 then 0 else y) := by
  have d1 : x % P = if P ≤ x then x - P else x := by
    split
    · rw [Nat.mod_eq_sub_mod (by assumption), Nat.mod_eq_of_lt (by omega)]
    · exact Nat.mod_eq_of_lt (by omega)
  have d2 : y % P = if P ≤ y then y - P else y := by
    split
    · rw [Nat.mod_eq_sub_mod (by assumption), Nat.mod_eq_of_lt (by omega)]
    · exact Nat.mod_eq_of_lt (by omega)
  rw [d1, d2]
  by_cases c1 : P ≤ x <;> by_cases c2 : P ≤ y <;>
    simp only [c1, c2, if_true, if_false, decide_true, decide_false, Bool.false_eq_true] <;>
    split <;> split <;> omega

theorem F64.unsigned_bits (x : F64) :
    x.unsigned.bits.val = if x.bits.val % 2^63 = 0 then 0 else x.bits.val := by
  unfold F64.unsigned F64.mag
  split <;> rfl

theorem F64.unsigned_eq_iff (x y : F64) : x.unsigned = y.unsigned ↔ x.key = y.key := by
  have h : x.unsigned = y.unsigned ↔ x.unsigned.bits.val = y.unsigned.bits.val := by
    constructor
    · intro h; rw [h]
    · intro h
      generalize x.unsigned = a at h
      generalize y.unsigned = b at h
      obtain ⟨a⟩ := a
      obtain ⟨b⟩ := b
      exact congrArg F64.mk (Fin.ext h)
  have e : (2:Nat)^64 = 2 * 2^63 := by decide
  rw [h, F64.unsigned_bits, F64.unsigned_bits]
  exact (key_arith (e ▸ x.bits.isLt) (e ▸ y.bits.isLt) (Nat.two_pow_pos 63)).symm

theorem f64_eq_iff (x y : F64) : PEq.peq x y = true ↔ x.unsigned = y.unsigned ∧ x.isNan = false := by
  have : PEq.peq x y = true ↔ x.partialCmp y = some .eq := by
    show (x.partialCmp y == some .eq) = true ↔ _
    rw [beq_iff_eq]
  rw [this, F64.partialCmp_some, F64.unsigned_eq_iff, int_compare_eq]
  constructor
  · rintro ⟨h1, h2, h3⟩; exact ⟨h3, h1⟩
  · rintro ⟨h3, h1⟩
    refine ⟨h1, ?_, h3⟩
    have : x.mag = y.mag := by
      unfold F64.key at h3
      split at h3 <;> split at h3 <;> omega
    unfold F64.isNan at *
    rw [← this]; exact h1

theorem JNum.eq_iff (a b : JNum) :
    a.eq b = true ↔ a.unsigned = b.unsigned ∧ ∀ f, a = .float f → f.isNan = false := by
  cases a <;> cases b <;> simp [JNum.eq, JNum.unsigned, f64_eq_iff]

theorem Json.unsignedList_eq (l : List Json) : Json.unsignedList l = l.map Json.unsigned := by
  induction l <;> simp [Json.unsignedList, *]

theorem Json.unsignedMembers_eq (m : Members) : Json.unsignedMembers m = HMap.mapVals Json.unsigned m := by
  induction m <;> simp [Json.unsignedMembers, HMap.mapVals] at *
  assumption

theorem Json.eqList_eq (l m : List Json) : Json.eqList l m = listEq Json.eq l m := by
  induction l generalizing m with
  | nil => cases m <;> simp [Json.eqList, listEq]
  | cons x l ih => cases m <;> simp [Json.eqList, listEq, ih]

theorem Json.noNaN_arr {l : List Json} : (Json.arr l).NoNaN ↔ ∀ j ∈ l, j.NoNaN := by
  constructor
  · intro h j hj f hf; exact h f (.element hj hf)
  · intro h f hf
    cases hf with
    | element hj hf => exact h _ hj f hf

theorem Json.noNaN_obj {m : Members} : (Json.obj m).NoNaN ↔ ∀ k j, (k, j) ∈ m → j.NoNaN := by
  constructor
  · intro h k j hj f hf; exact h f (.member hj hf)
  · intro h f hf
    cases hf with
    | member hj hf => exact h _ _ hj f hf

theorem Json.noNaN_num {n : JNum} : (Json.num n).NoNaN ↔ ∀ f, n = .float f → f.isNan = false := by
  constructor
  · rintro h f rfl; exact h f .here
  · intro h f hf
    cases hf with
    | here => exact h f rfl

theorem Json.noNaN_leaf {j : Json} (h : ∀ n, ¬ NumberIn n j) : j.NoNaN := fun _ hf => absurd hf (h _)

theorem eqMembers_iff (m m' : Members)
    (h : ∀ k x, (k, x) ∈ m → ∀ y, (x.eq y = true ↔ x.unsigned = y.unsigned ∧ x.NoNaN)) :
    Json.eqMembers m m' = true ↔
      Json.unsignedMembers m = Json.unsignedMembers m' ∧ ∀ k x, (k, x) ∈ m → x.NoNaN := by
  induction m generalizing m' with
  | nil => cases m' <;> simp [Json.eqMembers, Json.unsignedMembers]
  | cons a m ih =>
    obtain ⟨k, x⟩ := a
    cases m' with
    | nil => simp [Json.eqMembers, Json.unsignedMembers]
    | cons b m' =>
      obtain ⟨k', y⟩ := b
      have h1 := h k x (by simp) y
      have h2 := ih m' fun k x hx y => h k x (by simp [hx]) y
      simp only [Json.eqMembers, Json.unsignedMembers, Bool.and_eq_true, h1, h2, List.cons.injEq, Prod.mk.injEq,
        List.mem_cons, beq_iff_eq]
      constructor
      · rintro ⟨⟨rfl, h1, h2⟩, h3, h4⟩
        refine ⟨⟨⟨rfl, h1⟩, h3⟩, ?_⟩
        rintro k x (⟨rfl, rfl⟩ | hx)
        · exact h2
        · exact h4 _ _ hx
      · rintro ⟨⟨⟨rfl, h1⟩, h3⟩, h2⟩
        exact ⟨⟨rfl, h1, h2 _ _ (.inl ⟨rfl, rfl⟩)⟩, h3, fun k x hx => h2 k x (.inr hx)⟩

theorem Json.eq_iff (a b : Json) : a.eq b = true ↔ a.unsigned = b.unsigned ∧ a.NoNaN := by
  refine Json.rec (motive_1 := fun a => ∀ b, (a.eq b = true ↔ a.unsigned = b.unsigned ∧ a.NoNaN))
    (motive_2 := fun l => ∀ x ∈ l, ∀ y, (x.eq y = true ↔ x.unsigned = y.unsigned ∧ x.NoNaN))
    (motive_3 := fun m => ∀ k x, (k, x) ∈ m → ∀ y, (x.eq y = true ↔ x.unsigned = y.unsigned ∧ x.NoNaN))
    (motive_4 := fun kv => ∀ y, (kv.2.eq y = true ↔ kv.2.unsigned = y.unsigned ∧ kv.2.NoNaN))
    ?_ ?_ ?_ ?_ ?_ ?_ ?_ ?_ ?_ ?_ ?_ a b
  · intro b
    have : Json.null.NoNaN := Json.noNaN_leaf fun n h => by cases h
    cases b <;> simp [Json.eq, Json.unsigned, this]
  · intro x b
    have : (Json.bool x).NoNaN := Json.noNaN_leaf fun n h => by cases h
    cases b <;> simp [Json.eq, Json.unsigned, this]
  · intro n b
    cases b <;> simp [Json.eq, Json.unsigned, JNum.eq_iff, Json.noNaN_num]
  · intro x b
    have : (Json.str x).NoNaN := Json.noNaN_leaf fun n h => by cases h
    cases b <;> simp [Json.eq, Json.unsigned, this]
  · intro l ih b
    cases b with
    | arr m =>
      simp only [Json.eq, Json.eqList_eq, Json.unsigned, Json.arr.injEq, Json.unsignedList_eq, Json.noNaN_arr]
      exact listEq_iff fun x hx y _ => ih x hx y
    | _ => simp [Json.eq, Json.unsigned]
  · intro m ih b
    cases b with
    | obj m' =>
      simp only [Json.eq, Json.unsigned, Json.obj.injEq, Json.noNaN_obj]
      exact eqMembers_iff m m' ih
    | _ => simp [Json.eq, Json.unsigned]
  · simp
  · intro j l h1 h2 x hx
    rcases List.mem_cons.1 hx with rfl | hx
    · exact h1
    · exact h2 x hx
  · simp
  · intro kv m h1 h2 k x hx
    rcases List.mem_cons.1 hx with rfl | hx
    · exact h1
    · exact h2 k x hx
  · intro k j h; exact h

/-! ### Parts without numbers -/

theorem optEq_exact {f : A → A → Bool} {a b : Option A}
    (h : ∀ x, a = some x → ∀ y, b = some y → (f x y = true ↔ x = y)) : optEq f a b = true ↔ a = b := by
  have := optEq_iff (f := f) (c := id) (ok := fun _ => True) (a := a) (b := b) fun x hx y hy => by
    simpa using h x hx y hy
  simpa using this

theorem listEq_exact {f : A → A → Bool} {a b : List A} (h : ∀ x ∈ a, ∀ y ∈ b, (f x y = true ↔ x = y)) :
    listEq f a b = true ↔ a = b := by
  have := listEq_iff (f := f) (c := id) (ok := fun _ => True) (a := a) (b := b) fun x hx y hy => by
    simpa using h x hx y hy
  simpa using this

theorem multiLanguage_eq_iff {a b : MultiLanguage} (ha : a.map.Sorted) (hb : b.map.Sorted) :
    a.eq b = true ↔ a = b := by
  have := mapEq_iff (f := (· == ·)) (c := id) (ok := fun _ => True) ha hb fun k x _ k' y _ => by simp
  rw [mapVals_id, mapVals_id] at this
  unfold MultiLanguage.eq
  rw [this]
  cases a; cases b; simp

theorem translations_eq_iff {a b : Option MultiLanguage} (ha : ∀ m, a = some m → m.map.Sorted)
    (hb : ∀ m, b = some m → m.map.Sorted) : optEq MultiLanguage.eq a b = true ↔ a = b :=
  optEq_exact fun _ hx _ hy => multiLanguage_eq_iff (ha _ hx) (hb _ hy)

theorem time_eq_iff (a b : OffsetDateTime) : a.eq b = true ↔ a.utc = b.utc := by
  cases a; cases b; simp [OffsetDateTime.eq, OffsetDateTime.utc]

theorem times_eq_iff (a b : Option OffsetDateTime) :
    optEq OffsetDateTime.eq a b = true ↔ a.map OffsetDateTime.utc = b.map OffsetDateTime.utc := by
  have := optEq_iff (f := OffsetDateTime.eq) (c := OffsetDateTime.utc) (ok := fun _ => True) (a := a) (b := b)
    fun x _ y _ => by simpa using time_eq_iff x y
  simpa using this

/-! ### Data schemas -/

section Schema
variable {DSx AS OS : Type} {e : DSx → DSx → Bool} {ea : AS → AS → Bool} {eo : OS → OS → Bool}

theorem maximum_eq_iff (a b : Maximum F64) :
    a.beqMax b = true ↔ a.unsigned = b.unsigned ∧ a.bound.isNan = false := by
  cases a <;> cases b <;> simp [Maximum.beqMax, Maximum.unsigned, Maximum.bound, f64_eq_iff]

theorem minimum_eq_iff (a b : Minimum F64) :
    a.beqMin b = true ↔ a.unsigned = b.unsigned ∧ a.bound.isNan = false := by
  cases a <;> cases b <;> simp [Minimum.beqMin, Minimum.unsigned, Minimum.bound, f64_eq_iff]

theorem i64_eq_iff (a b : I64) : PEq.peq a b = true ↔ a = b := by
  show (a.val == b.val) = true ↔ _
  rw [beq_iff_eq]
  exact ⟨fun h => Subtype.ext h, fun h => by rw [h]⟩

theorem imaximum_eq_iff (a b : Maximum I64) : a.beqMax b = true ↔ a = b := by
  cases a <;> cases b <;> simp [Maximum.beqMax, i64_eq_iff]

theorem iminimum_eq_iff (a b : Minimum I64) : a.beqMin b = true ↔ a = b := by
  cases a <;> cases b <;> simp [Minimum.beqMin, i64_eq_iff]

theorem integerSchema_eq_iff (a b : IntegerSchema) : a.eq b = true ↔ a = b := by
  cases a; cases b
  simp only [IntegerSchema.eq, Bool.and_eq_true, beq_iff_eq, IntegerSchema.mk.injEq, and_assoc,
    optEq_exact fun x _ y _ => imaximum_eq_iff x y, optEq_exact fun x _ y _ => iminimum_eq_iff x y]

theorem stringSchema_eq_iff (a b : StringSchema) : a.eq b = true ↔ a = b := by
  cases a; cases b
  simp only [StringSchema.eq, Bool.and_eq_true, beq_iff_eq, StringSchema.mk.injEq, and_assoc]

/-- No NaN among the constraints. -/
def NumberSchema.Clean (n : NumberSchema) : Prop :=
  (∀ b, n.maximum = some b → b.bound.isNan = false) ∧ (∀ b, n.minimum = some b → b.bound.isNan = false) ∧
  ∀ f, n.multipleOf = some f → f.isNan = false

theorem numberSchema_eq_iff (a b : NumberSchema) : a.eq b = true ↔ a.unsigned = b.unsigned ∧ a.Clean := by
  cases a; cases b
  simp only [NumberSchema.eq, Bool.and_eq_true, NumberSchema.unsigned, NumberSchema.mk.injEq, NumberSchema.Clean,
    optEq_iff fun x _ y _ => maximum_eq_iff x y, optEq_iff fun x _ y _ => minimum_eq_iff x y,
    optEq_iff fun x _ y _ => f64_eq_iff x y]
  grind

/-- No NaN among the values. -/
def SchemaHead.Clean (h : SchemaHead MultiLanguage DSx) : Prop :=
  (∀ j, h.constant = some j → j.NoNaN) ∧ (∀ j, h.default = some j → j.NoNaN) ∧
  ∀ l, h.enumeration = some l → ∀ j ∈ l, j.NoNaN

/-- The maps of translations are maps. -/
def SchemaHead.Maps (h : SchemaHead MultiLanguage DSx) : Prop :=
  (∀ m, h.titles = some m → m.map.Sorted) ∧ ∀ m, h.descriptions = some m → m.map.Sorted

theorem values_eq_iff (a b : Option (List Json)) : optEq (listEq Json.eq) a b = true ↔
    a.map (List.map Json.unsigned) = b.map (List.map Json.unsigned) ∧ ∀ l, a = some l → ∀ j ∈ l, j.NoNaN :=
  optEq_iff fun _ _ _ _ => listEq_iff fun x _ y _ => Json.eq_iff x y

theorem head_eq_iff (he : ∀ a b, e a b = true ↔ a = b) {a b : SchemaHead MultiLanguage DSx} (ha : a.Maps)
    (hb : b.Maps) : a.eq e b = true ↔ a.unsigned = b.unsigned ∧ a.Clean := by
  cases a; cases b
  simp only [SchemaHead.eq, Bool.and_eq_true, beq_iff_eq, SchemaHead.unsigned, SchemaHead.mk.injEq, SchemaHead.Clean,
    translations_eq_iff ha.1 hb.1, translations_eq_iff ha.2 hb.2, he,
    optEq_iff fun x _ y _ => Json.eq_iff x y, values_eq_iff]
  grind

/-- What a schema and the schemas in it need to be compared. -/
def Schema.MapsIn (s : DataSchema DSx AS OS) : Prop :=
  ∀ x, Within x s → x.head.Maps ∧ ∀ o m, x.subtype = some (.object o) → o.properties = some m → HMap.Sorted m

/-- No NaN in a schema and the schemas in it. -/
def Schema.CleanIn (s : DataSchema DSx AS OS) : Prop := ∀ x, Within x s → x.NodeNoNaN

theorem nodeNoNaN_iff {x : DataSchema DSx AS OS} :
    x.NodeNoNaN ↔ x.head.Clean ∧ ∀ n, x.subtype = some (.number n) → n.Clean := by
  constructor
  · intro h
    exact ⟨⟨h.constant, h.default, h.enumeration⟩, fun n hn => ⟨fun b => h.maximum n b hn, fun b => h.minimum n b hn,
      fun f => h.multipleOf n f hn⟩⟩
  · rintro ⟨⟨h1, h2, h3⟩, h⟩
    exact ⟨fun n b hn => (h n hn).1 b, fun n b hn => (h n hn).2.1 b, fun n b hn => (h n hn).2.2 b, h1, h2, h3⟩

theorem within_all {P : DataSchema DSx AS OS → Prop} {h : SchemaHead MultiLanguage DSx}
    {o : Option (List (DataSchema DSx AS OS))} {s : Option (SubtypeF AS OS (DataSchema DSx AS OS))} :
    (∀ x, Within x (.mk h o s) → P x) ↔ P (.mk h o s) ∧ (∀ l, o = some l → ∀ c ∈ l, ∀ x, Within x c → P x) ∧
      ∀ st, s = some st → ∀ c ∈ st.children, ∀ x, Within x c → P x := by
  constructor
  · intro H
    exact ⟨H _ (.self _), fun l hl c hc x hx => H x (within_iff.2 (.inr (.inl ⟨l, hl, c, hc, hx⟩))),
      fun st hs c hc x hx => H x (within_iff.2 (.inr (.inr ⟨st, hs, c, hc, hx⟩)))⟩
  · rintro ⟨h1, h2, h3⟩ x hx
    rcases within_iff.1 hx with rfl | ⟨l, hl, c, hc, hx⟩ | ⟨st, hs, c, hc, hx⟩
    · exact h1
    · exact h2 l hl c hc x hx
    · exact h3 st hs c hc x hx

theorem subtype_eq_iff (hea : ∀ a b, ea a b = true ↔ a = b) (heo : ∀ a b, eo a b = true ↔ a = b)
    {f : A → A → Bool} {c : A → A} {ok : A → Prop} {a b : SubtypeF AS OS A}
    (h : ∀ x ∈ a.children, ∀ y ∈ b.children, (f x y = true ↔ c x = c y ∧ ok x))
    (ha : ∀ o m, a = .object o → o.properties = some m → HMap.Sorted m)
    (hb : ∀ o m, b = .object o → o.properties = some m → HMap.Sorted m) :
    SubtypeF.eq ea eo f a b = true ↔ (a.map c).unsigned = (b.map c).unsigned ∧ (∀ x ∈ a.children, ok x) ∧
      ∀ n, a = .number n → n.Clean := by
  cases a with
  | array a =>
    cases b with
    | array b =>
      obtain ⟨i, p, q, r⟩ := a
      obtain ⟨i', p', q', r'⟩ := b
      have hi : optEq (ElemOrVec.eq f) i i' = true ↔
          i.map (ElemOrVec.map c) = i'.map (ElemOrVec.map c) ∧ ∀ w, i = some w → ∀ x ∈ w.toList, ok x := by
        refine optEq_iff fun x hx y hy => ?_
        subst hx hy
        cases x <;> cases y <;> simp only [ElemOrVec.eq, ElemOrVec.map, ElemOrVec.toList, ElemOrVec.elem.injEq,
          ElemOrVec.vec.injEq, List.mem_singleton, forall_eq, reduceCtorEq, false_and, Bool.false_eq_true]
        · exact h _ (by simp [SubtypeF.children, ElemOrVec.toList]) _ (by simp [SubtypeF.children, ElemOrVec.toList])
        · refine listEq_iff fun x hx y hy => h _ ?_ _ ?_ <;> simpa [SubtypeF.children, ElemOrVec.toList]
      have hc : (∀ x ∈ (SubtypeF.array (OS := OS) ⟨i, p, q, r⟩).children, ok x) ↔
          ∀ w, i = some w → ∀ x ∈ w.toList, ok x := by
        cases i <;> simp [SubtypeF.children]
      rw [hc]
      simp only [SubtypeF.eq, ArrayF.eq, SubtypeF.map, SubtypeF.unsigned, Bool.and_eq_true, hi, hea, beq_iff_eq,
        SubtypeF.array.injEq, ArrayF.mk.injEq]
      grind
    | _ => simp [SubtypeF.eq, SubtypeF.map, SubtypeF.unsigned]
  | object a =>
    cases b with
    | object b =>
      obtain ⟨i, p, q⟩ := a
      obtain ⟨i', p', q'⟩ := b
      have hi : optEq (mapEq f) i i' = true ↔
          i.map (HMap.mapVals c) = i'.map (HMap.mapVals c) ∧ ∀ w, i = some w → ∀ k x, (k, x) ∈ w → ok x := by
        refine optEq_iff fun x hx y hy => ?_
        subst hx hy
        refine mapEq_iff (ha _ _ rfl rfl) (hb _ _ rfl rfl) fun k x hx k' y hy => h _ ?_ _ ?_
        · simp only [SubtypeF.children, HMap.values, Option.map_some, Option.getD_some]
          exact List.mem_map.2 ⟨_, hx, rfl⟩
        · simp only [SubtypeF.children, HMap.values, Option.map_some, Option.getD_some]
          exact List.mem_map.2 ⟨_, hy, rfl⟩
      have hc : (∀ x ∈ (SubtypeF.object (AS := AS) ⟨i, p, q⟩).children, ok x) ↔
          ∀ w, i = some w → ∀ k x, (k, x) ∈ w → ok x := by
        cases i with
        | none => simp [SubtypeF.children]
        | some m =>
          simp only [SubtypeF.children, HMap.values, Option.map_some, Option.getD_some, List.mem_map]
          constructor
          · rintro H w ⟨⟩ k x hx; exact H x ⟨_, hx, rfl⟩
          · rintro H x ⟨⟨k, y⟩, hy, rfl⟩; exact H m rfl k y hy
      rw [hc]
      simp only [SubtypeF.eq, ObjectF.eq, SubtypeF.map, SubtypeF.unsigned, Bool.and_eq_true, hi, heo, beq_iff_eq,
        SubtypeF.object.injEq, ObjectF.mk.injEq]
      grind
    | _ => simp [SubtypeF.eq, SubtypeF.map, SubtypeF.unsigned]
  | number a =>
    cases b <;> simp [SubtypeF.eq, SubtypeF.map, SubtypeF.unsigned, numberSchema_eq_iff, SubtypeF.children]
  | integer a =>
    cases b <;> simp [SubtypeF.eq, SubtypeF.map, SubtypeF.unsigned, integerSchema_eq_iff, SubtypeF.children]
  | string a =>
    cases b <;> simp [SubtypeF.eq, SubtypeF.map, SubtypeF.unsigned, stringSchema_eq_iff, SubtypeF.children]
  | _ => cases b <;> simp [SubtypeF.eq, SubtypeF.map, SubtypeF.unsigned, SubtypeF.children]

theorem schema_eq_iff (he : ∀ a b, e a b = true ↔ a = b) (hea : ∀ a b, ea a b = true ↔ a = b)
    (heo : ∀ a b, eo a b = true ↔ a = b) (s u : DataSchema DSx AS OS) (hs : s.MapsIn) (hu : u.MapsIn) :
    schemaEq e ea eo s u = true ↔ s.unsigned = u.unsigned ∧ s.CleanIn := by
  refine Schema.ind (P := fun s => ∀ u, s.MapsIn → u.MapsIn →
    (schemaEq e ea eo s u = true ↔ s.unsigned = u.unsigned ∧ s.CleanIn)) ?_ s u hs hu
  intro h o st ih1 ih2 u hs hu
  obtain ⟨h', o', st'⟩ := u
  obtain ⟨⟨hs1, hs2⟩, hs3, hs4⟩ := within_all.1 hs
  obtain ⟨⟨hu1, hu2⟩, hu3, hu4⟩ := within_all.1 hu
  have e1 : h.eq e h' = true ↔ h.unsigned = h'.unsigned ∧ h.Clean := head_eq_iff he hs1 hu1
  have e2 : optEq (listEq (schemaEq e ea eo)) o o' = true ↔
      o.map (List.map Schema.unsigned) = o'.map (List.map Schema.unsigned) ∧
      ∀ l, o = some l → ∀ c ∈ l, c.CleanIn :=
    optEq_iff fun l hl l' hl' => listEq_iff fun x hx y hy => ih1 l hl x hx y (hs3 l hl x hx) (hu3 l' hl' y hy)
  have e3 : optEq (SubtypeF.eq ea eo (schemaEq e ea eo)) st st' = true ↔
      st.map (fun x => (x.map Schema.unsigned).unsigned) = st'.map (fun x => (x.map Schema.unsigned).unsigned) ∧
      ∀ x, st = some x → (∀ c ∈ x.children, c.CleanIn) ∧ ∀ n, x = .number n → n.Clean :=
    optEq_iff (c := fun x => (x.map Schema.unsigned).unsigned) fun x hx y hy =>
      subtype_eq_iff hea heo (fun a ha b hb => ih2 x hx a ha b (hs4 x hx a ha) (hu4 y hy b hb))
        (fun o m ho => hs2 o m (hx.trans (congrArg some ho))) (fun o m ho => hu2 o m (hy.trans (congrArg some ho)))
  have e4 : (Schema.mk h o st).CleanIn ↔ (h.Clean ∧ ∀ n, st = some (.number n) → n.Clean) ∧
      (∀ l, o = some l → ∀ c ∈ l, c.CleanIn) ∧ ∀ x, st = some x → ∀ c ∈ x.children, c.CleanIn := by
    unfold Schema.CleanIn
    rw [within_all, nodeNoNaN_iff]
    rfl
  rw [schemaEq_mk, Bool.and_eq_true, Bool.and_eq_true]
  show (h.eq e h' = true ∧ optEq (listEq (schemaEq e ea eo)) o o' = true) ∧
    optEq (SubtypeF.eq ea eo (schemaEq e ea eo)) st st' = true ↔ _
  rw [e1, e2, e3, e4]
  have e5 : (Schema.mk h o st).unsigned = (Schema.mk h' o' st').unsigned ↔ h.unsigned = h'.unsigned ∧
      o.map (List.map Schema.unsigned) = o'.map (List.map Schema.unsigned) ∧
      st.map (fun x => (x.map Schema.unsigned).unsigned) = st'.map (fun x => (x.map Schema.unsigned).unsigned) := by
    unfold Schema.unsigned
    rw [Schema.fold_mk, Schema.fold_mk]
    simp only [Schema.mk.injEq, Option.map_map, Function.comp_def]
  rw [e5]
  grind

end Schema

/-! ### Security schemes, forms and affordances -/

/-- No NaN in the data of a custom scheme. -/
def SecuritySchemeF.Clean {L : Type} (s : SecuritySchemeF L) : Prop := ∀ m d, s.subtype = .unknown m d → d.NoNaN

theorem security_eq_iff {a b : SecurityScheme} (ha : ∀ m, a.descriptions = some m → m.map.Sorted)
    (hb : ∀ m, b.descriptions = some m → m.map.Sorted) : a.eq b = true ↔ a.unsigned = b.unsigned ∧ a.Clean := by
  obtain ⟨a1, a2, a3, a4, a5⟩ := a
  obtain ⟨b1, b2, b3, b4, b5⟩ := b
  have h : SchemeSubtype.eq a5 b5 = true ↔ a5.unsigned = b5.unsigned ∧ ∀ m d, a5 = .unknown m d → d.NoNaN := by
    cases a5 <;> cases b5 <;> simp [SchemeSubtype.eq, SchemeSubtype.unsigned, Json.eq_iff]
    grind
  simp only [SecurityScheme.eq, Bool.and_eq_true, beq_iff_eq, SecuritySchemeF.unsigned, SecuritySchemeF.mk.injEq,
    SecuritySchemeF.Clean, translations_eq_iff ha hb, h]
  grind

variable {X : ExtTypes} {E : ExtEq X}

theorem response_eq_iff {R : Type} {e : R → R → Bool} (he : ∀ a b, e a b = true ↔ a = b) (a b : ExpectedResponse R) :
    a.eq e b = true ↔ a = b := by
  cases a; cases b; simp [ExpectedResponse.eq, he]

theorem form_eq_iff (hE : E.Exact) (a b : Form X) : a.eq E b = true ↔ a = b := by
  cases a; cases b
  simp only [Form.eq, Bool.and_eq_true, beq_iff_eq, Form.mk.injEq, hE.form, and_assoc,
    optEq_exact fun x _ y _ => response_eq_iff hE.response x y]

theorem forms_eq_iff (hE : E.Exact) (a b : List (Form X)) : listEq (Form.eq E) a b = true ↔ a = b :=
  listEq_exact fun x _ y _ => form_eq_iff hE x y

theorem ds_eq_iff (hE : E.Exact) {s u : DS X} (hs : s.MapsIn) (hu : u.MapsIn) :
    dsEq E s u = true ↔ s.unsigned = u.unsigned ∧ s.CleanIn :=
  schema_eq_iff hE.dataSchema hE.arraySchema hE.objectSchema s u hs hu

theorem optDs_eq_iff (hE : E.Exact) {a b : Option (DS X)} (ha : ∀ s, a = some s → s.MapsIn)
    (hb : ∀ s, b = some s → s.MapsIn) : optEq (dsEq E) a b = true ↔
      a.map Schema.unsigned = b.map Schema.unsigned ∧ ∀ s, a = some s → s.CleanIn :=
  optEq_iff fun s hs u hu => ds_eq_iff hE (ha s hs) (hb u hu)

/-- What a map of schemas needs to be compared. -/
def SchemasMaps (a : Option (HMap (DS X))) : Prop := ∀ m, a = some m → m.Sorted ∧ ∀ k s, (k, s) ∈ m → s.MapsIn

/-- No NaN in a map of schemas. -/
def SchemasClean (a : Option (HMap (DS X))) : Prop := ∀ m, a = some m → ∀ k s, (k, s) ∈ m → s.CleanIn

theorem schemas_eq_iff (hE : E.Exact) {a b : Option (HMap (DS X))} (ha : SchemasMaps a) (hb : SchemasMaps b) :
    optEq (mapEq (dsEq E)) a b = true ↔
      a.map (HMap.mapVals Schema.unsigned) = b.map (HMap.mapVals Schema.unsigned) ∧ SchemasClean a :=
  optEq_iff fun m hm m' hm' => mapEq_iff (ha m hm).1 (hb m' hm').1 fun k x hx k' y hy =>
    ds_eq_iff hE ((ha m hm).2 k x hx) ((hb m' hm').2 k' y hy)

/-- What an interaction needs to be compared. -/
def Interaction.MapsIn (i : Interaction X) : Prop :=
  (∀ m, i.titles = some m → m.map.Sorted) ∧ (∀ m, i.descriptions = some m → m.map.Sorted) ∧ SchemasMaps i.uriVariables

theorem interaction_eq_iff (hE : E.Exact) {a b : Interaction X} (ha : a.MapsIn) (hb : b.MapsIn) :
    a.eq E b = true ↔ a.unsigned = b.unsigned ∧ SchemasClean a.uriVariables := by
  cases a; cases b
  simp only [Interaction.eq, Bool.and_eq_true, beq_iff_eq, Interaction.unsigned, Interaction.mk.injEq,
    translations_eq_iff ha.1 hb.1, translations_eq_iff ha.2.1 hb.2.1, forms_eq_iff hE,
    schemas_eq_iff hE ha.2.2 hb.2.2, hE.interaction]
  grind

/-- What a property needs to be compared. -/
def PropertyAffordance.MapsIn (p : PropertyAffordance X) : Prop := p.interaction.MapsIn ∧ p.dataSchema.MapsIn

/-- No NaN in a property. -/
def PropertyAffordance.Clean (p : PropertyAffordance X) : Prop :=
  SchemasClean p.interaction.uriVariables ∧ p.dataSchema.CleanIn

theorem property_eq_iff (hE : E.Exact) {a b : PropertyAffordance X} (ha : a.MapsIn) (hb : b.MapsIn) :
    a.eq E b = true ↔ a.unsigned = b.unsigned ∧ a.Clean := by
  cases a; cases b
  simp only [PropertyAffordance.eq, Bool.and_eq_true, beq_iff_eq, PropertyAffordance.unsigned,
    PropertyAffordance.mk.injEq, PropertyAffordance.Clean, interaction_eq_iff hE ha.1 hb.1, ds_eq_iff hE ha.2 hb.2,
    hE.property]
  grind

/-- What an action needs to be compared. -/
def ActionAffordance.MapsIn (a : ActionAffordance X) : Prop :=
  a.interaction.MapsIn ∧ (∀ s, a.input = some s → s.MapsIn) ∧ ∀ s, a.output = some s → s.MapsIn

/-- No NaN in an action. -/
def ActionAffordance.Clean (a : ActionAffordance X) : Prop :=
  SchemasClean a.interaction.uriVariables ∧ (∀ s, a.input = some s → s.CleanIn) ∧ ∀ s, a.output = some s → s.CleanIn

theorem action_eq_iff (hE : E.Exact) {a b : ActionAffordance X} (ha : a.MapsIn) (hb : b.MapsIn) :
    a.eq E b = true ↔ a.unsigned = b.unsigned ∧ a.Clean := by
  cases a; cases b
  simp only [ActionAffordance.eq, Bool.and_eq_true, beq_iff_eq, ActionAffordance.unsigned,
    ActionAffordance.mk.injEq, ActionAffordance.Clean, interaction_eq_iff hE ha.1 hb.1,
    optDs_eq_iff hE ha.2.1 hb.2.1, optDs_eq_iff hE ha.2.2 hb.2.2, hE.action]
  grind

/-- What an event needs to be compared. -/
def EventAffordance.MapsIn (e : EventAffordance X) : Prop :=
  e.interaction.MapsIn ∧ (∀ s, e.subscription = some s → s.MapsIn) ∧ (∀ s, e.data = some s → s.MapsIn) ∧
  (∀ s, e.dataResponse = some s → s.MapsIn) ∧ ∀ s, e.cancellation = some s → s.MapsIn

/-- No NaN in an event. -/
def EventAffordance.Clean (e : EventAffordance X) : Prop :=
  SchemasClean e.interaction.uriVariables ∧ (∀ s, e.subscription = some s → s.CleanIn) ∧
  (∀ s, e.data = some s → s.CleanIn) ∧ (∀ s, e.dataResponse = some s → s.CleanIn) ∧
  ∀ s, e.cancellation = some s → s.CleanIn

theorem event_eq_iff (hE : E.Exact) {a b : EventAffordance X} (ha : a.MapsIn) (hb : b.MapsIn) :
    a.eq E b = true ↔ a.unsigned = b.unsigned ∧ a.Clean := by
  cases a; cases b
  simp only [EventAffordance.eq, Bool.and_eq_true, EventAffordance.unsigned,
    EventAffordance.mk.injEq, EventAffordance.Clean, interaction_eq_iff hE ha.1 hb.1,
    optDs_eq_iff hE ha.2.1 hb.2.1, optDs_eq_iff hE ha.2.2.1 hb.2.2.1, optDs_eq_iff hE ha.2.2.2.1 hb.2.2.2.1,
    optDs_eq_iff hE ha.2.2.2.2 hb.2.2.2.2, hE.event]
  grind

/-! ### Things -/

theorem maps_schema {t : Thing X} (h : t.Maps) {p : Position} {s : DS X} (hs : t.HasSchema p s) : s.MapsIn :=
  fun x hx => ⟨⟨fun m hm => h.translations m (.schemaTitles hs hx hm),
    fun m hm => h.translations m (.schemaDescriptions hs hx hm)⟩, h.schemas p s x hs hx⟩

theorem maps_interaction {t : Thing X} (h : t.Maps) {i : Interaction X} (hi : t.HasInteraction i)
    (hu : ∀ m, i.uriVariables = some m → ∀ k s, (k, s) ∈ m → t.HasSchema .uriVariable s) : i.MapsIn :=
  ⟨fun m hm => h.translations m (.interactionTitles hi hm), fun m hm => h.translations m (.interactionDescriptions hi hm),
    fun m hm => ⟨h.interactions i hi m hm, fun k s hs => maps_schema h (hu m hm k s hs)⟩⟩

theorem maps_property {t : Thing X} (h : t.Maps) {m : HMap (PropertyAffordance X)} (hm : t.properties = some m)
    {n : String} {p : PropertyAffordance X} (hp : (n, p) ∈ m) : p.MapsIn :=
  ⟨maps_interaction h (.property hm hp) fun _ hu _ _ hs => .propertyUriVariable hm hp hu hs,
    maps_schema h (.property hm hp)⟩

theorem maps_action {t : Thing X} (h : t.Maps) {m : HMap (ActionAffordance X)} (hm : t.actions = some m)
    {n : String} {p : ActionAffordance X} (hp : (n, p) ∈ m) : p.MapsIn :=
  ⟨maps_interaction h (.action hm hp) fun _ hu _ _ hs => .actionUriVariable hm hp hu hs,
    fun _ hs => maps_schema h (.input hm hp hs), fun _ hs => maps_schema h (.output hm hp hs)⟩

theorem maps_event {t : Thing X} (h : t.Maps) {m : HMap (EventAffordance X)} (hm : t.events = some m)
    {n : String} {p : EventAffordance X} (hp : (n, p) ∈ m) : p.MapsIn :=
  ⟨maps_interaction h (.event hm hp) fun _ hu _ _ hs => .eventUriVariable hm hp hu hs,
    fun _ hs => maps_schema h (.subscription hm hp hs), fun _ hs => maps_schema h (.data hm hp hs),
    fun _ hs => maps_schema h (.dataResponse hm hp hs), fun _ hs => maps_schema h (.cancellation hm hp hs)⟩

/-- No NaN in a Thing, part by part. -/
structure Thing.Clean (t : Thing X) : Prop where
  context : t.context.NoNaN
  security : ∀ n s, (n, s) ∈ t.securityDefinitions → s.Clean
  properties : ∀ m, t.properties = some m → ∀ n p, (n, p) ∈ m → p.Clean
  actions : ∀ m, t.actions = some m → ∀ n p, (n, p) ∈ m → p.Clean
  events : ∀ m, t.events = some m → ∀ n p, (n, p) ∈ m → p.Clean
  uriVariables : SchemasClean t.uriVariables
  schemaDefinitions : SchemasClean t.schemaDefinitions

theorem clean_iff (t : Thing X) : t.Clean ↔ t.NoNaN := by
  constructor
  · intro h
    refine ⟨h.context, fun n s m d hs hm => h.security n s hs m d hm, ?_⟩
    intro p s x hs
    revert x
    cases hs with
    | property hm hp => exact (h.properties _ hm _ _ hp).2
    | input hm hp hs => exact (h.actions _ hm _ _ hp).2.1 _ hs
    | output hm hp hs => exact (h.actions _ hm _ _ hp).2.2 _ hs
    | subscription hm hp hs => exact (h.events _ hm _ _ hp).2.1 _ hs
    | data hm hp hs => exact (h.events _ hm _ _ hp).2.2.1 _ hs
    | dataResponse hm hp hs => exact (h.events _ hm _ _ hp).2.2.2.1 _ hs
    | cancellation hm hp hs => exact (h.events _ hm _ _ hp).2.2.2.2 _ hs
    | uriVariable hm hs => exact h.uriVariables _ hm _ _ hs
    | propertyUriVariable hm hp hu hs => exact (h.properties _ hm _ _ hp).1 _ hu _ _ hs
    | actionUriVariable hm hp hu hs => exact (h.actions _ hm _ _ hp).1 _ hu _ _ hs
    | eventUriVariable hm hp hu hs => exact (h.events _ hm _ _ hp).1 _ hu _ _ hs
    | schemaDefinition hm hs => exact h.schemaDefinitions _ hm _ _ hs
  · intro h
    have hs : ∀ {p s}, t.HasSchema p s → s.CleanIn := fun hs x hx => h.schemas _ _ x hs hx
    exact ⟨h.context, fun n s hs m d hm => h.security n s m d hs hm,
      fun m hm n p hp => ⟨fun _ hu _ _ hk => hs (.propertyUriVariable hm hp hu hk), hs (.property hm hp)⟩,
      fun m hm n p hp => ⟨fun _ hu _ _ hk => hs (.actionUriVariable hm hp hu hk), fun _ hk => hs (.input hm hp hk),
        fun _ hk => hs (.output hm hp hk)⟩,
      fun m hm n p hp => ⟨fun _ hu _ _ hk => hs (.eventUriVariable hm hp hu hk),
        fun _ hk => hs (.subscription hm hp hk), fun _ hk => hs (.data hm hp hk),
        fun _ hk => hs (.dataResponse hm hp hk), fun _ hk => hs (.cancellation hm hp hk)⟩,
      fun _ hm _ _ hk => hs (.uriVariable hm hk), fun _ hm _ _ hk => hs (.schemaDefinition hm hk)⟩

theorem thing_eq_iff (hE : E.Exact) {t u : Thing X} (ht : t.Maps) (hu : u.Maps) :
    t.eq E u = true ↔ t.canonical = u.canonical ∧ t.NoNaN := by
  rw [← clean_iff]
  have e1 := translations_eq_iff (a := t.titles) (b := u.titles) (fun m h => ht.translations m (.titles h))
    (fun m h => hu.translations m (.titles h))
  have e2 := translations_eq_iff (a := t.descriptions) (b := u.descriptions)
    (fun m h => ht.translations m (.descriptions h)) (fun m h => hu.translations m (.descriptions h))
  have e3 : optEq VersionInfo.eq t.version u.version = true ↔ t.version = u.version :=
    optEq_exact fun x _ y _ => by simp [VersionInfo.eq]
  have e4 : optEq (mapEq (PropertyAffordance.eq E)) t.properties u.properties = true ↔
      t.properties.map (HMap.mapVals PropertyAffordance.unsigned) =
        u.properties.map (HMap.mapVals PropertyAffordance.unsigned) ∧
      ∀ m, t.properties = some m → ∀ n p, (n, p) ∈ m → p.Clean :=
    optEq_iff fun m hm m' hm' => mapEq_iff (ht.properties m hm) (hu.properties m' hm') fun k x hx k' y hy =>
      property_eq_iff hE (maps_property ht hm hx) (maps_property hu hm' hy)
  have e5 : optEq (mapEq (ActionAffordance.eq E)) t.actions u.actions = true ↔
      t.actions.map (HMap.mapVals ActionAffordance.unsigned) =
        u.actions.map (HMap.mapVals ActionAffordance.unsigned) ∧
      ∀ m, t.actions = some m → ∀ n p, (n, p) ∈ m → p.Clean :=
    optEq_iff fun m hm m' hm' => mapEq_iff (ht.actions m hm) (hu.actions m' hm') fun k x hx k' y hy =>
      action_eq_iff hE (maps_action ht hm hx) (maps_action hu hm' hy)
  have e6 : optEq (mapEq (EventAffordance.eq E)) t.events u.events = true ↔
      t.events.map (HMap.mapVals EventAffordance.unsigned) =
        u.events.map (HMap.mapVals EventAffordance.unsigned) ∧
      ∀ m, t.events = some m → ∀ n p, (n, p) ∈ m → p.Clean :=
    optEq_iff fun m hm m' hm' => mapEq_iff (ht.events m hm) (hu.events m' hm') fun k x hx k' y hy =>
      event_eq_iff hE (maps_event ht hm hx) (maps_event hu hm' hy)
  have e7 : optEq (listEq Link.eq) t.links u.links = true ↔ t.links = u.links :=
    optEq_exact fun x _ y _ => listEq_exact fun x _ y _ => by simp [Link.eq]
  have e8 : optEq (listEq (Form.eq E)) t.forms u.forms = true ↔ t.forms = u.forms :=
    optEq_exact fun x _ y _ => forms_eq_iff hE x y
  have e9 : mapEq SecurityScheme.eq t.securityDefinitions u.securityDefinitions = true ↔
      HMap.mapVals SecuritySchemeF.unsigned t.securityDefinitions =
        HMap.mapVals SecuritySchemeF.unsigned u.securityDefinitions ∧
      ∀ n s, (n, s) ∈ t.securityDefinitions → s.Clean :=
    mapEq_iff ht.securityDefinitions hu.securityDefinitions fun k x hx k' y hy =>
      security_eq_iff (fun m hm => ht.translations m (.security hx hm)) fun m hm => hu.translations m (.security hy hm)
  have sm : ∀ {t : Thing X}, t.Maps → SchemasMaps t.uriVariables ∧ SchemasMaps t.schemaDefinitions := fun h =>
    ⟨fun m hm => ⟨h.uriVariables m hm, fun k s hs => maps_schema h (.uriVariable hm hs)⟩,
     fun m hm => ⟨h.schemaDefinitions m hm, fun k s hs => maps_schema h (.schemaDefinition hm hs)⟩⟩
  have e10 := schemas_eq_iff hE (sm ht).1 (sm hu).1
  have e11 := schemas_eq_iff hE (sm ht).2 (sm hu).2
  have ec : t.Clean ↔ t.context.NoNaN ∧ (∀ n s, (n, s) ∈ t.securityDefinitions → s.Clean) ∧
      (∀ m, t.properties = some m → ∀ n p, (n, p) ∈ m → p.Clean) ∧
      (∀ m, t.actions = some m → ∀ n p, (n, p) ∈ m → p.Clean) ∧
      (∀ m, t.events = some m → ∀ n p, (n, p) ∈ m → p.Clean) ∧
      SchemasClean t.uriVariables ∧ SchemasClean t.schemaDefinitions :=
    ⟨fun ⟨a, b, c, d, e, f, g⟩ => ⟨a, b, c, d, e, f, g⟩, fun ⟨a, b, c, d, e, f, g⟩ => ⟨a, b, c, d, e, f, g⟩⟩
  rw [ec]
  unfold Thing.eq
  simp only [Bool.and_eq_true, beq_iff_eq, e1, e2, e3, e4, e5, e6, e7, e8, e9, e10, e11, times_eq_iff, hE.thing,
    Json.eq_iff, Thing.canonical, Thing.mk.injEq]
  clear e1 e2 e3 e4 e5 e6 e7 e8 e9 e10 e11 ec sm ht hu
  grind

/-! ### NaN and canonical forms -/

theorem F64.mag_zero : F64.zero.mag = 0 := by decide

theorem F64.isNan_unsigned (x : F64) : x.unsigned.isNan = x.isNan := by
  unfold F64.unsigned
  split
  · rename_i h
    unfold F64.isNan
    rw [h, F64.mag_zero]
  · rfl

theorem Json.noNaN_unsigned (j : Json) : j.unsigned.NoNaN ↔ j.NoNaN := by
  induction j using Json.ind with
  | harr l ih =>
    simp only [Json.unsigned, Json.unsignedList_eq, Json.noNaN_arr, List.mem_map, forall_exists_index, and_imp,
      forall_apply_eq_imp_iff₂]
    exact ⟨fun h j hj => (ih j hj).1 (h j hj), fun h j hj => (ih j hj).2 (h j hj)⟩
  | hobj m ih =>
    simp only [Json.unsigned, Json.unsignedMembers_eq, Json.noNaN_obj, HMap.mapVals, List.mem_map, Prod.exists,
      Prod.mk.injEq]
    constructor
    · intro h k j hj
      exact (ih (k, j) hj).1 (h k j.unsigned ⟨k, j, hj, rfl, rfl⟩)
    · rintro h k _ ⟨k', j, hj, rfl, rfl⟩
      exact (ih (k', j) hj).2 (h k' j hj)
  | hnum n =>
    cases n <;> simp [Json.unsigned, JNum.unsigned, Json.noNaN_num, F64.isNan_unsigned]
  | _ => exact Iff.rfl

theorem opt_clean {A : Type} {c : A → A} {ok : A → Prop} (h : ∀ a, ok (c a) ↔ ok a) (a : Option A) :
    (∀ x, a.map c = some x → ok x) ↔ ∀ x, a = some x → ok x := by
  cases a <;> simp [h]

theorem list_clean {A : Type} {c : A → A} {ok : A → Prop} (h : ∀ a, ok (c a) ↔ ok a) (a : List A) :
    (∀ x ∈ a.map c, ok x) ↔ ∀ x ∈ a, ok x := by
  simp [h]

theorem map_clean {A : Type} {c : A → A} {ok : A → Prop} (h : ∀ a, ok (c a) ↔ ok a) (a : HMap A) :
    (∀ k x, (k, x) ∈ HMap.mapVals c a → ok x) ↔ ∀ k x, (k, x) ∈ a → ok x := by
  simp only [HMap.mapVals, List.mem_map, Prod.exists, Prod.mk.injEq]
  constructor
  · intro H k x hx; exact (h x).1 (H k (c x) ⟨k, x, hx, rfl, rfl⟩)
  · rintro H k _ ⟨k', x, hx, rfl, rfl⟩; exact (h x).2 (H k' x hx)

theorem Maximum.isNan_unsigned (b : Maximum F64) : b.unsigned.bound.isNan = b.bound.isNan := by
  cases b <;> exact F64.isNan_unsigned _

theorem Minimum.isNan_unsigned (b : Minimum F64) : b.unsigned.bound.isNan = b.bound.isNan := by
  cases b <;> exact F64.isNan_unsigned _

theorem NumberSchema.clean_unsigned (n : NumberSchema) : n.unsigned.Clean ↔ n.Clean := by
  refine and_congr ?_ (and_congr ?_ ?_)
  · exact opt_clean (ok := fun b : Maximum F64 => b.bound.isNan = false)
      (fun b => by rw [Maximum.isNan_unsigned]) n.maximum
  · exact opt_clean (ok := fun b : Minimum F64 => b.bound.isNan = false)
      (fun b => by rw [Minimum.isNan_unsigned]) n.minimum
  · exact opt_clean (ok := fun b : F64 => b.isNan = false) (fun b => by rw [F64.isNan_unsigned]) n.multipleOf

section Schema
variable {DSx AS OS : Type}

theorem SchemaHead.clean_unsigned (h : SchemaHead MultiLanguage DSx) : h.unsigned.Clean ↔ h.Clean := by
  exact and_congr (opt_clean Json.noNaN_unsigned h.constant) (and_congr (opt_clean Json.noNaN_unsigned h.default)
    (opt_clean (ok := fun l : List Json => ∀ j ∈ l, j.NoNaN) (list_clean Json.noNaN_unsigned) h.enumeration))

theorem SubtypeF.children_unsigned {S : Type} (s : SubtypeF AS OS S) : s.unsigned.children = s.children := by
  cases s <;> rfl

theorem cleanIn_mk {h : SchemaHead MultiLanguage DSx} {o : Option (List (DataSchema DSx AS OS))}
    {st : Option (SubtypeF AS OS (DataSchema DSx AS OS))} :
    (Schema.mk h o st).CleanIn ↔ (h.Clean ∧ ∀ x, st = some x → ∀ n, x = .number n → n.Clean) ∧
      (∀ l, o = some l → ∀ c ∈ l, c.CleanIn) ∧ ∀ x, st = some x → ∀ c ∈ x.children, c.CleanIn := by
  unfold Schema.CleanIn
  rw [within_all, nodeNoNaN_iff]
  refine and_congr_left fun _ => and_congr_right fun _ => ?_
  show (∀ n, st = some (.number n) → n.Clean) ↔ _
  constructor
  · rintro H x rfl n rfl; exact H n rfl
  · intro H n hn; exact H _ hn n rfl

theorem Schema.cleanIn_unsigned (s : DataSchema DSx AS OS) : s.unsigned.CleanIn ↔ s.CleanIn := by
  refine Schema.ind (P := fun s => s.unsigned.CleanIn ↔ s.CleanIn) ?_ s
  intro h o st ih1 ih2
  have : (Schema.mk h o st).unsigned = .mk h.unsigned (o.map (List.map Schema.unsigned))
      (st.map fun x => (x.map Schema.unsigned).unsigned) := by
    unfold Schema.unsigned
    rw [Schema.fold_mk]
    simp only [Option.map_map, Function.comp_def]
  rw [this, cleanIn_mk, cleanIn_mk, SchemaHead.clean_unsigned]
  refine and_congr (and_congr_right fun _ => ?_) (and_congr ?_ ?_)
  · cases st with
    | none => simp
    | some st =>
      cases st <;> simp [SubtypeF.map, SubtypeF.unsigned, NumberSchema.clean_unsigned]
  · cases o with
    | none => simp
    | some l =>
      simp only [Option.map_some, Option.some.injEq, forall_eq', List.mem_map, forall_exists_index, and_imp,
        forall_apply_eq_imp_iff₂]
      exact ⟨fun H c hc => (ih1 l rfl c hc).1 (H c hc), fun H c hc => (ih1 l rfl c hc).2 (H c hc)⟩
  · cases st with
    | none => simp
    | some st =>
      simp only [Option.map_some, Option.some.injEq, forall_eq', SubtypeF.children_unsigned, SubtypeF.children_map,
        List.mem_map, forall_exists_index, and_imp, forall_apply_eq_imp_iff₂]
      exact ⟨fun H c hc => (ih2 st rfl c hc).1 (H c hc), fun H c hc => (ih2 st rfl c hc).2 (H c hc)⟩

end Schema

theorem schemasClean_unsigned (a : Option (HMap (DS X))) :
    SchemasClean (a.map (HMap.mapVals Schema.unsigned)) ↔ SchemasClean a :=
  opt_clean (ok := fun m : HMap (DS X) => ∀ k s, (k, s) ∈ m → s.CleanIn) (map_clean Schema.cleanIn_unsigned) a

theorem SecuritySchemeF.clean_unsigned (s : SecurityScheme) : s.unsigned.Clean ↔ s.Clean := by
  obtain ⟨a1, a2, a3, a4, a5⟩ := s
  cases a5 <;> simp [SecuritySchemeF.Clean, SecuritySchemeF.unsigned, SchemeSubtype.unsigned, Json.noNaN_unsigned]

theorem PropertyAffordance.clean_unsigned (p : PropertyAffordance X) : p.unsigned.Clean ↔ p.Clean := by
  simp only [PropertyAffordance.Clean, PropertyAffordance.unsigned, Interaction.unsigned, schemasClean_unsigned,
    Schema.cleanIn_unsigned]

theorem ActionAffordance.clean_unsigned (p : ActionAffordance X) : p.unsigned.Clean ↔ p.Clean := by
  simp only [ActionAffordance.Clean, ActionAffordance.unsigned, Interaction.unsigned, schemasClean_unsigned,
    opt_clean (ok := Schema.CleanIn) Schema.cleanIn_unsigned]

theorem EventAffordance.clean_unsigned (p : EventAffordance X) : p.unsigned.Clean ↔ p.Clean := by
  simp only [EventAffordance.Clean, EventAffordance.unsigned, Interaction.unsigned, schemasClean_unsigned,
    opt_clean (ok := Schema.CleanIn) Schema.cleanIn_unsigned]

theorem thing_noNaN_canonical (t : Thing X) : t.canonical.NoNaN ↔ t.NoNaN := by
  rw [← clean_iff, ← clean_iff]
  have key : ∀ t : Thing X, t.Clean ↔ t.context.NoNaN ∧ (∀ n s, (n, s) ∈ t.securityDefinitions → s.Clean) ∧
      (∀ m, t.properties = some m → ∀ n p, (n, p) ∈ m → p.Clean) ∧
      (∀ m, t.actions = some m → ∀ n p, (n, p) ∈ m → p.Clean) ∧
      (∀ m, t.events = some m → ∀ n p, (n, p) ∈ m → p.Clean) ∧
      SchemasClean t.uriVariables ∧ SchemasClean t.schemaDefinitions := fun t =>
    ⟨fun ⟨a, b, c, d, e, f, g⟩ => ⟨a, b, c, d, e, f, g⟩, fun ⟨a, b, c, d, e, f, g⟩ => ⟨a, b, c, d, e, f, g⟩⟩
  rw [key, key]
  unfold Thing.canonical
  simp only [Json.noNaN_unsigned, map_clean (ok := SecuritySchemeF.Clean) SecuritySchemeF.clean_unsigned,
    schemasClean_unsigned]
  rw [opt_clean (ok := fun m : HMap (PropertyAffordance X) => ∀ n p, (n, p) ∈ m → p.Clean)
      (map_clean PropertyAffordance.clean_unsigned),
    opt_clean (ok := fun m : HMap (ActionAffordance X) => ∀ n p, (n, p) ∈ m → p.Clean)
      (map_clean ActionAffordance.clean_unsigned),
    opt_clean (ok := fun m : HMap (EventAffordance X) => ∀ n p, (n, p) ∈ m → p.Clean)
      (map_clean EventAffordance.clean_unsigned)]

/-! ### Extensions -/

theorem ExtEq.nil_exact : ExtEq.nil.Exact := by
  constructor <;> intro a b <;> exact ⟨fun _ => rfl, fun _ => rfl⟩

theorem consEq_iff {A B : Type} {f : A → A → Bool} {g : B → B → Bool} (hf : ∀ a b, f a b = true ↔ a = b)
    (hg : ∀ a b, g a b = true ↔ a = b) (a b : Cons A B) : consEq f g a b = true ↔ a = b := by
  cases a; cases b
  simp [consEq, hf, hg]

theorem ExtEq.Exact.cons {T U : ExtTypes} {a : ExtEq T} {b : ExtEq U} (ha : a.Exact) (hb : b.Exact) :
    (ExtEq.cons a b).Exact where
  thing := consEq_iff ha.thing hb.thing
  interaction := consEq_iff ha.interaction hb.interaction
  property := consEq_iff ha.property hb.property
  action := consEq_iff ha.action hb.action
  event := consEq_iff ha.event hb.event
  form := consEq_iff ha.form hb.form
  response := consEq_iff ha.response hb.response
  dataSchema := consEq_iff ha.dataSchema hb.dataSchema
  objectSchema := consEq_iff ha.objectSchema hb.objectSchema
  arraySchema := consEq_iff ha.arraySchema hb.arraySchema

theorem Http.eq_exact : Http.eq.Exact := by
  have hh : ∀ a b : List Http.MessageHeader,
      listEq (fun h k => h.fieldName == k.fieldName && h.fieldValue == k.fieldValue) a b = true ↔ a = b :=
    fun a b => listEq_exact fun x _ y _ => by cases x; cases y; simp
  refine { ExtEq.nil_exact with form := ?_, response := ?_ }
  · rintro ⟨a⟩ ⟨b⟩; simp [Http.eq]
  · rintro ⟨a, b⟩ ⟨c, d⟩; simp [Http.eq, hh]

theorem Coap.eq_exact : Coap.eq.Exact := by
  have hh : ∀ a b : Option Coap.BlockWise, optEq Coap.blockWiseEq a b = true ↔ a = b :=
    fun a b => optEq_exact fun x _ y _ => by cases x; cases y; simp [Coap.blockWiseEq]
  refine { ExtEq.nil_exact with form := ?_, response := ?_ }
  · rintro ⟨⟩ ⟨⟩; simp [Coap.eq, hh, and_assoc]
  · rintro ⟨a⟩ ⟨b⟩; simp [Coap.eq]

theorem Mqtt.eq_exact : Mqtt.eq.Exact := by
  refine { ExtEq.nil_exact with form := ?_ }
  rintro ⟨⟩ ⟨⟩; simp [Mqtt.eq, and_assoc]

theorem Binding.stackEq_exact : (l : List Binding) → (Binding.stackEq l).Exact
  | [] => ExtEq.nil_exact
  | .http :: l => Http.eq_exact.cons (stackEq_exact l)
  | .coap :: l => Coap.eq_exact.cons (stackEq_exact l)
  | .mqtt :: l => Mqtt.eq_exact.cons (stackEq_exact l)

/-! ### Things that have been read -/

theorem Json.NumbersInRange.noNaN {j : Json} (h : j.NumbersInRange) : j.NoNaN :=
  fun _ hf => F64.not_nan_of_finite (h _ hf)

theorem numberIn_norm {n : JNum} {j : Json} (h : NumberIn n j.norm) : NumberIn n j := by
  induction j using Json.ind with
  | harr l ih =>
    simp only [Json.norm, normList_eq] at h
    cases h with
    | element hj hn =>
      obtain ⟨j, hj', rfl⟩ := List.mem_map.1 hj
      exact .element hj' (ih j hj' hn)
  | hobj m ih =>
    simp only [Json.norm, normMembers_eq] at h
    cases h with
    | member hj hn =>
      have := mem_of_collect hj
      simp only [HMap.mapVals, List.mem_map, Prod.exists, Prod.mk.injEq] at this
      obtain ⟨k, j, hj', rfl, rfl⟩ := this
      exact .member hj' (ih (k, j) hj' hn)
  | _ => exact h

theorem Json.NumbersInRange.norm {j : Json} (h : j.NumbersInRange) : j.norm.NumbersInRange :=
  fun n hn => h n (numberIn_norm hn)

theorem value_noNaN {k : String} {es : Members} (he : (Json.obj es).NumbersInRange) {v : Json}
    (h : optional k deValue es = some (some v)) : v.NoNaN := by
  obtain ⟨w, hw, -, h⟩ := optional_from .numbers he h
  cases h
  exact hw.norm.noNaN

theorem SchemaFrom.noNaN {DSx AS OS : Type} {C : ExtCodec DSx} {CA : ExtCodec AS} {CO : ExtCodec OS} {env : SerdeEnv}
    {x : DataSchema DSx AS OS} (h : SchemaFrom C CA CO env Json.NumbersInRange x) : x.NodeNoNaN := by
  have hl := h.lossless
  obtain ⟨es, he, hr⟩ := h
  refine ⟨fun n b h1 h2 => F64.not_nan_of_finite (hl.maximum n b h1 h2),
    fun n b h1 h2 => F64.not_nan_of_finite (hl.minimum n b h1 h2),
    fun n b h1 h2 => F64.not_nan_of_finite (hl.multipleOf n b h1 h2),
    fun j hj => value_noNaN he (hj ▸ hr.constant), fun j hj => value_noNaN he (hj ▸ hr.default), fun l hl j hj => ?_⟩
  obtain ⟨w, hw, h⟩ := optVec_from .numbers he (hl ▸ hr.enumeration) hj
  cases h
  exact hw.norm.noNaN

theorem ThingFrom.noNaN {C : ExtCodecs X} {env : SerdeEnv} {t : Thing X} (h : ThingFrom C env Json.NumbersInRange t) :
    t.NoNaN where
  context := by
    obtain ⟨es, he, hr⟩ := h.self
    have := hr.context
    unfold defaulted at this
    split at this
    · rw [← Option.some.inj this]
      exact Json.noNaN_leaf fun n h => by cases h
    · rename_i v hv
      rw [← Option.some.inj this]
      exact Json.NumbersInRange.noNaN
        (Json.NumbersInRange.norm (Hereditary.numbers.member he (mem_occ.1 (hv ▸ List.mem_singleton.2 rfl))))
    · cases this
  security n s m d hs hm := by
    obtain ⟨es, he, hr⟩ := h.security _ hs
    have := hr.subtype
    rw [hm] at this
    unfold deSubtype at this
    split at this
    · cases this
    · simp only [deUnknown, bind, pure] at this
      obtain ⟨_, _, h⟩ := Option.bind_eq_some_iff.1 this
      simp only [Option.some.injEq, SchemeSubtype.unknown.injEq] at h
      rw [← h.2]
      exact Json.NumbersInRange.noNaN (Json.NumbersInRange.norm
        (Hereditary.numbers.rest _ (Hereditary.numbers.rest _ he)))
  schemas p s x hs hx := (within_from .numbers hx (h.schemas p s hs)).noNaN

end Wot
