import Verif.Spec.Document
import Verif.Lemmas.SchemaHistory
/-
Lemmas about reading and writing documents.
-/
namespace Wot

/-! ### Lists of optional results -/

section MapOpt
variable {α β γ : Type}

theorem mapOpt_eq_some {f : α → Option β} {l : List α} {m : List β} :
    mapOpt f l = some m ↔ Pointwise (fun a b => f a = some b) l m := by
  induction l generalizing m with
  | nil => cases m <;> simp [mapOpt]
  | cons a l ih =>
    cases m with
    | nil =>
      simp only [mapOpt, Pointwise.cons_nil_iff, iff_false]
      cases f a with
      | none => nofun
      | some b => cases mapOpt f l <;> simp
    | cons b m =>
      simp only [mapOpt, Pointwise.cons_iff]
      cases f a with
      | none => simp
      | some b' =>
        cases h : mapOpt f l with
        | none =>
          simp only [reduceCtorEq, Option.some.injEq, false_iff, not_and]
          intro _ hp
          rw [ih.2 hp] at h
          cases h
        | some m' =>
          simp only [Option.some.injEq, List.cons.injEq]
          rw [← ih, h, Option.some.injEq]

theorem mapOpt_map {f : β → Option γ} {g : α → β} (l : List α) :
    mapOpt f (l.map g) = mapOpt (fun a => f (g a)) l := by
  induction l with
  | nil => rfl
  | cons a l ih => simp [mapOpt, ih]

theorem mapOpt_congr {f g : α → Option β} {l : List α} (h : ∀ a ∈ l, f a = g a) :
    mapOpt f l = mapOpt g l := by
  induction l with
  | nil => rfl
  | cons a l ih =>
    simp only [mapOpt, h a (by simp), ih fun x hx => h x (by simp [hx])]

theorem mapOptVals_eq_some {f : α → Option β} {l : List (String × α)} {m : List (String × β)} :
    mapOptVals f l = some m ↔ Pointwise (fun a b => a.1 = b.1 ∧ f a.2 = some b.2) l m := by
  rw [mapOptVals, mapOpt_eq_some]
  constructor <;> intro h <;> refine h.imp ?_
  · rintro ⟨k, a⟩ ⟨k', b⟩ h
    obtain ⟨c, h1, h2⟩ := Option.map_eq_some_iff.1 h
    cases h2
    exact ⟨rfl, h1⟩
  · rintro ⟨k, a⟩ ⟨k', b⟩ ⟨rfl, h⟩
    simp only at h
    simp [h]

theorem optOpt_eq_some {f : α → Option β} {o : Option α} {r : Option β} :
    optOpt f o = some r ↔ OptRel (fun a b => f a = some b) o r := by
  cases o with
  | none =>
    simp only [optOpt, Option.some.injEq]
    constructor
    · rintro rfl; exact .none
    · intro h; cases h; rfl
  | some a =>
    simp only [optOpt, Option.map_eq_some_iff]
    constructor
    · rintro ⟨b, h, rfl⟩; exact .some h
    · intro h; cases h with | some h => exact ⟨_, h, rfl⟩

end MapOpt

/-! ### Members -/

theorem lastOf_append_list {α : Type} (a b : List α) : lastOf (a ++ b) = (lastOf b).or (lastOf a) := by
  induction b using snoc_induction with
  | nil => simp [lastOf]
  | snoc b x _ => rw [← List.append_assoc, lastOf_append, lastOf_append]; rfl

theorem occ_append (k : String) (a b : Members) : occ k (a ++ b) = occ k a ++ occ k b := by
  unfold occ; exact List.filterMap_append

theorem occ_nil (k : String) : occ k [] = [] := rfl

theorem occ_cons (k k' : String) (v : Json) (m : Members) :
    occ k ((k', v) :: m) = if k' = k then v :: occ k m else occ k m := by
  unfold occ
  rw [List.filterMap_cons]
  by_cases h : k' = k <;> simp [h]

theorem mem_occ {k : String} {v : Json} {m : Members} : v ∈ occ k m ↔ (k, v) ∈ m := by
  unfold occ
  rw [List.mem_filterMap]
  constructor
  · rintro ⟨⟨k', v'⟩, h, h'⟩
    simp only [Option.ite_none_right_eq_some, Option.some.injEq] at h'
    obtain ⟨rfl, rfl⟩ := h'
    exact h
  · intro h
    exact ⟨_, h, by simp⟩

theorem occ_eq_nil {k : String} {m : Members} : occ k m = [] ↔ k ∉ m.map (·.1) := by
  constructor
  · intro h hk
    obtain ⟨⟨k', v⟩, hm, rfl⟩ := List.mem_map.1 hk
    have := mem_occ.2 hm
    rw [h] at this
    cases this
  · intro h
    cases e : occ k m with
    | nil => rfl
    | cons v l =>
      have : v ∈ occ k m := by simp [e]
      exact absurd (List.mem_map.2 ⟨_, mem_occ.1 this, rfl⟩) h

theorem occ_nodup {m : Members} (hn : (m.map (·.1)).Nodup) {k : String} {v : Json} (h : (k, v) ∈ m) :
    occ k m = [v] := by
  induction m with
  | nil => cases h
  | cons e m ih =>
    obtain ⟨k', v'⟩ := e
    simp only [List.map_cons, List.nodup_cons] at hn
    rw [occ_cons]
    rcases List.mem_cons.1 h with h | h
    · cases h
      rw [if_pos rfl, occ_eq_nil.2 hn.1]
    · have : k' ≠ k := by
        rintro rfl
        exact hn.1 (List.mem_map.2 ⟨_, h, rfl⟩)
      rw [if_neg this, ih hn.2 h]

theorem occ_nodup_cases {m : Members} (hn : (m.map (·.1)).Nodup) (k : String) :
    occ k m = [] ∨ ∃ v, occ k m = [v] := by
  cases e : occ k m with
  | nil => exact .inl rfl
  | cons v l =>
    have : (k, v) ∈ m := mem_occ.1 (by simp [e])
    right
    exact ⟨v, by rw [← e]; exact occ_nodup hn this⟩

theorem mem_rest {known : List String} {es : Members} {kv : String × Json} :
    kv ∈ rest known es ↔ kv ∈ es ∧ kv.1 ∉ known := by
  simp [rest, List.mem_filter]

theorem occ_rest (known : List String) (es : Members) (k : String) :
    occ k (rest known es) = if k ∈ known then [] else occ k es := by
  induction es with
  | nil => simp [rest, occ]
  | cons e es ih =>
    obtain ⟨k', v⟩ := e
    unfold rest at *
    rw [List.filter_cons]
    by_cases h : known.contains k' = true
    · rw [if_neg (by simp only [h]; decide), ih, occ_cons]
      by_cases hk : k' = k
      · subst hk
        rw [if_pos (by simpa using h), if_pos (by simpa using h)]
      · rw [if_neg hk]
    · rw [if_pos (by simp only [Bool.not_eq_true] at h; simp only [h]; rfl), occ_cons, occ_cons, ih]
      by_cases hk : k' = k
      · subst hk
        have h' : k' ∉ known := by simpa using h
        rw [if_pos rfl, if_pos rfl, if_neg h', if_neg h']
      · rw [if_neg hk, if_neg hk]

/-- The value a struct field is written with. -/
def fieldOf (k : String) : List (String × Option Json) → Option Json
  | [] => none
  | (k', v) :: l => if k' = k then v else fieldOf k l

theorem members_cons (k : String) (v : Option Json) (l : List (String × Option Json)) :
    members ((k, v) :: l) = (match v with | none => [] | some v => [(k, v)]) ++ members l := by
  unfold members
  rw [List.filterMap_cons]
  cases v <;> rfl

theorem mem_members {l : List (String × Option Json)} {kv : String × Json} (h : kv ∈ members l) :
    kv.1 ∈ l.map (·.1) := by
  unfold members at h
  obtain ⟨e, he, h⟩ := List.mem_filterMap.1 h
  obtain ⟨v, _, rfl⟩ := Option.map_eq_some_iff.1 h
  exact List.mem_map.2 ⟨e, he, rfl⟩

/-- The written value of a field of a struct. -/
theorem last_members {l : List (String × Option Json)} (hn : (l.map (·.1)).Nodup) (k : String) :
    lastOf (occ k (members l)) = fieldOf k l := by
  induction l with
  | nil => rfl
  | cons e l ih =>
    obtain ⟨k', v⟩ := e
    simp only [List.map_cons, List.nodup_cons] at hn
    rw [members_cons, occ_append, lastOf_append_list, ih hn.2, fieldOf]
    by_cases hk : k' = k
    · subst hk
      rw [if_pos rfl]
      have : fieldOf k' l = none := by
        rw [← ih hn.2, occ_eq_nil.2 ?_]
        · rfl
        · intro h
          obtain ⟨kv, hkv, rfl⟩ := List.mem_map.1 h
          exact hn.1 (mem_members hkv)
      rw [this]
      cases v with
      | none => rfl
      | some v => simp [occ_cons, occ_nil, lastOf]
    · rw [if_neg hk]
      cases v with
      | none => simp [occ_nil, lastOf]
      | some v => simp [occ_cons, occ_nil, hk, lastOf]

/-! ### Normal forms -/

theorem normList_eq (l : List Json) : Json.normList l = l.map Json.norm := by
  induction l <;> simp [Json.normList, *]

theorem normMembers_eq (m : Members) : Json.normMembers m = HMap.mapVals Json.norm m := by
  induction m with
  | nil => rfl
  | cons e m ih => obtain ⟨k, v⟩ := e; simp [Json.normMembers, ih, HMap.mapVals]

theorem noDupList_iff (l : List Json) : Json.NoDupList l ↔ ∀ j ∈ l, j.NoDup := by
  induction l <;> simp [Json.NoDupList, *]

theorem noDupMembers_iff (m : Members) : Json.NoDupMembers m ↔ ∀ kv ∈ m, kv.2.NoDup := by
  induction m with
  | nil => simp [Json.NoDupMembers]
  | cons e m ih => obtain ⟨k, v⟩ := e; simp [Json.NoDupMembers, ih]

theorem find_reverse_occ (m : Members) (k : String) :
    (m.reverse.find? (fun kv => kv.1 == k)).map (·.2) = lastOf (occ k m) := by
  induction m using snoc_induction with
  | nil => rfl
  | snoc m e ih =>
    obtain ⟨k', v⟩ := e
    rw [List.reverse_append, occ_append, lastOf_append_list, ← ih, occ_cons, occ_nil]
    simp only [List.reverse_cons, List.reverse_nil, List.nil_append, List.cons_append,
      List.find?_cons]
    by_cases hk : k' = k
    · simp [hk, lastOf]
    · have : (k' == k) = false := by simpa using hk
      simp [hk, this, lastOf]

theorem collect_get?_occ (m : Members) (k : String) : (HMap.collect m).get? k = lastOf (occ k m) := by
  rw [HMap.collect_get?, find_reverse_occ]

theorem lastOf_map {α β : Type} (f : α → β) (l : List α) : lastOf (l.map f) = (lastOf l).map f := by
  induction l using snoc_induction with
  | nil => rfl
  | snoc l a _ => rw [List.map_append, List.map_singleton, lastOf_append, lastOf_append]; rfl

theorem occ_mapVals (f : Json → Json) (m : Members) (k : String) :
    occ k (HMap.mapVals f m) = (occ k m).map f := by
  induction m with
  | nil => rfl
  | cons e m ih =>
    obtain ⟨k', v⟩ := e
    rw [HMap.mapVals, List.map_cons, occ_cons, occ_cons]
    rw [HMap.mapVals] at ih
    rw [ih]
    by_cases h : k' = k <;> simp [h]

theorem get?_norm (m : Members) (k : String) :
    (HMap.collect (Json.normMembers m)).get? k = (lastOf (occ k m)).map Json.norm := by
  rw [collect_get?_occ, normMembers_eq, occ_mapVals, lastOf_map]

/-- Normal forms have no repeated members. -/
theorem norm_noDup (j : Json) : j.norm.NoDup := by
  induction j using Json.ind with
  | harr l ih =>
    simp only [Json.norm, Json.NoDup, normList_eq, noDupList_iff, List.mem_map, forall_exists_index,
      and_imp, forall_apply_eq_imp_iff₂]
    exact ih
  | hobj m ih =>
    simp only [Json.norm, Json.NoDup, noDupMembers_iff]
    refine ⟨(HMap.collect_sorted _).nodup, fun kv hkv => ?_⟩
    obtain ⟨k, v⟩ := kv
    have h1 := HMap.get?_eq_some_of_mem (HMap.collect_sorted _).nodup hkv
    rw [get?_norm] at h1
    obtain ⟨w, h2, rfl⟩ := Option.map_eq_some_iff.1 h1
    have : w ∈ occ k m := by
      generalize occ k m = l at h2
      induction l using snoc_induction with
      | nil => cases h2
      | snoc l a _ => rw [lastOf_append] at h2; cases h2; simp
    exact ih _ (mem_occ.1 this)
  | _ => simp [Json.norm, Json.NoDup]

theorem norm_norm (j : Json) : j.norm.norm = j.norm := by
  induction j using Json.ind with
  | harr l ih =>
    simp only [Json.norm, normList_eq, List.map_map, Json.arr.injEq, List.map_inj_left,
      Function.comp]
    exact ih
  | hobj m ih =>
    simp only [Json.norm, Json.obj.injEq]
    refine (HMap.collect_sorted _).ext (HMap.collect_sorted _) fun k => ?_
    rw [get?_norm, ← collect_get?_occ, HMap.collect_of_sorted (HMap.collect_sorted _), get?_norm]
    cases e : lastOf (occ k m) with
    | none => rfl
    | some w =>
      have : w ∈ occ k m := by
        generalize occ k m = l at e
        induction l using snoc_induction with
        | nil => cases e
        | snoc l a _ => rw [lastOf_append] at e; cases e; simp
      simp [ih _ (mem_occ.1 this)]
  | _ => rfl

/-! ### Documents representing a written value -/

theorem Represents.of_norm (s : Json) : Represents s.norm s := ⟨norm_noDup s, norm_norm s⟩

theorem Represents.refl {s : Json} (h : s.NoDup) : Represents s s := ⟨h, rfl⟩

theorem Represents.null {d : Json} (h : Represents d .null) : d = .null := by
  have := h.2
  cases d <;> simp_all [Json.norm]

theorem Represents.ne_null {d s : Json} (h : Represents d s) (hs : s ≠ .null) : d ≠ .null := by
  rintro rfl
  have := h.2
  cases s <;> simp_all [Json.norm]

theorem Represents.bool {d : Json} {b : Bool} (h : Represents d (.bool b)) : d = .bool b := by
  have := h.2
  cases d <;> simp_all [Json.norm]

theorem Represents.num {d : Json} {n : JNum} (h : Represents d (.num n)) : d = .num n := by
  have := h.2
  cases d <;> simp_all [Json.norm]

theorem Represents.str {d : Json} {s : String} (h : Represents d (.str s)) : d = .str s := by
  have := h.2
  cases d <;> simp_all [Json.norm]

theorem Represents.arr {d : Json} {l : List Json} (h : Represents d (.arr l)) :
    ∃ l', d = .arr l' ∧ Pointwise Represents l' l := by
  obtain ⟨hd, hn⟩ := h
  cases d with
  | arr l' =>
    refine ⟨l', rfl, ?_⟩
    simp only [Json.NoDup] at hd
    rw [noDupList_iff] at hd
    simp only [Json.norm, normList_eq, Json.arr.injEq] at hn
    induction l' generalizing l with
    | nil =>
      cases l with
      | nil => exact .nil
      | cons b l => cases hn
    | cons a l' ih =>
      cases l with
      | nil => cases hn
      | cons b l =>
        simp only [List.map_cons, List.cons.injEq] at hn
        exact .cons ⟨hd _ (by simp), hn.1⟩ (ih (fun j hj => hd j (by simp [hj])) hn.2)
  | _ => simp [Json.norm] at hn

theorem Represents.obj {d : Json} {m : Members} (h : Represents d (.obj m)) :
    ∃ es, d = .obj es ∧ (es.map (·.1)).Nodup ∧ ∀ k, Carries es m k := by
  obtain ⟨hd, hn⟩ := h
  cases d with
  | obj es =>
    refine ⟨es, rfl, ?_⟩
    simp only [Json.NoDup] at hd
    rw [noDupMembers_iff] at hd
    simp only [Json.norm, Json.obj.injEq] at hn
    refine ⟨hd.1, fun k => ?_⟩
    have hk := congrArg (fun h => HMap.get? h k) hn
    simp only [get?_norm] at hk
    unfold Carries
    rcases occ_nodup_cases hd.1 k with h | ⟨v', h⟩
    · rw [h] at hk ⊢
      cases e : lastOf (occ k m) with
      | none => rfl
      | some v => rw [e] at hk; cases hk
    · rw [h] at hk ⊢
      cases e : lastOf (occ k m) with
      | none => rw [e] at hk; cases hk
      | some v =>
        rw [e] at hk
        simp only [lastOf, Option.map_some, Option.some.injEq] at hk
        exact ⟨v', rfl, hd.2 (k, v') (mem_occ.1 (by simp [h])), hk⟩
  | _ => simp [Json.norm] at hn

/-- Writing `a` as `j` and reading it with `de`. -/
def RT {α : Type} (j : Json) (de : Json → Option α) (a : α) : Prop :=
  ∀ d, Represents d j → de d = some a

theorem Carries.rest {es m : Members} {k : String} (h : Carries es m k) {known : List String}
    (hk : k ∉ known) : Carries (rest known es) m k := by
  unfold Carries at *
  rw [occ_rest, if_neg hk]
  exact h

theorem Carries.congr {es m m' : Members} {k : String} (h : Carries es m k)
    (he : lastOf (occ k m) = lastOf (occ k m')) : Carries es m' k := by
  unfold Carries at *
  rwa [← he]

section Fields
variable {α : Type} {es m : Members} {k : String} {de : Json → Option α}

theorem required_rt (h : Carries es m k) {j : Json} (hj : lastOf (occ k m) = some j) {a : α}
    (hr : RT j de a) : required k de es = some a := by
  unfold Carries at h
  rw [hj] at h
  obtain ⟨v', h1, h2⟩ := h
  unfold required
  rw [h1]
  exact hr _ h2

theorem defaulted_rt (h : Carries es m k) {j : Json} (hj : lastOf (occ k m) = some j) {a d : α}
    (hr : RT j de a) : defaulted k d de es = some a := by
  unfold Carries at h
  rw [hj] at h
  obtain ⟨v', h1, h2⟩ := h
  unfold defaulted
  rw [h1]
  exact hr _ h2

theorem defaulted_absent (h : Carries es m k) (hj : lastOf (occ k m) = none) {d : α} :
    defaulted k d de es = some d := by
  unfold Carries at h
  rw [hj] at h
  unfold defaulted
  rw [h]

theorem deOption_rt {j : Json} {a : α} (hj : j ≠ .null) (hr : RT j de a) : RT j (deOption de) (some a) := by
  intro d hd
  have := hd.ne_null hj
  have h := hr d hd
  cases d <;> simp_all [deOption]

theorem optional_rt (h : Carries es m k) {β : Type} {x : Option β} {f : β → Option Json} {g : β → α}
    (hj : lastOf (occ k m) = x.bind f)
    (hr : ∀ b, x = some b → ∃ j, f b = some j ∧ j ≠ .null ∧ RT j de (g b)) :
    optional k de es = some (x.map g) := by
  unfold optional
  cases x with
  | none => exact defaulted_absent h hj
  | some b =>
    obtain ⟨j, h1, h2, h3⟩ := hr b rfl
    exact defaulted_rt h (hj.trans h1) (deOption_rt h2 h3)

/-- An optional field written by `f`. -/
theorem optional_field (h : Carries es m k) {x : Option α} {f : α → Json}
    (hj : lastOf (occ k m) = x.map f) (hr : ∀ a, x = some a → f a ≠ .null ∧ RT (f a) de a) :
    optional k de es = some x := by
  have := optional_rt (de := de) (f := fun a => some (f a)) (g := fun a => a) (x := x) h
    (by rw [hj]; cases x <;> rfl) fun b hb => ⟨_, rfl, hr b hb⟩
  simpa using this

/-- An optional field whose written form is the result of a fallible serialiser. -/
theorem optional_map (h : Carries es m k) {β : Type} {x : Option β} {y : Option Json}
    {f : β → Option Json} {r : β → α} (hy : OptRel (fun a j => f a = some j) x y)
    (hj : lastOf (occ k m) = y) (hr : ∀ a j, x = some a → f a = some j → j ≠ .null ∧ RT j de (r a)) :
    optional k de es = some (x.map r) :=
  optional_rt (de := de) (f := f) (g := r) (x := x) h
    (by rw [hj]; cases hy with | none => rfl | some h => exact h.symm) fun b hb => by
      subst hb
      cases hy with
      | some h => exact ⟨_, h, hr _ _ rfl h⟩

theorem optional_rel (h : Carries es m k) {x : Option α} {y : Option Json} {f : α → Option Json}
    (hy : OptRel (fun a j => f a = some j) x y) (hj : lastOf (occ k m) = y)
    (hr : ∀ a j, x = some a → f a = some j → j ≠ .null ∧ RT j de a) :
    optional k de es = some x := by
  have := optional_map (de := de) (f := f) (r := fun a => a) (x := x) h hy hj hr
  simpa using this

end Fields

/-! ### Leaves -/

theorem str_rt (s : String) : RT (.str s) deStr s := fun d hd => by rw [hd.str]; rfl

theorem bool_rt (b : Bool) : RT (.bool b) deBool b := fun d hd => by rw [hd.bool]; rfl

theorem value_rt {j : Json} (h : j.IsValue) : RT j deValue j := fun d hd => by
  unfold deValue
  rw [hd.2, h]

theorem u32_rt (n : U32) : RT (serNat n.1) deU32 n := fun d hd => by
  rw [hd.num]
  simp [deU32, n.2]

theorem nat_rt {n bound : Nat} (h : n < bound) : RT (serNat n) (deNat bound) n := fun d hd => by
  rw [hd.num]
  simp [deNat, h]

theorem nonZero_rt (n : NonZeroU64) : RT (serNat n.1) deNonZeroU64 n := fun d hd => by
  rw [hd.num]
  simp only [deNonZeroU64, NonZeroU64.ofNat?]
  rw [dif_pos n.2]
  rfl

theorem i64_rt (z : I64) : RT (serI64 z) deI64 z := fun d hd => by
  unfold serI64 at hd
  have hz : -(2^63 : Int) ≤ z.val ∧ z.val < (2^63 : Int) := z.2
  have eta : ∀ w h, w = z.val → (⟨w, h⟩ : I64) = z := fun w h e => Subtype.ext e
  by_cases h0 : 0 ≤ z.val
  · rw [if_pos h0] at hd
    rw [hd.num]
    simp only [deI64, I64.ofInt?]
    have : ((z.val.toNat : Nat) : Int) = z.val := Int.toNat_of_nonneg h0
    rw [dif_pos (by rw [this]; exact hz)]
    exact congrArg some (eta _ _ this)
  · rw [if_neg h0] at hd
    rw [hd.num]
    simp only [deI64, I64.ofInt?]
    have : -(((-(z.val + 1)).toNat : Int) + 1) = z.val := by omega
    rw [dif_pos (by rw [this]; exact hz)]
    exact congrArg some (eta _ _ this)

theorem f64_rt {f : F64} (h : f.isFinite = true) : RT (serF64 f) deF64 f :=
  fun d hd => by
    unfold serF64 at hd
    rw [if_pos h] at hd
    rw [hd.num]
    rfl

theorem serF64_ne_null {f : F64} (h : f.isFinite = true) : serF64 f ≠ .null := by
  unfold serF64
  rw [if_pos h]
  nofun

theorem serI64_ne_null (z : I64) : serI64 z ≠ .null := by
  unfold serI64
  split <;> nofun

/-! ### Lists and maps -/

theorem vec_rt {α : Type} {de : Json → Option α} {js : List Json} {l : List α}
    (h : Pointwise (fun j a => RT j de a) js l) : RT (.arr js) (deVec de) l := by
  intro d hd
  obtain ⟨l', rfl, hp⟩ := hd.arr
  show mapOpt de l' = some l
  rw [mapOpt_eq_some]
  clear hd
  induction hp generalizing l with
  | nil => cases h; exact .nil
  | cons h1 _ ih =>
    cases h with
    | cons h2 h3 => exact .cons (h2 _ h1) (ih h3)

theorem pointwise_map_left {α β γ : Type} {R : α → β → Prop} {f : γ → α} {l : List γ} {m : List β} :
    Pointwise R (l.map f) m ↔ Pointwise (fun a b => R (f a) b) l m := by
  induction l generalizing m with
  | nil => cases m <;> simp
  | cons a l ih => cases m <;> simp [ih]

theorem pointwise_self {α : Type} {R : α → α → Prop} {l : List α} (h : ∀ a ∈ l, R a a) :
    Pointwise R l l := by
  induction l with
  | nil => exact .nil
  | cons a l ih => exact .cons (h a (by simp)) (ih fun x hx => h x (by simp [hx]))

theorem pointwise_map_right {α β γ : Type} {R : α → β → Prop} {f : γ → β} {l : List α} {m : List γ} :
    Pointwise R l (m.map f) ↔ Pointwise (fun a c => R a (f c)) l m := by
  constructor
  · intro h
    generalize e : m.map f = m' at h
    induction h generalizing m with
    | nil => cases m with | nil => exact .nil | cons _ _ => cases e
    | cons h _ ih =>
      cases m with
      | nil => cases e
      | cons c m => injection e with e1 e2; subst e1; exact .cons h (ih e2)
  · intro h
    induction h with
    | nil => exact .nil
    | cons h _ ih => exact .cons h ih

theorem pointwise_map_self {α β : Type} {R : β → α → Prop} {f : α → β} {l : List α}
    (h : ∀ a ∈ l, R (f a) a) : Pointwise R (l.map f) l :=
  pointwise_map_left.2 (pointwise_self h)

/-- `OneOrMany` round trip: the elements are readable, and an array of them is not readable as one
element. -/
theorem oneOrMany_rt {α : Type} {de : Json → Option α} {f : α → Json} {l : List α}
    (h : ∀ a ∈ l, RT (f a) de a)
    (hn : l.length ≠ 1 → ∀ d, Represents d (.arr (l.map f)) → de d = none) :
    RT (serOneOrMany (l.map f)) (deOneOrMany de) l := by
  intro d hd
  match l, hd with
  | [a], hd => simp only [deOneOrMany, h a (by simp) d hd]
  | [], hd =>
    have : Represents d (.arr []) := hd
    simp only [deOneOrMany, hn (by simp) d this]
    exact vec_rt (js := []) .nil d this
  | a :: b :: l, hd =>
    have : Represents d (.arr ((a :: b :: l).map f)) := hd
    simp only [deOneOrMany, hn (by simp) d this]
    exact vec_rt (pointwise_map_self h) d this

theorem strings_rt (l : List String) : RT (serStrings l) deStrings l :=
  oneOrMany_rt (f := Json.str) (fun a _ => str_rt a) fun _ d hd => by
    obtain ⟨l', rfl, _⟩ := hd.arr
    rfl

theorem serStrings_ne_null (l : List String) : serStrings l ≠ .null := by
  unfold serStrings
  match l with
  | [] => nofun
  | [_] => nofun
  | _ :: _ :: _ => nofun

/-- Reading a map whose entries carry those of `m`. -/
theorem map_rt_aux {α : Type} {g : String × Json → Option (String × α)} {es ms : Members}
    {m : HMap α} (hs : m.Sorted) (hn : (es.map (·.1)).Nodup) (hc : ∀ k, Carries es ms k)
    (hk : ∀ k, lastOf (occ k ms) = none → m.get? k = none)
    (hr : ∀ k j, lastOf (occ k ms) = some j →
      ∃ a, m.get? k = some a ∧ ∀ v', Represents v' j → g (k, v') = some (k, a)) :
    (mapOpt g es).map HMap.collect = some m := by
  have key : ∀ kv ∈ es, ∃ a, m.get? kv.1 = some a ∧ g kv = some (kv.1, a) := by
    rintro ⟨k, v⟩ hkv
    have h1 := hc k
    unfold Carries at h1
    rw [occ_nodup hn hkv] at h1
    cases e : lastOf (occ k ms) with
    | none => rw [e] at h1; cases h1
    | some j =>
      rw [e] at h1
      obtain ⟨v', h2, h3⟩ := h1
      injection h2 with h2
      subst h2
      obtain ⟨a, h4, h5⟩ := hr k j e
      exact ⟨a, h4, h5 _ h3⟩
  have : ∃ l, mapOpt g es = some l ∧ l.map (·.1) = es.map (·.1) ∧
      ∀ kv ∈ l, m.get? kv.1 = some kv.2 := by
    clear hc hn
    induction es with
    | nil => exact ⟨[], rfl, rfl, nofun⟩
    | cons e es ih =>
      obtain ⟨l, h1, h2, h3⟩ := ih fun kv hkv => key kv (by simp [hkv])
      obtain ⟨a, h4, h5⟩ := key e (by simp)
      refine ⟨(e.1, a) :: l, by simp [mapOpt, h5, h1], by simp [h2], ?_⟩
      intro kv hkv
      rcases List.mem_cons.1 hkv with rfl | hkv
      · exact h4
      · exact h3 kv hkv
  obtain ⟨l, h1, h2, h3⟩ := this
  rw [h1, Option.map_some, Option.some.injEq]
  refine (HMap.collect_sorted _).ext hs fun k => ?_
  rw [HMap.collect_get?_nodup (by rw [h2]; exact hn)]
  cases e : HMap.get? l k with
  | some a => rw [h3 _ (HMap.mem_of_get? e)]
  | none =>
    have hk' : k ∉ es.map (·.1) := by
      rw [← h2]
      exact HMap.get?_eq_none_iff.1 e
    have h4 := hc k
    unfold Carries at h4
    rw [occ_eq_nil.2 hk'] at h4
    cases e' : lastOf (occ k ms) with
    | none => rw [hk k e']
    | some j => rw [e'] at h4; obtain ⟨_, h5, _⟩ := h4; cases h5

theorem get?_pointwise {α β : Type} {R : α → β → Prop} {l : List (String × α)} {m : List (String × β)}
    (h : Pointwise (fun a b => a.1 = b.1 ∧ R a.2 b.2) l m) (k : String) :
    OptRel R (HMap.get? l k) (HMap.get? m k) := by
  induction h with
  | nil => exact .none
  | @cons a b l m h _ ih =>
    obtain ⟨k1, a⟩ := a
    obtain ⟨k2, b⟩ := b
    obtain ⟨rfl, h⟩ := h
    simp only at h
    rw [HMap.get?_cons, HMap.get?_cons]
    by_cases hk : k = k1
    · rw [if_pos hk, if_pos hk]; exact .some h
    · rw [if_neg hk, if_neg hk]; exact ih

theorem occ_get? {m : Members} (hn : (m.map (·.1)).Nodup) (k : String) :
    lastOf (occ k m) = HMap.get? m k := by
  rw [← collect_get?_occ, HMap.collect_get?_nodup hn]

theorem serMap_mapVals_rt {α β γ : Type} {env : Env} {f : β → Option Json} {g : α → β} {r : α → γ}
    {de : Json → Option γ} {m : HMap α} {j : Json} (hs : m.Sorted)
    (h : serMap env f (HMap.mapVals g m) = some j)
    (hr : ∀ kv ∈ m, ∀ j, f (g kv.2) = some j → RT j de (r kv.2)) :
    RT j (deMap de) (HMap.mapVals r m) := by
  intro d hd
  obtain ⟨ms, h1, rfl⟩ := Option.map_eq_some_iff.1 h
  rw [mapOptVals_eq_some] at h1
  obtain ⟨es, rfl, hn, hc⟩ := hd.obj
  have hkeys : ms.map (·.1) = (env.iter (HMap.mapVals g m)).map (·.1) :=
    ((h1.imp fun a b h => h.1).map_eq (f := fun a : String × β => a.1)
      (g := fun b : String × Json => b.1)).symm
  have hnd : ((env.iter (HMap.mapVals g m)).map (·.1)).Nodup := by
    refine ((env.iter_perm (HMap.mapVals g m)).map (fun kv : String × β => kv.1)).nodup_iff.2 ?_
    have : (HMap.mapVals g m).map (fun kv : String × β => kv.1) = m.map (·.1) := by
      simp [HMap.mapVals]
    rw [this]
    exact hs.nodup
  have hget : ∀ k, OptRel (fun a j => f (g a) = some j) (HMap.get? m k) (lastOf (occ k ms)) := by
    intro k
    have h2 := get?_pointwise (R := fun b j => f b = some j) h1 k
    rw [HMap.get?_perm (env.iter_perm (HMap.mapVals g m)) hnd, HMap.get?_mapVals] at h2
    rw [occ_get? (hkeys ▸ hnd)]
    cases e : HMap.get? m k with
    | none => rw [e] at h2; generalize HMap.get? ms k = x at h2; cases h2; exact .none
    | some a => rw [e] at h2; generalize HMap.get? ms k = x at h2; cases h2 with | some h => exact .some h
  show (mapOptVals de es).map HMap.collect = some (HMap.mapVals r m)
  unfold mapOptVals
  refine map_rt_aux (hs.mapVals r) hn hc ?_ ?_
  · intro k hk
    rw [HMap.get?_mapVals]
    have := hget k
    rw [hk] at this
    cases e : HMap.get? m k with
    | none => rfl
    | some a => rw [e] at this; cases this
  · intro k j hk
    rw [HMap.get?_mapVals]
    have := hget k
    rw [hk] at this
    cases e : HMap.get? m k with
    | none => rw [e] at this; cases this
    | some a =>
      rw [e] at this
      cases this with
      | some h =>
        refine ⟨r a, rfl, fun v' hv => ?_⟩
        simp [hr (k, a) (HMap.mem_of_get? e) j h v' hv]

theorem mapVals_id {α : Type} (m : HMap α) : HMap.mapVals id m = m := by simp [HMap.mapVals]

theorem serMap_rt {α γ : Type} {env : Env} {f : α → Option Json} {r : α → γ} {de : Json → Option γ}
    {m : HMap α} {j : Json} (hs : m.Sorted) (h : serMap env f m = some j)
    (hr : ∀ kv ∈ m, ∀ j, f kv.2 = some j → RT j de (r kv.2)) : RT j (deMap de) (HMap.mapVals r m) :=
  serMap_mapVals_rt (g := id) hs (by rw [mapVals_id]; exact h) hr

theorem serMap_ne_null {α : Type} {env : Env} {f : α → Option Json} {m : HMap α} {j : Json}
    (h : serMap env f m = some j) : j ≠ .null := by
  obtain ⟨ms, _, rfl⟩ := Option.map_eq_some_iff.1 h
  nofun

theorem lang_rt {env : SerdeEnv} {m : MultiLanguage} (hs : m.map.Sorted)
    (hr : ∀ k ∈ m.map.keys, env.langRead k = some k) : RT (serLang env.toEnv m) (deLang env) m := by
  intro d hd
  obtain ⟨es, rfl, hn, hc⟩ := hd.obj
  have hnd : ((env.iter m.map).map (·.1)).Nodup :=
    ((env.iter_perm m.map).map (fun kv : String × String => kv.1)).nodup_iff.2 hs.nodup
  have hget : ∀ k, lastOf (occ k ((env.iter m.map).map fun kv => (kv.1, Json.str kv.2))) =
      (HMap.get? m.map k).map Json.str := by
    intro k
    rw [occ_get? (by rw [List.map_map]; exact hnd),
      ← HMap.get?_perm (env.iter_perm m.map) hnd, ← HMap.get?_mapVals]
    rfl
  show (mapOpt _ es).map _ = some m
  have := map_rt_aux (m := m.map) (es := es)
    (g := fun kv => (env.langRead kv.1).bind fun t => (deStr kv.2).map fun s => (t, s)) hs hn hc ?_ ?_
  · obtain ⟨l, h1, h2⟩ := Option.map_eq_some_iff.1 this
    rw [h1, Option.map_some, h2]
  · intro k hk
    rw [hget] at hk
    simpa using hk
  · intro k j hk
    rw [hget] at hk
    obtain ⟨s, h1, rfl⟩ := Option.map_eq_some_iff.1 hk
    refine ⟨s, h1, fun v' hv => ?_⟩
    have : k ∈ m.map.keys := by
      rw [← HMap.get?_isSome_iff, h1]; rfl
    rw [hr k this, hv.str]
    rfl

theorem serLang_ne_null (env : Env) (m : MultiLanguage) : serLang env m ≠ .null := nofun

/-- Reading a unit variant by its name. -/
theorem enum_rt {α : Type} {table : List (String × α)} {s : String} {a : α}
    (h : nameOf? table s = some a) : RT (.str s) (deEnum table) a := fun d hd => by
  rw [hd.str]
  exact h

theorem enum_rt_buffered {α : Type} {table : List (String × α)} {s : String} {a : α}
    (h : nameOf? table s = some a) : RT (.str s) (deEnumBuffered table) a := fun d hd => by
  rw [hd.str]
  exact h

theorem tag_rt {α : Type} {table : List (String × α)} {s : String} {a : α}
    (h : nameOf? table s = some a) : RT (.str s) (deTag table) a := fun d hd => by
  rw [hd.str]
  exact h

end Wot
