import Verif.Model.Thing
import Verif.Spec.Basic
/-
Helper lemmas about `Except`, fallible iteration and finite maps.
-/
namespace Wot

section Except
variable {α β ε : Type}

theorem bind_ok_iff {x : Except ε α} {f : α → Except ε β} {b : β} :
    (x >>= f) = .ok b ↔ ∃ a, x = .ok a ∧ f a = .ok b := by
  cases x <;> simp [bind, Except.bind]

theorem bind_error_iff {x : Except ε α} {f : α → Except ε β} {e : ε} :
    (x >>= f) = .error e ↔ x = .error e ∨ ∃ a, x = .ok a ∧ f a = .error e := by
  cases x <;> simp [bind, Except.bind]

theorem pure_ok_iff {a b : α} : (pure a : Except ε α) = .ok b ↔ a = b := by
  simp [pure, Except.pure]

theorem pure_error_iff {a : α} {e : ε} : (pure a : Except ε α) = .error e ↔ False := by
  simp [pure, Except.pure]

theorem tryForEach_ok_iff {f : α → Except ε Unit} {l : List α} :
    tryForEach f l = .ok () ↔ ∀ a ∈ l, f a = .ok () := by
  induction l with
  | nil => simp [tryForEach]
  | cons a l ih =>
    simp only [tryForEach, List.mem_cons, forall_eq_or_imp]
    cases h : f a with
    | error e => simp
    | ok u => simp [ih]

theorem tryForEach_error {f : α → Except ε Unit} {l : List α} {e : ε}
    (h : tryForEach f l = .error e) : ∃ a ∈ l, f a = .error e := by
  induction l with
  | nil => simp [tryForEach] at h
  | cons a l ih =>
    simp only [tryForEach] at h
    cases h' : f a with
    | error e' =>
      simp only [h', Except.error.injEq] at h
      exact ⟨a, by simp, by simp [h', h]⟩
    | ok u =>
      simp only [h'] at h
      obtain ⟨x, hx, hx'⟩ := ih h
      exact ⟨x, by simp [hx], hx'⟩

/-- The first failing element decides the error. -/
theorem tryForEach_error_iff {f : α → Except ε Unit} {l : List α} {e : ε} :
    tryForEach f l = .error e ↔
      ∃ l₁ a l₂, l = l₁ ++ a :: l₂ ∧ (∀ x ∈ l₁, f x = .ok ()) ∧ f a = .error e := by
  induction l with
  | nil => simp [tryForEach]
  | cons a l ih =>
    simp only [tryForEach]
    cases h : f a with
    | error e' =>
      simp only [Except.error.injEq]
      constructor
      · rintro rfl; exact ⟨[], a, l, rfl, by simp, h⟩
      · rintro ⟨l₁, x, l₂, heq, h1, h2⟩
        cases l₁ with
        | nil => simp at heq; obtain ⟨rfl, rfl⟩ := heq; simpa [h] using h2
        | cons y l₁ =>
          simp at heq
          have := h1 y (by simp)
          rw [← heq.1, h] at this
          simp at this
    | ok u =>
      simp only [ih]
      constructor
      · rintro ⟨l₁, x, l₂, rfl, h1, h2⟩
        exact ⟨a :: l₁, x, l₂, rfl, by simpa [h] using h1, h2⟩
      · rintro ⟨l₁, x, l₂, heq, h1, h2⟩
        cases l₁ with
        | nil => simp at heq; obtain ⟨rfl, rfl⟩ := heq; simp [h] at h2
        | cons y l₁ =>
          simp at heq
          exact ⟨l₁, x, l₂, heq.2, fun z hz => h1 z (by simp [hz]), h2⟩

theorem tryMap_ok_iff {f : α → Except ε β} {l : List α} {m : List β} :
    tryMap f l = .ok m ↔ Pointwise (fun a b => f a = .ok b) l m := by
  induction l generalizing m with
  | nil => cases m <;> simp [tryMap]
  | cons a l ih =>
    simp only [tryMap]
    cases h : f a with
    | error e => cases m <;> simp [h]
    | ok b =>
      cases h' : tryMap f l with
      | error e =>
        cases m with
        | nil => simp
        | cons c m =>
          simp only [reduceCtorEq, Pointwise.cons_iff, false_iff, not_and]
          intro _ hm
          rw [← ih, h'] at hm
          simp at hm
      | ok bs =>
        cases m with
        | nil => simp
        | cons c m => simp [h, ← ih, h']

theorem tryMap_isOk_iff {f : α → Except ε β} {l : List α} :
    (∃ m, tryMap f l = .ok m) ↔ ∀ a ∈ l, ∃ b, f a = .ok b := by
  induction l with
  | nil => simp [tryMap]
  | cons a l ih =>
    simp only [tryMap, List.mem_cons, forall_eq_or_imp]
    cases h : f a with
    | error e => simp
    | ok b =>
      rw [← ih]
      cases h' : tryMap f l <;> simp

theorem tryMap_error {f : α → Except ε β} {l : List α} {e : ε}
    (h : tryMap f l = .error e) : ∃ a ∈ l, f a = .error e := by
  induction l with
  | nil => simp [tryMap] at h
  | cons a l ih =>
    simp only [tryMap] at h
    cases h' : f a with
    | error e' =>
      simp only [h', Except.error.injEq] at h
      exact ⟨a, by simp, by simp [h', h]⟩
    | ok u =>
      simp only [h'] at h
      cases h'' : tryMap f l with
      | error e' =>
        simp only [h'', Except.error.injEq] at h
        obtain ⟨x, hx, hx'⟩ := ih (by rw [h'', h])
        exact ⟨x, by simp [hx], hx'⟩
      | ok bs => simp [h''] at h

theorem tryOpt_ok_iff {f : α → Except ε β} {o : Option α} {r : Option β} :
    tryOpt f o = .ok r ↔
      (o = none ∧ r = none) ∨ ∃ a b, o = some a ∧ f a = .ok b ∧ r = some b := by
  cases o with
  | none => cases r <;> simp [tryOpt]
  | some a =>
    simp only [tryOpt]
    cases h : f a <;> simp [h, eq_comm]

theorem tryOpt_isOk_iff {f : α → Except ε β} {o : Option α} :
    (∃ r, tryOpt f o = .ok r) ↔ ∀ a, o = some a → ∃ b, f a = .ok b := by
  cases o with
  | none => simp [tryOpt]
  | some a =>
    simp only [tryOpt]
    cases h : f a <;> simp [h]

theorem tryOpt_error_iff {f : α → Except ε β} {o : Option α} {e : ε} :
    tryOpt f o = .error e ↔ ∃ a, o = some a ∧ f a = .error e := by
  cases o with
  | none => simp [tryOpt]
  | some a =>
    simp only [tryOpt]
    cases h : f a <;> simp [h]

end Except

theorem nonEmpty_eq_none {α : Type} {l : List α} : nonEmpty l = none ↔ l = [] := by
  cases l <;> simp [nonEmpty]

theorem nonEmpty_eq_some {α : Type} {l m : List α} : nonEmpty l = some m ↔ l = m ∧ l ≠ [] := by
  cases l <;> simp [nonEmpty]

theorem nonEmpty_getD {α : Type} (l : List α) : (nonEmpty l).getD [] = l := by
  cases l <;> simp [nonEmpty]

theorem orFail_ok_iff {α : Type} {x : Except Error α} {a : α} : orFail x = .ok a ↔ x = .ok a := by
  cases x <;> simp [orFail]

theorem orFail_err_iff {α : Type} {x : Except Error α} {e : Error} :
    orFail x = .error (.err e) ↔ x = .error e := by
  cases x <;> simp [orFail]

theorem orFail_panic_iff {α : Type} {x : Except Error α} :
    orFail x = .error .panic ↔ False := by
  cases x <;> simp [orFail]

/-! ### Finite maps -/

theorem strLtAsymm {a b : String} (h : a < b) : ¬ b < a := String.lt_asymm h

theorem strLtOfNot {a b : String} (h₁ : ¬ a < b) (h₂ : a ≠ b) : b < a := by
  have h := String.not_lt.1 h₁
  rcases String.le_total a b with h' | h'
  · exact absurd (String.le_antisymm h' h) h₂
  · exact Classical.byContradiction fun hn => h₂ (String.le_antisymm (String.not_lt.1 hn) h)

namespace HMap
variable {V W : Type}

@[simp] theorem get?_nil (k : String) : get? ([] : HMap V) k = none := rfl

theorem get?_cons (k k' : String) (v : V) (m : HMap V) :
    get? ((k', v) :: m) k = if k = k' then some v else get? m k := rfl

theorem get?_insert (m : HMap V) (k k' : String) (v : V) :
    (m.insert k v).get? k' = if k' = k then some v else m.get? k' := by
  induction m with
  | nil => simp [insert, get?_cons]
  | cons a m ih =>
    obtain ⟨k₁, v₁⟩ := a
    simp only [insert]
    split
    · simp [get?_cons]
    · split
      · rename_i h; subst h; simp only [get?_cons]; split <;> simp [*]
      · rename_i h; simp only [get?_cons, ih]; split
        · split <;> simp_all
        · rfl

theorem contains_insert (m : HMap V) (k k' : String) (v : V) :
    (m.insert k v).contains k' = (decide (k' = k) || m.contains k') := by
  simp only [contains, get?_insert]; split <;> simp [*]

@[simp] theorem contains_nil (k : String) : contains ([] : HMap V) k = false := rfl

theorem get?_isSome_iff (m : HMap V) (k : String) : (m.get? k).isSome = true ↔ k ∈ m.keys := by
  induction m with
  | nil => simp [keys]
  | cons a m ih =>
    obtain ⟨k₁, v₁⟩ := a
    simp only [get?_cons, keys, List.map_cons, List.mem_cons]
    split
    · simp [*]
    · rw [ih]; simp [keys, *]

theorem contains_iff (m : HMap V) (k : String) : m.contains k = true ↔ k ∈ m.keys :=
  get?_isSome_iff m k

theorem mem_of_get? {m : HMap V} {k : String} {v : V} (h : m.get? k = some v) : (k, v) ∈ m := by
  induction m with
  | nil => simp at h
  | cons a m ih =>
    obtain ⟨k₁, v₁⟩ := a
    simp only [get?_cons] at h
    split at h
    · simp_all
    · simp [ih h]

theorem get?_eq_some_of_mem {m : HMap V} (hn : m.keys.Nodup) {k : String} {v : V}
    (h : (k, v) ∈ m) : m.get? k = some v := by
  induction m with
  | nil => simp at h
  | cons a m ih =>
    obtain ⟨k₁, v₁⟩ := a
    simp only [keys, List.map_cons, List.nodup_cons, List.mem_cons, Prod.mk.injEq] at hn h
    simp only [get?_cons]
    rcases h with ⟨rfl, rfl⟩ | h
    · simp
    · have : k ≠ k₁ := by
        rintro rfl
        exact hn.1 (List.mem_map.2 ⟨_, h, rfl⟩)
      rw [if_neg this]
      exact ih hn.2 h

theorem get?_eq_some_iff {m : HMap V} (hn : m.keys.Nodup) {k : String} {v : V} :
    m.get? k = some v ↔ (k, v) ∈ m := ⟨mem_of_get?, get?_eq_some_of_mem hn⟩

theorem get?_eq_none_iff {m : HMap V} {k : String} : m.get? k = none ↔ k ∉ m.keys := by
  rw [← get?_isSome_iff]; simp

theorem Sorted.nodup {m : HMap V} (h : Sorted m) : m.keys.Nodup := by
  simp only [Sorted, keys, List.Nodup, List.pairwise_map] at *
  exact h.imp fun hab e => by rw [e] at hab; exact String.lt_irrefl _ hab

theorem sorted_nil : Sorted ([] : HMap V) := List.Pairwise.nil

theorem mem_insert {m : HMap V} {k : String} {v : V} {kv : String × V}
    (h : kv ∈ m.insert k v) : kv = (k, v) ∨ kv ∈ m := by
  induction m with
  | nil => simpa [insert] using h
  | cons a m ih =>
    obtain ⟨k₁, v₁⟩ := a
    simp only [insert] at h
    split at h
    · simpa using h
    · split at h
      · simp only [List.mem_cons] at h ⊢; rcases h with h | h <;> simp [h]
      · simp only [List.mem_cons] at h ⊢
        rcases h with h | h
        · simp [h]
        · rcases ih h with h | h <;> simp [h]

theorem Sorted.insert {m : HMap V} (h : Sorted m) (k : String) (v : V) : Sorted (m.insert k v) := by
  induction m with
  | nil => simp [HMap.insert, Sorted]
  | cons a m ih =>
    obtain ⟨k₁, v₁⟩ := a
    simp only [Sorted, List.pairwise_cons] at h
    simp only [HMap.insert]
    split
    · rename_i hlt
      simp only [Sorted, List.pairwise_cons, List.mem_cons, forall_eq_or_imp]
      exact ⟨⟨hlt, fun a ha => String.lt_trans hlt (h.1 a ha)⟩, h.1, h.2⟩
    · split
      · rename_i hlt heq
        subst heq
        simp only [Sorted, List.pairwise_cons]
        exact ⟨h.1, h.2⟩
      · rename_i hlt heq
        simp only [Sorted, List.pairwise_cons]
        refine ⟨fun b hb => ?_, ih h.2⟩
        rcases mem_insert hb with rfl | hb
        · exact strLtOfNot hlt heq
        · exact h.1 b hb

theorem Sorted.ext {m m' : HMap V} (h : Sorted m) (h' : Sorted m')
    (he : ∀ k, m.get? k = m'.get? k) : m = m' := by
  induction m generalizing m' with
  | nil =>
    cases m' with
    | nil => rfl
    | cons b m' => have := he b.1; simp [get?] at this
  | cons a m ih =>
    cases m' with
    | nil => have := he a.1; simp [get?] at this
    | cons b m' =>
      obtain ⟨k, v⟩ := a
      obtain ⟨k', v'⟩ := b
      have hn := h.nodup
      have hn' := h'.nodup
      simp only [Sorted, List.pairwise_cons] at h h'
      have hk : k = k' := by
        by_cases hlt : k < k'
        · have h1 := he k
          simp only [get?_cons, if_true] at h1
          have h2 := mem_of_get? (m := (k', v') :: m') (by simpa [get?_cons] using h1.symm)
          rcases List.mem_cons.1 h2 with h2 | h2
          · simpa using congrArg Prod.fst h2
          · exact absurd (h'.1 _ h2) (strLtAsymm hlt)
        · by_cases hlt' : k' < k
          · have h1 := he k'
            simp only [get?_cons, if_true] at h1
            have h2 := mem_of_get? (m := (k, v) :: m) (by simpa [get?_cons] using h1)
            rcases List.mem_cons.1 h2 with h2 | h2
            · simpa using (congrArg Prod.fst h2).symm
            · exact absurd (h.1 _ h2) (strLtAsymm hlt')
          · exact Classical.byContradiction fun hne => hlt' (strLtOfNot hlt hne)
      subst hk
      have h1 := he k
      simp only [get?_cons, if_true, Option.some.injEq] at h1
      subst h1
      congr 1
      apply ih h.2 h'.2
      intro k₂
      have h2 := he k₂
      simp only [get?_cons] at h2
      by_cases hk : k₂ = k
      · subst hk
        simp only [keys, List.map_cons, List.nodup_cons] at hn hn'
        rw [get?_eq_none_iff.2 hn.1, get?_eq_none_iff.2 hn'.1]
      · simpa [hk] using h2

theorem foldl_insert_sorted (l : List (String × V)) {m : HMap V} (h : Sorted m) :
    Sorted (l.foldl (fun m kv => m.insert kv.1 kv.2) m) := by
  induction l generalizing m with
  | nil => exact h
  | cons a l ih => exact ih (h.insert _ _)

theorem collect_sorted (l : List (String × V)) : Sorted (collect l) :=
  foldl_insert_sorted l sorted_nil

theorem foldl_insert_get? (l : List (String × V)) (m : HMap V) (k : String) :
    (l.foldl (fun m kv => m.insert kv.1 kv.2) m).get? k =
      match l.reverse.find? (fun kv => kv.1 == k) with
      | some kv => some kv.2
      | none => m.get? k := by
  induction l generalizing m with
  | nil => simp
  | cons a l ih =>
    simp only [List.foldl_cons, ih, List.reverse_cons, List.find?_append]
    cases List.find? (fun kv => kv.1 == k) l.reverse with
    | some kv => simp
    | none =>
      simp only [Option.none_or, List.find?_cons, List.find?_nil, get?_insert]
      by_cases h : k = a.1
      · simp [h]
      · have : (a.1 == k) = false := by simp [beq_eq_false_iff_ne, Ne.symm h]
        simp [h, this]

/-- Looking up a collected map: the last entry with that key. -/
theorem collect_get? (l : List (String × V)) (k : String) :
    (collect l).get? k = (l.reverse.find? (fun kv => kv.1 == k)).map (·.2) := by
  rw [collect, foldl_insert_get?]
  cases List.find? (fun kv => kv.1 == k) l.reverse <;> simp

theorem mem_keys_collect (l : List (String × V)) (k : String) :
    k ∈ (collect l).keys ↔ k ∈ l.map (·.1) := by
  rw [← get?_isSome_iff, collect_get?]
  simp [List.mem_map]

theorem collect_get?_nodup {l : List (String × V)} (hn : (l.map (·.1)).Nodup) (k : String) :
    (collect l).get? k = get? l k := by
  rw [collect_get?]
  cases h : List.find? (fun kv => kv.1 == k) l.reverse with
  | none =>
    have : k ∉ keys l := by
      intro hk
      rw [keys, List.mem_map] at hk
      obtain ⟨kv, hkv, rfl⟩ := hk
      rw [List.find?_eq_none] at h
      exact h kv (by simpa using hkv) (by simp)
    simp [get?_eq_none_iff.2 this]
  | some kv =>
    have h1 := List.mem_of_find?_eq_some h
    have h2 := List.find?_some h
    obtain ⟨k', v⟩ := kv
    simp only [beq_iff_eq] at h2
    subst h2
    simp [get?_eq_some_of_mem (m := l) hn (by simpa using h1)]

theorem collect_of_sorted {m : HMap V} (h : Sorted m) : collect m = m :=
  (collect_sorted m).ext h fun k => collect_get?_nodup h.nodup k

theorem get?_perm {l l' : List (String × V)} (hp : l.Perm l') (hn : (l.map (·.1)).Nodup) (k : String) :
    get? l k = get? l' k := by
  have hn' : (l'.map (·.1)).Nodup := (hp.map _).nodup_iff.1 hn
  cases h : get? l k with
  | none =>
    rw [get?_eq_none_iff] at h
    symm
    rw [get?_eq_none_iff]
    intro hk
    exact h ((hp.map (·.1)).mem_iff.2 hk)
  | some v =>
    rw [get?_eq_some_iff hn] at h
    symm
    rw [get?_eq_some_iff hn']
    exact hp.mem_iff.1 h

/-- Collecting does not depend on the order if keys are distinct. -/
theorem collect_perm {l l' : List (String × V)} (hp : l.Perm l') (hn : (l.map (·.1)).Nodup) :
    collect l = collect l' := by
  have hn' : (l'.map (·.1)).Nodup := (hp.map _).nodup_iff.1 hn
  refine (collect_sorted l).ext (collect_sorted l') fun k => ?_
  rw [collect_get?_nodup hn, collect_get?_nodup hn', get?_perm hp hn]

theorem keys_mapVals (f : V → W) (m : HMap V) : (mapVals f m).keys = m.keys := by
  simp [mapVals, keys, Function.comp_def]

theorem Sorted.mapVals {m : HMap V} (h : Sorted m) (f : V → W) : Sorted (mapVals f m) := by
  simpa [Sorted, HMap.mapVals, List.pairwise_map] using h

theorem get?_mapVals (f : V → W) (m : HMap V) (k : String) :
    (mapVals f m).get? k = (m.get? k).map f := by
  induction m with
  | nil => rfl
  | cons a m ih =>
    obtain ⟨k', v⟩ := a
    have : mapVals f ((k', v) :: m) = (k', f v) :: mapVals f m := rfl
    rw [this]
    simp only [get?_cons, ih]
    split <;> simp

theorem mem_insert_self (m : HMap V) (k : String) (v : V) : (k, v) ∈ m.insert k v :=
  mem_of_get? (by simp [get?_insert])

end HMap

theorem Env.mem_iter (env : Env) {V : Type} (m : HMap V) (kv : String × V) :
    kv ∈ env.iter m ↔ kv ∈ m := (env.iter_perm m).mem_iff

end Wot
