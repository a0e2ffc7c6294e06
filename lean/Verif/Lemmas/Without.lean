import Verif.Spec.LeftOut
import Verif.Lemmas.Reading
import Verif.Lemmas.Inversion
import Verif.Lemmas.Built
/-
Lemmas for C94: maps that are read from an object with fewer members.
-/
namespace Wot.Without

variable {α : Type} {de : Json → Option α} {n : String}

theorem mapOptVals {l : List (String × Json)} {m : List (String × α)} (h : mapOptVals de l = some m) :
    Wot.mapOptVals de (l.filter fun kv => kv.1 ≠ n) = some (m.filter fun kv => kv.1 ≠ n) := by
  rw [mapOptVals_eq_some] at h ⊢
  induction h with
  | nil => exact .nil
  | @cons a b l m hab _ ih =>
    by_cases ha : a.1 = n
    · rwa [List.filter_cons_of_neg (by simpa using ha), List.filter_cons_of_neg (by simpa using hab.1 ▸ ha)]
    · rw [List.filter_cons_of_pos (by simpa using ha), List.filter_cons_of_pos (by simpa using hab.1 ▸ ha)]
      exact .cons hab ih

theorem mem_collect {l : List (String × α)} {k : String} {a : α} :
    (k, a) ∈ HMap.collect (l.filter fun kv => kv.1 ≠ n) ↔ (k, a) ∈ HMap.collect l ∧ k ≠ n := by
  rw [mem_collect_iff, mem_collect_iff]
  by_cases hk : k = n
  · subst hk
    have : History.named k (l.filter fun kv => kv.1 ≠ k) = [] := by
      refine List.filterMap_eq_nil_iff.2 fun kv hkv => if_neg ?_
      exact of_decide_eq_true (List.mem_filter.1 hkv).2
    rw [this]
    exact ⟨nofun, fun h => absurd rfl h.2⟩
  · have : History.named k (l.filter fun kv => kv.1 ≠ n) = History.named k l := by
      unfold History.named
      rw [List.filterMap_filter]
      congr 1
      funext kv
      by_cases h : kv.1 = k
      · simp [h, hk]
      · simp [h]
    rw [this]
    exact ⟨fun h => ⟨h, hk⟩, fun h => h.1⟩

theorem deMap {v : Json} {m : HMap α} (h : deMap de v = some m) :
    ∃ m', Wot.deMap de (v.without n) = some m' ∧ ∀ k a, (k, a) ∈ m' ↔ (k, a) ∈ m ∧ k ≠ n := by
  cases v with
  | obj es =>
    obtain ⟨l, hl, rfl⟩ := Option.map_eq_some_iff.1 h
    exact ⟨_, Option.map_eq_some_iff.2 ⟨_, mapOptVals hl, rfl⟩, fun _ _ => mem_collect⟩
  | _ => cases h

variable {k : String} {v : Json} {es es' : Members}

theorem occ_eq (h : Replaced k v (v.without n) es es') : ∃ a b, occ k es = a ++ v :: b ∧ occ k es' = a ++ v.without n :: b := by
  obtain ⟨a, b, rfl, rfl⟩ := h
  exact ⟨occ k a, occ k b, by simp [occ], by simp [occ]⟩

theorem required (h : Replaced k v (v.without n) es es') {m : HMap α} (hm : required k (Wot.deMap de) es = some m) :
    ∃ m', Wot.required k (Wot.deMap de) es' = some m' ∧ ∀ j a, (j, a) ∈ m' ↔ (j, a) ∈ m ∧ j ≠ n := by
  obtain ⟨a, b, e, e'⟩ := occ_eq h
  unfold Wot.required at hm ⊢
  rw [e] at hm
  rw [e']
  cases a with
  | nil =>
    cases b with
    | nil => exact deMap hm
    | cons _ _ => cases hm
  | cons _ a => cases a <;> cases hm

theorem optional (h : Replaced k v (v.without n) es es') {m : Option (HMap α)} (hm : optional k (Wot.deMap de) es = some m) :
    ∃ m', Wot.optional k (Wot.deMap de) es' = some m' ∧ ∀ j a, EntryOf m' j a ↔ EntryOf m j a ∧ j ≠ n := by
  obtain ⟨a, b, e, e'⟩ := occ_eq h
  unfold Wot.optional defaulted at hm ⊢
  rw [e] at hm
  rw [e']
  cases a with
  | nil =>
    cases b with
    | nil =>
      cases v with
      | obj es =>
        obtain ⟨m, hd, rfl⟩ := Option.map_eq_some_iff.1 hm
        obtain ⟨m', h1, h2⟩ := deMap (n := n) hd
        refine ⟨some m', Option.map_eq_some_iff.2 ⟨m', h1, rfl⟩, fun j a => ?_⟩
        constructor
        · rintro ⟨x, hx, h⟩
          cases hx
          exact ⟨⟨m, rfl, ((h2 j a).1 h).1⟩, ((h2 j a).1 h).2⟩
        · rintro ⟨⟨x, hx, h⟩, hj⟩
          cases hx
          exact ⟨m', rfl, (h2 j a).2 ⟨h, hj⟩⟩
      | null =>
        cases hm
        refine ⟨none, rfl, fun j a => ⟨?_, ?_⟩⟩
        · rintro ⟨_, h, -⟩
          cases h
        · rintro ⟨⟨_, h, -⟩, -⟩
          cases h
      | _ => cases hm
    | cons _ _ => cases hm
  | cons _ a => cases a <;> cases hm

end Wot.Without
