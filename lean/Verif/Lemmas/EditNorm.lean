import Verif.Lemmas.EditRead
/-
Documents with the same content are edits of each other.
-/
namespace Wot

variable {X : ExtTypes} {C : ExtCodecs X} {env : SerdeEnv} {p q : Part} {u v w : Json}

theorem Edited.trans (h1 : Edited env C p u v) (h2 : Edited env C p v w) : Edited env C p u w := by
  induction h2 with
  | refl => exact h1
  | edit _ h ih => exact ih.edit h
  | undo _ h ih => exact ih.undo h

theorem Edited.element (h : Edited env C p.element v w) (a b : List Json) :
    Edited env C p (.arr (a ++ v :: b)) (.arr (a ++ w :: b)) := by
  induction h with
  | refl => exact .refl _
  | edit _ h ih => exact ih.edit (.element h)
  | undo _ h ih => exact ih.undo (.element h)

theorem Edited.member {k : String} (hq : p.member k = some q) (h : Edited env C q v w) (a b : Members) :
    Edited env C p (.obj (a ++ (k, v) :: b)) (.obj (a ++ (k, w) :: b)) := by
  induction h with
  | refl => exact .refl _
  | edit _ h ih => exact ih.edit (.member hq h)
  | undo _ h ih => exact ih.undo (.member hq h)

theorem Edit.obj_left {m : Members} (h : Edit env C p (.obj m) v) : ∃ m', v = .obj m' := by
  cases h <;> exact ⟨_, rfl⟩

theorem Edit.obj_right {m : Members} (h : Edit env C p v (.obj m)) : ∃ m', v = .obj m' := by
  cases h <;> exact ⟨_, rfl⟩

theorem Edited.items_aux (h : Edited env C .schema u v) : ∀ m, u = .obj m →
    (∃ m', v = .obj m') ∧ Edited env C .items u v := by
  induction h with
  | refl => intro m hm; exact ⟨⟨m, hm⟩, .refl _⟩
  | edit _ h ih =>
    intro m hm
    obtain ⟨⟨m1, rfl⟩, h1⟩ := ih m hm
    obtain ⟨m2, rfl⟩ := h.obj_left
    exact ⟨⟨m2, rfl⟩, h1.edit (.item h)⟩
  | undo _ h ih =>
    intro m hm
    obtain ⟨⟨m1, rfl⟩, h1⟩ := ih m hm
    obtain ⟨m2, rfl⟩ := h.obj_right
    exact ⟨⟨m2, rfl⟩, h1.undo (.item h)⟩

theorem Edited.additionals_aux (h : Edited env C .additional u v) : ∀ m, u = .obj m →
    (∃ m', v = .obj m') ∧ Edited env C .additionals u v := by
  induction h with
  | refl => intro m hm; exact ⟨⟨m, hm⟩, .refl _⟩
  | edit _ h ih =>
    intro m hm
    obtain ⟨⟨m1, rfl⟩, h1⟩ := ih m hm
    obtain ⟨m2, rfl⟩ := h.obj_left
    exact ⟨⟨m2, rfl⟩, h1.edit (.response h)⟩
  | undo _ h ih =>
    intro m hm
    obtain ⟨⟨m1, rfl⟩, h1⟩ := ih m hm
    obtain ⟨m2, rfl⟩ := h.obj_right
    exact ⟨⟨m2, rfl⟩, h1.undo (.response h)⟩

theorem Edited.elements (f : Json → Json) (l : List Json) (h : ∀ x ∈ l, Edited env C p.element x (f x)) :
    ∀ a, Edited env C p (.arr (a ++ l)) (.arr (a ++ l.map f)) := by
  induction l with
  | nil => intro a; exact .refl _
  | cons x l ih =>
    intro a
    have h1 := Edited.element (h x (by simp)) a l
    have h2 := ih (fun y hy => h y (by simp [hy])) (a ++ [f x])
    simp only [List.append_assoc, List.singleton_append] at h2
    exact h1.trans h2

theorem Edited.members (f : Json → Json) (m : Members)
    (h : ∀ kv ∈ m, ∃ q, p.member kv.1 = some q ∧ Edited env C q kv.2 (f kv.2)) :
    ∀ a, Edited env C p (.obj (a ++ m)) (.obj (a ++ HMap.mapVals f m)) := by
  induction m with
  | nil => intro a; exact .refl _
  | cons x m ih =>
    intro a
    obtain ⟨k, v⟩ := x
    obtain ⟨q, hq, hv⟩ := h (k, v) (by simp)
    have h1 := Edited.member hq hv a m
    have h2 := ih (fun y hy => h y (by simp [hy])) (a ++ [(k, f v)])
    simp only [List.append_assoc, List.singleton_append] at h2
    exact h1.trans h2

theorem Edited.perm {m m' : Members} (hp : m.Perm m') :
    (m.map (·.1)).Nodup → (∀ x ∈ m, ∀ y ∈ m, x.1 ≠ y.1 → p.Swappable env x.1 y.1) →
    ∀ a, Edited env C p (.obj (a ++ m)) (.obj (a ++ m')) := by
  induction hp with
  | nil => intro _ _ a; exact .refl _
  | @cons x l l' _ ih =>
    intro hn hs a
    have := ih (List.nodup_cons.1 hn).2 (fun y hy z hz => hs y (by simp [hy]) z (by simp [hz])) (a ++ [x])
    simpa only [List.append_assoc, List.singleton_append] using this
  | swap x y l =>
    intro hn hs a
    have hne : y.1 ≠ x.1 := fun e => (List.nodup_cons.1 hn).1 (by simp [e])
    exact (Edited.refl _).edit (.swap hne (hs y (by simp) x (by simp) hne))
  | @trans l1 l2 l3 h1 h2 ih1 ih2 =>
    intro hn hs a
    have hn2 : (l2.map (·.1)).Nodup := (h1.map (·.1)).nodup_iff.1 hn
    exact (ih1 hn hs a).trans (ih2 hn2 (fun y hy z hz => hs y (h1.mem_iff.2 hy) z (h1.mem_iff.2 hz)) a)

theorem perm_collect {V : Type} {m : List (String × V)} (hn : (m.map (·.1)).Nodup) : m.Perm (HMap.collect m) := by
  have hs := HMap.collect_sorted m
  have nd : ∀ {l : List (String × V)}, (l.map (·.1)).Nodup → l.Nodup := fun h =>
    List.Pairwise.imp (fun h e => h (congrArg _ e)) (List.pairwise_map.1 h)
  refine (List.perm_ext_iff_of_nodup (nd hn) (nd hs.nodup)).2 fun kv => ?_
  obtain ⟨k, v⟩ := kv
  rw [← HMap.get?_eq_some_iff (m := m) hn, ← HMap.get?_eq_some_iff (m := HMap.collect m) hs.nodup,
    HMap.collect_get?_nodup hn]

theorem edited_norm (ht : env.TagsDistinct) (d : Json) : d.NoDup → d.OneBound → ∀ p, Edited env C p d d.norm := by
  induction d using Json.ind with
  | harr l ih =>
    intro hn hb p
    simp only [Json.NoDup, noDupList_iff] at hn
    rw [Json.norm, normList_eq]
    exact Edited.elements _ l (fun x hx => ih x hx (hn x hx) (fun m hm => hb m (.element hx hm)) _) []
  | hobj m ih =>
    intro hn hb p
    simp only [Json.NoDup, noDupMembers_iff] at hn
    have main : ∀ p : Part, (∀ k, ∃ q, p.member k = some q) →
        (∀ k k', k ≠ k' → ¬ Part.SameBound k k' → p.Swappable env k k') →
        Edited env C p (.obj m) (Json.obj m).norm := by
      intro p h1 h2
      have e1 : Edited env C p (.obj m) (.obj (HMap.mapVals Json.norm m)) :=
        Edited.members Json.norm m (fun kv hkv => by
          obtain ⟨q, hq⟩ := h1 kv.1
          obtain ⟨k, v⟩ := kv
          exact ⟨q, hq, ih (k, v) hkv (hn.2 _ hkv) (fun m hm => hb m (.member hkv hm)) q⟩) []
      rw [Json.norm, normMembers_eq]
      have hk : (HMap.mapVals Json.norm m).map (·.1) = m.map (·.1) := by simp [HMap.mapVals]
      have hn' : ((HMap.mapVals Json.norm m).map (·.1)).Nodup := by rw [hk]; exact hn.1
      refine e1.trans (Edited.perm (perm_collect hn') hn' ?_ [])
      intro x hx y hy hne
      obtain ⟨x', hx', rfl⟩ := List.mem_map.1 hx
      obtain ⟨y', hy', rfl⟩ := List.mem_map.1 hy
      exact h2 _ _ hne (hb m .self x' hx' y' hy' hne)
    cases p
    case items => exact ((main .schema (fun _ => ⟨_, rfl⟩) fun _ _ _ h => h).items_aux m rfl).2
    case additionals => exact ((main .additional (fun _ => ⟨_, rfl⟩) fun _ _ _ _ => trivial).additionals_aux m rfl).2
    case translations => exact main _ (fun _ => ⟨_, rfl⟩) fun k k' hk _ tag h1 h2 => hk (ht k k' tag h1 h2)
    case schema => exact main _ (fun _ => ⟨_, rfl⟩) fun _ _ _ h => h
    case property => exact main _ (fun _ => ⟨_, rfl⟩) fun _ _ _ h => h
    all_goals exact main _ (fun _ => ⟨_, rfl⟩) fun _ _ _ _ => trivial
  | _ => intros; exact .refl _

end Wot
