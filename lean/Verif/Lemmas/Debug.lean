import Verif.Model.Debug
import Verif.Spec.Unordered
import Verif.Lemmas.BuildableThing
/-
What is printed by `Debug` determines what was given.
-/
namespace Wot

variable {X : ExtTypes}

theorem Interaction.debug_inj {i j : Interaction X} (h : i.debug = j.debug) : i = j := by
  cases i; cases j
  simp only [Interaction.debug, Dbg.struct.injEq, List.cons.injEq, Prod.mk.injEq, Dbg.value.injEq, heq_eq_eq, true_and, and_true] at h
  simp only [Interaction.mk.injEq]
  exact h

theorem PropertyAffordance.debug_inj {p q : PropertyAffordance X} (h : p.debug = q.debug) : p = q := by
  cases p; cases q
  simp only [PropertyAffordance.debug, Dbg.struct.injEq, List.cons.injEq, Prod.mk.injEq, Dbg.value.injEq, heq_eq_eq, true_and,
    and_true] at h
  simp only [PropertyAffordance.mk.injEq]
  exact ⟨Interaction.debug_inj h.1, h.2⟩

theorem ActionAffordance.debug_inj {p q : ActionAffordance X} (h : p.debug = q.debug) : p = q := by
  cases p; cases q
  simp only [ActionAffordance.debug, Dbg.struct.injEq, List.cons.injEq, Prod.mk.injEq, Dbg.value.injEq, heq_eq_eq, true_and,
    and_true] at h
  simp only [ActionAffordance.mk.injEq]
  exact ⟨Interaction.debug_inj h.1, h.2⟩

theorem EventAffordance.debug_inj {p q : EventAffordance X} (h : p.debug = q.debug) : p = q := by
  cases p; cases q
  simp only [EventAffordance.debug, Dbg.struct.injEq, List.cons.injEq, Prod.mk.injEq, Dbg.value.injEq, heq_eq_eq, true_and,
    and_true] at h
  simp only [EventAffordance.mk.injEq]
  exact ⟨Interaction.debug_inj h.1, h.2⟩

theorem map_pairs_inj {V : Type} {f : V → Dbg} (hf : ∀ a b, f a = f b → a = b) : ∀ {l m : List (String × V)},
    l.map (fun kv => (kv.1, f kv.2)) = m.map (fun kv => (kv.1, f kv.2)) → l = m
  | [], [], _ => rfl
  | [], _ :: _, h => by cases h
  | _ :: _, [], h => by cases h
  | (k, v) :: l, (k', v') :: m, h => by
    simp only [List.map_cons, List.cons.injEq, Prod.mk.injEq] at h
    rw [h.1.1, hf _ _ h.1.2, map_pairs_inj hf h.2]

theorem debugMap_inj {env env' : Env} {V : Type} {f : V → Dbg} (hf : ∀ a b, f a = f b → a = b) {m n : Option (HMap V)}
    (hm : ∀ x, m = some x → HMap.Sorted x) (hn : ∀ x, n = some x → HMap.Sorted x)
    (h : env.debugMap f m = env'.debugMap f n) : m = n := by
  unfold Env.debugMap at h
  cases m <;> cases n
  · rfl
  · simp at h
  · simp at h
  · next m n =>
    simp only [Dbg.opt.injEq, Option.map_some, Option.some.injEq, Dbg.map.injEq] at h
    have h := map_pairs_inj hf h
    rw [(hm m rfl).ext_mem (hn n rfl) fun k v => by rw [← (env.iter_perm m).mem_iff, h, (env'.iter_perm n).mem_iff]]

theorem Thing.debug_inj {env env' : Env} {t u : Thing X} (ht : t.Maps) (hu : u.Maps) (h : t.debug env = u.debug env') : t = u := by
  obtain ⟨-, -, -, t1, t2, t3, -, -, -⟩ := ht
  obtain ⟨-, -, -, u1, u2, u3, -, -, -⟩ := hu
  cases t; cases u
  simp only [Thing.debug, Dbg.struct.injEq, List.cons.injEq, Prod.mk.injEq, Dbg.value.injEq, heq_eq_eq, true_and, and_true] at h
  obtain ⟨h1, h2, h3, h4, h5, h6, h7, h8, h9, h10, h11, h12, h13, h14, h15, h16⟩ := h
  have h13 := debugMap_inj (fun _ _ => PropertyAffordance.debug_inj) t1 u1 h13
  have h14 := debugMap_inj (fun _ _ => ActionAffordance.debug_inj) t2 u2 h14
  have h15 := debugMap_inj (fun _ _ => EventAffordance.debug_inj) t3 u3 h15
  simp only [Thing.mk.injEq]
  exact ⟨h1, h2, h3, h4, h5, h6, h7, h8, h9, h10, h11, h12, h13, h14, h15, h16⟩

end Wot
