import Verif.Lemmas.Equality
import Verif.Props.Unordered
import Verif.Props.RoundTrip
import Verif.Props.Ranges
/-
C57: what `==` on Things means.
-/
namespace Wot

variable {X : ExtTypes} {C : ExtCodecs X} {env : SerdeEnv} {E : ExtEq X} {t u w : Thing X}

/-- Two Things are equal just when NaN is in neither, and they are the same up to the sign of zeros and the offsets of
instants. The order in which names were inserted into maps plays no role. -/
theorem C57_equal_iff (hE : E.Exact) (ht : t.Maps) (hu : u.Maps) :
    t.eq E u = true ↔ t.canonical = u.canonical ∧ t.NoNaN ∧ u.NoNaN := by
  rw [thing_eq_iff hE ht hu]
  refine and_congr_right fun h => ?_
  rw [← thing_noNaN_canonical u, ← h, thing_noNaN_canonical]
  exact and_self_iff.symm

/-- A Thing is equal to itself just when NaN is not in it. -/
theorem C57_reflexive (hE : E.Exact) (ht : t.Maps) : t.eq E t = true ↔ t.NoNaN := by
  rw [C57_equal_iff hE ht ht]
  exact ⟨fun h => h.2.1, fun h => ⟨rfl, h, h⟩⟩

theorem C57_symmetric (hE : E.Exact) (ht : t.Maps) (hu : u.Maps) : t.eq E u = u.eq E t := by
  rw [Bool.eq_iff_iff, C57_equal_iff hE ht hu, C57_equal_iff hE hu ht]
  exact ⟨fun ⟨a, b, c⟩ => ⟨a.symm, c, b⟩, fun ⟨a, b, c⟩ => ⟨a.symm, c, b⟩⟩

theorem C57_transitive (hE : E.Exact) (ht : t.Maps) (hu : u.Maps) (hw : w.Maps) (h1 : t.eq E u = true)
    (h2 : u.eq E w = true) : t.eq E w = true := by
  rw [C57_equal_iff hE ht hu] at h1
  rw [C57_equal_iff hE hu hw] at h2
  exact (C57_equal_iff hE ht hw).2 ⟨h1.1.trans h2.1, h1.2.1, h2.2.2⟩

/-- The condition on the extensions holds if there are none, and for all lists of the protocol bindings. -/
theorem C57_bindings : ExtEq.nil.Exact ∧ ∀ l, (Binding.stackEq l).Exact :=
  ⟨ExtEq.nil_exact, Binding.stackEq_exact⟩

/-- NaN is not in a Thing that has been read: so it is equal to itself. -/
theorem C57_read (hE : E.Exact) (hs : env.Stable) {d : Json} (hd : d.NumbersInRange) (h : fromText C env d = some t) :
    t.NoNaN ∧ t.eq E t = true :=
  have hn : t.NoNaN := (thing_from hs .numbers hd h).noNaN
  ⟨hn, (C57_reflexive hE (C49_read hs h)).2 hn⟩

/-- A storable Thing without NaN is equal to what is read back from its value. -/
theorem C57_round_trip (hE : E.Exact) (sep : C.Separate) (hst : Storable env C t) (ht : t.Maps) (hn : t.NoNaN)
    {v : Json} (hv : toValue C env t = some v) : ∃ u, fromValue C env v = some u ∧ t.eq E u = true :=
  ⟨t, C28_value_round_trip sep hst hv, (C57_reflexive hE ht).2 hn⟩

/-! ### Examples -/

namespace Demo

/-- A Thing that has been read is equal to itself, and only to the same Thing: it has neither zeros nor instants. -/
example : ∃ t, fromText .nil senv (.obj pairDocument) = some t ∧ t.eq .nil t = true ∧
    t.eq .nil { t with title := "Lamp " } = false :=
  ⟨_, rfl, rfl, rfl⟩

example : (Json.obj pairDocument).NumbersInRange := by
  intro n h
  simp only [pairDocument] at h
  cases h with
  | member hm hn =>
    simp only [List.mem_cons, Prod.mk.injEq, List.not_mem_nil, or_false] at hm
    rcases hm with ⟨-, rfl⟩ | ⟨-, rfl⟩ | ⟨-, rfl⟩
    · cases hn
    · cases hn
    · cases hn with
      | member hm hn =>
        simp only [List.mem_cons, Prod.mk.injEq, List.not_mem_nil, or_false] at hm
        rcases hm with ⟨-, rfl⟩ | ⟨-, rfl⟩ <;>
        · cases hn with
          | member hm hn =>
            simp only [List.mem_cons, Prod.mk.injEq, List.not_mem_nil, or_false] at hm
            obtain ⟨-, rfl⟩ := hm
            cases hn

end Demo

/-- A Thing can be built that is not equal to itself: `multipleOf` can be NaN. -/
theorem C57_not_reflexive (e : Env) : ∃ (h : List (ThingOp .nil)) (b : ThingBuilder .nil) (t : Thing .nil),
    Reachable .nil "Lamp" h b ∧ b.build e = .ok t ∧ t.eq .nil t = false := by
  have hr := Demo.single_reachable (p := .input) (Demo.multiples_built (.ofBits 0x7FF8000000000000)) fun _ =>
    Demo.multiples_partial _
  obtain ⟨t, ht⟩ := (C10_acceptance e (p := .input) trivial (.ofBits 0x7FF8000000000000)).1 (.inr (by decide))
  refine ⟨_, _, t, hr, ht, Bool.eq_false_iff.2 fun h => ?_⟩
  have hn := (C57_reflexive ExtEq.nil_exact (C49_built hr ht)).1 h
  have := (hn.schemas _ _ _ ((hr.hasSchema ht).2 ⟨_, Demo.place_hasSchema nofun, rfl⟩) (.self _)).multipleOf _ _ rfl rfl
  exact absurd this (by decide)

/-- The calls `created(d)` and `uri_variable("u", |b| b.number().minimum(x).maximum(1.0))`. -/
def Demo.since (d : OffsetDateTime) (x : F64) : List (ThingOp .nil) :=
  [.common (.created d), .uriVariable "u" (numberRange (.inclusive x) (.inclusive (.ofBits 0x3FF0000000000000)))]

/-- Two Things can be built that are equal although the one has been created at 02:00+02:00 and the other at
00:00+00:00, which is the same instant, and although a minimum of the one is 0.0, that of the other -0.0. -/
theorem C57_equal_different :
    ∃ (h h' : List (ThingOp .nil)) (b b' : ThingBuilder .nil) (t t' : Thing .nil),
      Reachable .nil "Lamp" h b ∧ Reachable .nil "Lamp" h' b' ∧ b.build Demo.env = .ok t ∧ b'.build Demo.env = .ok t' ∧
      t.eq .nil t' = true ∧ t.created ≠ t'.created ∧ t.uriVariables ≠ t'.uriVariables := by
  have hb : ∀ d x, ∀ op ∈ Demo.since d x, op.Built := by
    intro d x op h
    simp only [Demo.since, List.mem_cons, List.not_mem_nil, or_false] at h
    rcases h with rfl | rfl
    · trivial
    · exact Demo.numberRange_built _ _
  refine ⟨Demo.since ⟨0, 7200⟩ F64.zero, Demo.since ⟨0, 0⟩ (.ofBits 0x8000000000000000), _, _, _, _,
    Demo.run_reachable _ (hb _ _), Demo.run_reachable _ (hb _ _), rfl, rfl, by decide, by decide, ?_⟩
  intro h
  have := congrArg (fun m : Option (HMap (DS .nil)) => (m.bind fun m => m.get? "u").bind fun s =>
    match s.subtype with
    | some (.number n) => n.minimum.map fun b => b.bound.bits
    | _ => none) h
  revert this
  decide

end Wot
