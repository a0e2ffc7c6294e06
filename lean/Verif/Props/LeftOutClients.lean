import Verif.Props.Without
import Verif.Props.Offers
import Verif.Lemmas.RenameAccess
/-
C95: leaving out an affordance changes nothing for the clients of the others.
-/
namespace Wot

variable {X : ExtTypes} {t t' : Thing X} {has : String → Prop} {p : Place} {o : FormOperation} {n : String}

theorem LeftOut.get? {A : Type} {u u' : Option (HMap A)} (hs : ∀ m, u = some m → HMap.Sorted m) (hs' : ∀ m, u' = some m → HMap.Sorted m)
    (h : ∀ m a, EntryOf u' m a ↔ EntryOf u m a ∧ m ≠ n) (m : String) :
    (u'.bind (·.get? m)) = if m = n then none else u.bind (·.get? m) := by
  have key : ∀ {v : Option (HMap A)} (_ : ∀ m, v = some m → HMap.Sorted m) (a : A), v.bind (·.get? m) = some a ↔ EntryOf v m a := by
    intro v hv a
    rw [Option.bind_eq_some_iff]
    constructor
    · rintro ⟨x, rfl, hx⟩
      exact ⟨x, rfl, HMap.mem_of_get? hx⟩
    · rintro ⟨x, rfl, hx⟩
      exact ⟨x, rfl, HMap.get?_eq_some_of_mem (HMap.Sorted.nodup (hv x rfl)) hx⟩
  refine Option.ext fun a => ?_
  rw [key hs' a, h]
  split
  · rename_i e
    exact ⟨fun h => absurd e h.2, nofun⟩
  · rename_i e
    rw [key hs a]
    exact ⟨fun h => h.1, fun h => ⟨h, e⟩⟩

section
variable (hl : t.LessProperty n t') (hm : t.Maps) (hm' : t'.Maps)
include hl hm hm'

theorem LeftOut.property_form (p : Place) : (∃ i, p = .property n i) ∧ t'.formAt p = none ∨ (∀ i, p ≠ .property n i) ∧ t'.formAt p = t.formAt p := by
  have hg := LeftOut.get? hm.properties hm'.properties hl.properties
  cases p with
  | thing i => exact .inr ⟨nofun, by rw [hl.same]; rfl⟩
  | property m i =>
    by_cases e : m = n
    · exact .inl ⟨⟨i, by rw [e]⟩, by rw [Renamed.formAt_property, hg, if_pos e]; rfl⟩
    · exact .inr ⟨fun j hj => by cases hj; exact e rfl, by rw [Renamed.formAt_property, Renamed.formAt_property, hg, if_neg e]⟩
  | action m i => exact .inr ⟨nofun, by rw [hl.same]; rfl⟩
  | event m i => exact .inr ⟨nofun, by rw [hl.same]; rfl⟩

/-- Without a property, clients can use just the other forms they could use before. -/
theorem C95_property_opens : t'.Opens has p ↔ t.Opens has p ∧ ∀ i, p ≠ .property n i := by
  have hd : t'.Demands = t.Demands ∧ t'.security = t.security := by
    rw [hl.same]
    exact ⟨rfl, rfl⟩
  unfold Thing.Opens
  rw [hd.1, hd.2]
  rcases LeftOut.property_form hl hm hm' p with ⟨⟨i, hp⟩, hf⟩ | ⟨hp, hf⟩ <;> rw [hf]
  · exact ⟨nofun, fun h => absurd hp (h.2 i)⟩
  · exact ⟨fun h => ⟨h, hp⟩, fun h => h.1⟩

/-- They offer the same operations. -/
theorem C95_property_offers : t'.Offers p o ↔ t.Offers p o ∧ ∀ i, p ≠ .property n i := by
  unfold Thing.Offers
  rcases LeftOut.property_form hl hm hm' p with ⟨⟨i, hp⟩, hf⟩ | ⟨hp, hf⟩ <;> rw [hf]
  · exact ⟨nofun, fun h => absurd hp (h.2 i)⟩
  · have hro : t'.readOnlyAt p = t.readOnlyAt p ∧ t'.writeOnlyAt p = t.writeOnlyAt p := by
      cases p with
      | property m i =>
        have e : m ≠ n := fun e => hp i (by rw [e])
        have hg := LeftOut.get? hm.properties hm'.properties hl.properties m
        rw [if_neg e] at hg
        simp only [Thing.readOnlyAt, Thing.writeOnlyAt, hg, and_self]
      | _ => exact ⟨rfl, rfl⟩
    rw [hro.1, hro.2]
    exact ⟨fun h => ⟨h, hp⟩, fun h => h.1⟩

end

section
variable (hl : t.LessAction n t') (hm : t.Maps) (hm' : t'.Maps)
include hl hm hm'

theorem LeftOut.action_form (p : Place) : (∃ i, p = .action n i) ∧ t'.formAt p = none ∨ (∀ i, p ≠ .action n i) ∧ t'.formAt p = t.formAt p := by
  have hg := LeftOut.get? hm.actions hm'.actions hl.actions
  cases p with
  | thing i => exact .inr ⟨nofun, by rw [hl.same]; rfl⟩
  | property m i => exact .inr ⟨nofun, by rw [hl.same]; rfl⟩
  | action m i =>
    by_cases e : m = n
    · exact .inl ⟨⟨i, by rw [e]⟩, by rw [Renamed.formAt_action, hg, if_pos e]; rfl⟩
    · exact .inr ⟨fun j hj => by cases hj; exact e rfl, by rw [Renamed.formAt_action, Renamed.formAt_action, hg, if_neg e]⟩
  | event m i => exact .inr ⟨nofun, by rw [hl.same]; rfl⟩

/-- Without an action, clients can use just the other forms they could use before. -/
theorem C95_action_opens : t'.Opens has p ↔ t.Opens has p ∧ ∀ i, p ≠ .action n i := by
  have hd : t'.Demands = t.Demands ∧ t'.security = t.security := by
    rw [hl.same]
    exact ⟨rfl, rfl⟩
  unfold Thing.Opens
  rw [hd.1, hd.2]
  rcases LeftOut.action_form hl hm hm' p with ⟨⟨i, hp⟩, hf⟩ | ⟨hp, hf⟩ <;> rw [hf]
  · exact ⟨nofun, fun h => absurd hp (h.2 i)⟩
  · exact ⟨fun h => ⟨h, hp⟩, fun h => h.1⟩

/-- They offer the same operations. -/
theorem C95_action_offers : t'.Offers p o ↔ t.Offers p o ∧ ∀ i, p ≠ .action n i := by
  unfold Thing.Offers
  rcases LeftOut.action_form hl hm hm' p with ⟨⟨i, hp⟩, hf⟩ | ⟨hp, hf⟩ <;> rw [hf]
  · exact ⟨nofun, fun h => absurd hp (h.2 i)⟩
  · have hro : t'.readOnlyAt p = t.readOnlyAt p ∧ t'.writeOnlyAt p = t.writeOnlyAt p := by
      rw [hl.same]
      exact ⟨rfl, rfl⟩
    rw [hro.1, hro.2]
    exact ⟨fun h => ⟨h, hp⟩, fun h => h.1⟩

end

section
variable (hl : t.LessEvent n t') (hm : t.Maps) (hm' : t'.Maps)
include hl hm hm'

theorem LeftOut.event_form (p : Place) : (∃ i, p = .event n i) ∧ t'.formAt p = none ∨ (∀ i, p ≠ .event n i) ∧ t'.formAt p = t.formAt p := by
  have hg := LeftOut.get? hm.events hm'.events hl.events
  cases p with
  | thing i => exact .inr ⟨nofun, by rw [hl.same]; rfl⟩
  | property m i => exact .inr ⟨nofun, by rw [hl.same]; rfl⟩
  | action m i => exact .inr ⟨nofun, by rw [hl.same]; rfl⟩
  | event m i =>
    by_cases e : m = n
    · exact .inl ⟨⟨i, by rw [e]⟩, by rw [Renamed.formAt_event, hg, if_pos e]; rfl⟩
    · exact .inr ⟨fun j hj => by cases hj; exact e rfl, by rw [Renamed.formAt_event, Renamed.formAt_event, hg, if_neg e]⟩

/-- Without an event, clients can use just the other forms they could use before. -/
theorem C95_event_opens : t'.Opens has p ↔ t.Opens has p ∧ ∀ i, p ≠ .event n i := by
  have hd : t'.Demands = t.Demands ∧ t'.security = t.security := by
    rw [hl.same]
    exact ⟨rfl, rfl⟩
  unfold Thing.Opens
  rw [hd.1, hd.2]
  rcases LeftOut.event_form hl hm hm' p with ⟨⟨i, hp⟩, hf⟩ | ⟨hp, hf⟩ <;> rw [hf]
  · exact ⟨nofun, fun h => absurd hp (h.2 i)⟩
  · exact ⟨fun h => ⟨h, hp⟩, fun h => h.1⟩

/-- They offer the same operations. -/
theorem C95_event_offers : t'.Offers p o ↔ t.Offers p o ∧ ∀ i, p ≠ .event n i := by
  unfold Thing.Offers
  rcases LeftOut.event_form hl hm hm' p with ⟨⟨i, hp⟩, hf⟩ | ⟨hp, hf⟩ <;> rw [hf]
  · exact ⟨nofun, fun h => absurd hp (h.2 i)⟩
  · have hro : t'.readOnlyAt p = t.readOnlyAt p ∧ t'.writeOnlyAt p = t.writeOnlyAt p := by
      rw [hl.same]
      exact ⟨rfl, rfl⟩
    rw [hro.1, hro.2]
    exact ⟨fun h => ⟨h, hp⟩, fun h => h.1⟩

end

/-! ### Examples -/

namespace Demo

/-- Without its action, the lamp still shows its temperature to those with credentials for `basic`. -/
example : ∃ t', (run (history.take 13 ++ history.drop 14)).build Demo.env = .ok t' ∧
    t'.Opens (· = "basic") (.property "temperature" 0) ∧ ¬ t'.Opens (· = "psk") (.property "temperature" 0) ∧
    ∀ has i, ¬ t'.Opens has (.action "set" i) := by
  obtain ⟨t', ht, hl⟩ := C92_action (h₁ := history.take 13) (h₂ := history.drop 14) reachable (without_reachable 13 14) built rfl
  have hm := C49_built reachable built
  have hm' := C49_built (without_reachable 13 14) ht
  exact ⟨t', ht, (C95_action_opens hl hm hm').2 ⟨temperature_opens.1, nofun⟩,
    fun h => temperature_opens.2 ((C95_action_opens hl hm hm').1 h).1, fun has i h => ((C95_action_opens hl hm hm').1 h).2 i rfl⟩

end Demo
end Wot
