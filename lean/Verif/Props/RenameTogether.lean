import Verif.Props.Rename
import Verif.Props.Together
/-
C89: any two Things can be put together, if one of them is given other names (C81, C87).
-/
namespace Wot

variable {X : ExtTypes} {title title₂ : String} {h₁ h₂ : List (ThingOp X)} {b b₁ b₂ : ThingBuilder X} {env : Env}
  {t₁ t₂ : Thing X} {r : Renaming}

namespace Renamed

theorem keys_mem {V : Type} {f : String → String} {m : HMap V} {k : String} (hk : k ∈ (Renaming.keys f m).keys) : ∃ n, f n = k := by
  by_cases h : ∃ n, f n = k
  · exact h
  · have hn : (Renaming.keys f m).get? k = none := C87_nothing_else fun n e => h ⟨n, e⟩
    exact absurd hk (HMap.get?_eq_none_iff.1 hn)

theorem maps_mem {V : Type} {f : String → String} {u : V → V} {o : Option (HMap V)} {k : String}
    (hk : k ∈ ((o.map fun m => Renaming.keys f (HMap.mapVals u m)).getD []).keys) : ∃ n, f n = k := by
  cases o with
  | none => cases hk
  | some m => exact keys_mem hk

end Renamed

/-- A Thing shares no name with one that has been given fresh names. -/
theorem C89_apart (hf : r.Fresh t₁) (t₂ : Thing X) : t₁.Apart (r.thing t₂) where
  securityDefinitions n h1 h2 := by
    obtain ⟨m, rfl⟩ := Renamed.keys_mem (f := r.security) (m := HMap.mapVals r.scheme t₂.securityDefinitions) h2
    exact hf.security m h1
  affordances ty n h1 h2 := by
    cases ty with
    | property =>
      obtain ⟨m, rfl⟩ := Renamed.maps_mem (o := t₂.properties) (u := r.property) h2
      exact hf.affordance .property m h1
    | action =>
      obtain ⟨m, rfl⟩ := Renamed.maps_mem (o := t₂.actions) (u := r.action) h2
      exact hf.affordance .action m h1
    | event =>
      obtain ⟨m, rfl⟩ := Renamed.maps_mem (o := t₂.events) (u := r.event) h2
      exact hf.affordance .event m h1

section
variable (hr₁ : Reachable X title h₁ b₁) (hr₂ : Reachable X title₂ h₂ b₂) (hb₁ : b₁.build env = .ok t₁)
  (hb₂ : b₂.build env = .ok t₂)
include hr₁ hr₂ hb₁ hb₂

/-- So if two sequences of calls each give a Thing, the first and then the second with fresh names give a Thing, -/
theorem C89_together (hf : r.Faithful) (hn : r.Fresh t₁) (hr : Reachable X title (h₁ ++ r.calls h₂) b) :
    ∃ t, b.build env = .ok t ∧ t₁.Together (r.thing t₂) t := by
  obtain ⟨b', hr', ho⟩ := C87_calls r hr₂
  have hb' := C87_thing hf hr₂ hr' ho hb₂
  obtain ⟨t, ht⟩ := (C81_together hr₁ hr' hb₁ hb' hr).2 (C89_apart hn t₂)
  exact ⟨t, ht, C81_contents hr₁ hr' hb₁ hb' hr ht⟩

/-- that has all affordances, security definitions and schema definitions of the first Thing as they were, and all of the second
under their new names. -/
theorem C89_both (hf : r.Faithful) (hn : r.Fresh t₁) (hr : Reachable X title (h₁ ++ r.calls h₂) b) {t : Thing X}
    (hb : b.build env = .ok t) :
    (∀ n s, EntryOf t.schemaDefinitions n s ↔ EntryOf t₁.schemaDefinitions n s ∨ EntryOf (r.thing t₂).schemaDefinitions n s) ∧
    (∀ n p, EntryOf t.properties n p ↔ EntryOf t₁.properties n p ∨ EntryOf (r.thing t₂).properties n p) ∧
    (∀ n a, EntryOf t.actions n a ↔ EntryOf t₁.actions n a ∨ EntryOf (r.thing t₂).actions n a) ∧
    (∀ n e, EntryOf t.events n e ↔ EntryOf t₁.events n e ∨ EntryOf (r.thing t₂).events n e) ∧
    (∀ n s, (n, s) ∈ t.securityDefinitions ↔
      (n, s) ∈ t₁.securityDefinitions ∨ (n, s) ∈ (r.thing t₂).securityDefinitions) := by
  obtain ⟨t', ht', h1⟩ := C89_together hr₁ hr₂ hb₁ hb₂ hf hn hr
  rw [hb] at ht'
  cases ht'
  refine ⟨fun n s => ?_, h1.properties, h1.actions, h1.events, h1.securityDefinitions⟩
  rw [h1.schemaDefinitions]
  constructor
  · rintro (h2 | ⟨h2, -⟩)
    · exact .inr h2
    · exact .inl h2
  · rintro (h2 | h2)
    · refine .inr ⟨h2, ?_⟩
      rintro s' ⟨m, hm, hs'⟩
      obtain ⟨m', -, rfl⟩ := Option.map_eq_some_iff.1 hm
      obtain ⟨k, rfl⟩ := Renamed.keys_mem (List.mem_map_of_mem (f := (·.1)) hs')
      obtain ⟨m, hm, hs⟩ := h2
      exact hn.schema k ⟨m, hm, List.mem_map_of_mem (f := (·.1)) hs⟩
    · exact .inl h2

end

/-! ### There are fresh names -/

/-- Every name with this before it. -/
def Renaming.prefixing (p : String) : Renaming := ⟨fun _ n => p ++ n, fun n => p ++ n, fun n => p ++ n⟩

theorem Renaming.prefixing_faithful (p : String) : (Renaming.prefixing p).Faithful :=
  ⟨fun _ _ _ => (String.append_right_inj _).1, fun _ _ => (String.append_right_inj _).1, fun _ _ => (String.append_right_inj _).1⟩

theorem exists_longer (l : List String) : ∃ p : String, ∀ m, p ++ m ∉ l := by
  refine ⟨String.ofList (List.replicate ((l.map String.length).sum + 1) 'x'), fun m hm => ?_⟩
  have h1 : ∀ (l : List String) (s : String), s ∈ l → s.length ≤ (l.map String.length).sum := fun l s hs => by
    induction l with
    | nil => cases hs
    | cons a l ih =>
      rw [List.map_cons, List.sum_cons]
      rcases List.mem_cons.1 hs with rfl | hs
      · omega
      · have := ih hs
        omega
  have := h1 l _ hm
  simp at this
  omega

/-- For every Thing there is a prefix that makes all names fresh. -/
theorem C89_fresh (t : Thing X) : ∃ p, (Renaming.prefixing p).Fresh t := by
  obtain ⟨p, hp⟩ := exists_longer (t.affordanceNames .property ++ t.affordanceNames .action ++ t.affordanceNames .event ++
    t.securityDefinitions.keys ++ (t.schemaDefinitions.getD []).keys)
  simp only [List.mem_append, not_or] at hp
  refine ⟨p, ⟨fun ty n => ?_, fun n => (hp n).1.2, ?_⟩⟩
  · cases ty
    · exact (hp n).1.1.1.1
    · exact (hp n).1.1.1.2
    · exact (hp n).1.1.2
  · rintro n ⟨m, hm, hn⟩
    have := (hp n).2
    rw [hm] at this
    exact this hn

/-- Any two Things can be put together, if the names of the second get a suitable prefix. -/
theorem C89_always (hr₁ : Reachable X title h₁ b₁) (hr₂ : Reachable X title₂ h₂ b₂) (hb₁ : b₁.build env = .ok t₁)
    (hb₂ : b₂.build env = .ok t₂) : ∃ p b t, Reachable X title (h₁ ++ (Renaming.prefixing p).calls h₂) b ∧
      b.build env = .ok t ∧ t₁.Together ((Renaming.prefixing p).thing t₂) t := by
  obtain ⟨p, hp⟩ := C89_fresh t₁
  obtain ⟨b', hr', -⟩ := C87_calls (Renaming.prefixing p) hr₂
  obtain ⟨t, ht, h1⟩ := C89_together hr₁ hr₂ hb₁ hb₂ (Renaming.prefixing_faithful p) hp (C81_calls hr₁ hr')
  exact ⟨p, _, t, C81_calls hr₁ hr', ht, h1⟩

/-! ### Examples -/

/-- The example Thing cannot be put together with itself, -/
example : ¬ Demo.thing.Apart Demo.thing := fun h => h.affordances .property "temperature" (by decide +kernel) (by decide +kernel)

/-- but with itself under other names. -/
theorem Demo.prefixed_fresh : Demo.prefixed.Fresh Demo.thing := by
  have hx : ∀ (p n k : String), (p ++ n) = k → p.toList = k.toList.take p.toList.length := by
    rintro p n k rfl
    simp
  constructor
  · intro ty n hn
    cases ty
    · have := hx _ _ _ (List.mem_singleton.1 hn); revert this; decide
    · have := hx _ _ _ (List.mem_singleton.1 hn); revert this; decide
    · have := hx _ _ _ (List.mem_singleton.1 hn); revert this; decide
  · intro n hn
    have hn : "s-" ++ n ∈ ["basic", "both", "psk"] := hn
    simp only [List.mem_cons, List.not_mem_nil, or_false] at hn
    rcases hn with e | e | e <;> (have := hx _ _ _ e; revert this; decide)
  · rintro n ⟨m, hm, hn⟩
    cases hm
    have := hx _ _ _ (List.mem_singleton.1 hn); revert this; decide

example : ∃ b t, Reachable Demo.X "Lamp" (Demo.history ++ Demo.prefixed.calls Demo.history) b ∧ b.build Demo.env = .ok t ∧
    Demo.thing.Together (Demo.prefixed.thing Demo.thing) t := by
  obtain ⟨b', hr', -⟩ := C87_calls Demo.prefixed Demo.reachable
  obtain ⟨t, h1⟩ := C89_together Demo.reachable Demo.reachable Demo.built Demo.built Demo.prefixed_faithful Demo.prefixed_fresh
    (C81_calls Demo.reachable hr')
  exact ⟨_, t, C81_calls Demo.reachable hr', h1⟩

end Wot
