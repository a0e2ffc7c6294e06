import Verif.Props.Ranges
/-
C08 and C09: where data schemas are checked.
-/
namespace Wot

variable {X : ExtTypes} {title : String} {h : List (ThingOp X)} {b : ThingBuilder X} {env : Env}
  {t : Thing X}

/-! ### C08 -/

/-- C08: in a built Thing every schema nested, at any depth, in a checked one obeys its rules. -/
theorem C08_accepted (hr : Reachable X title h b) (hb : b.build env = .ok t) {p : Position}
    (hp : p.Checked) {s x : DS X} (hs : t.HasSchema p s) (hx : Within x s) : SchemaRule x := by
  obtain ⟨u, hu, rfl⟩ := (hr.hasSchema hb).1 hs
  exact allRules_mapLang.2 ((hr.valid_of_build hb).schemas p u hp hu) x hx

/-- C08: if a schema nested in a supplied one, in a checked position, does not obey its rules then
`build` fails. -/
theorem C08_rejected (hr : Reachable X title h b) {p : Position} (hp : p.Checked) {s x : UDS X}
    (hs : History.HasSchema h p s) (hx : Within x s) (hn : ¬ SchemaRule x) :
    ∃ e, b.build env = .error (.err e) := by
  rcases hr.outcome env with ⟨-, hv, -⟩ | ⟨⟨e, he, -⟩, -⟩
  · exact (hn (hv.schemas p s hp hs x hx)).elim
  · exact ⟨e, he⟩

/-- C08: a Thing with only one schema, in a checked position and without translations, is accepted
exactly if all schemas nested in it obey their rules. -/
theorem C08_exact {p : Position} (hp : p.Checked) {s : Demo.S} (hs : SchemaBuilt s)
    (hpb : p = .property → PartialBuilt (Demo.partialOf s.subtype) ∧ ∃ st, s = Demo.typed st)
    (hk : ∀ k, ¬ SchemaKey s k) :
    (∃ t, (Demo.single s p).build env = .ok t) ↔ ∀ x, Within x s → SchemaRule x := by
  rw [Demo.single_accepted hs (fun h => (hpb h).1) (fun h => (hpb h).2)]
  exact ⟨fun h => h.1 hp, fun h => ⟨fun _ => h, fun he => by subst he; exact hp.elim,
    fun k hkk => (hk k hkk).elim⟩⟩

namespace Demo

/-- Arrays of arrays … of `s`. -/
def nest (s : S) : Nat → S
  | 0 => s
  | n + 1 => .mk { other := () } none
      (some (.array { items := some (.elem (nest s n)), minItems := none, maxItems := none, other := () }))

theorem nest_built {s : S} (hs : SchemaBuilt s) : ∀ n, SchemaBuilt (nest s n)
  | 0 => hs
  | n + 1 => chain_built (op := .vec ()) (ops := [.setItem (nest s n)]) rfl (by simp [SpecOp.args])
      (args_built [nest s n] (by simp [nest_built hs n]) (by simp [KindOp.args]))

theorem nest_within (s : S) : ∀ n, Within s (nest s n)
  | 0 => .self s
  | n + 1 => .item rfl rfl (nest_within s n)

/-- An inverted range. -/
def inverted : S := integerRange (.inclusive i10) (.inclusive i0)

theorem inverted_bad : ¬ SchemaRule inverted := fun h =>
  absurd (h (.inclusive i10) (.inclusive i0) rfl rfl).2 (by decide)

end Demo

/-- An inverted range that is nested arbitrarily deep in the output of an action is found. -/
example (n : Nat) : ∃ e, (Demo.single (Demo.nest Demo.inverted n) .output).build Demo.env =
    .error (.err e) :=
  C08_rejected (p := .output)
    (Demo.single_reachable (Demo.nest_built (Demo.integerRange_built _ _) n) nofun) trivial
    (Demo.place_hasSchema nofun) (Demo.nest_within _ n) Demo.inverted_bad

/-- A range in order that is nested arbitrarily deep is accepted. -/
example (n : Nat) : ∃ t, (Demo.single (Demo.nest Demo.integerSchema n) .data).build Demo.env = .ok t := by
  refine (Demo.single_accepted (p := .data) (Demo.nest_built Demo.integerSchema_built n) nofun nofun).2
    ⟨fun _ => ?_, nofun, fun k _ => ⟨k, rfl⟩⟩
  induction n with
  | zero => exact Demo.integerSchema_rules
  | succ n ih =>
    rw [Demo.allRules_iff]
    refine ⟨?_, by simp [Demo.nest, Schema.oneOf], ?_⟩
    · intro lo hi h1; cases h1
    · simp [Demo.nest, Schema.subtype, SubtypeF.children, ElemOrVec.toList]
      exact ih

/-! ### C09 -/

/-- C09 is false of the code: in each of the positions that `build` does not check there is a Thing
that is built although a schema in this position has inverted bounds. -/
theorem C09_unchecked (env : Env) {p : Position} (hp : ¬ p.Checked) :
    ∃ t, (Demo.single Demo.inverted p).build env = .ok t ∧
      ∃ s, t.HasSchema p s ∧ ¬ SchemaRule s := by
  have hne : p ≠ .property := by rintro rfl; exact hp trivial
  have hk : ∀ k, ¬ SchemaKey Demo.inverted k := by
    rintro k ⟨x, hx, hk⟩
    cases Demo.leaf_within rfl hx
    rcases hk with ⟨_, hk, -⟩ | ⟨_, hk, -⟩ <;> cases hk
  have hr := Demo.single_reachable (s := Demo.inverted) (p := p) (Demo.integerRange_built _ _) (fun h => (hne h).elim)
  obtain ⟨t, ht⟩ := (Demo.single_accepted (env := env) (s := Demo.inverted) (p := p)
    (Demo.integerRange_built _ _) (fun h => (hne h).elim) (fun h => (hne h).elim)).2
    ⟨fun h => (hp h).elim, fun _ => (by rintro (⟨_, h⟩ | ⟨_, h⟩) <;> cases h), fun k h => (hk k h).elim⟩
  refine ⟨t, ht, _, (hr.hasSchema ht).2 ⟨_, Demo.place_hasSchema (fun h => (hne h).elim), rfl⟩, ?_⟩
  rw [schemaRule_mapLang]
  exact Demo.inverted_bad

/-- These positions are `dataResponse` of an event, URI variables and schema definitions. -/
theorem C09_unchecked_positions (p : Position) :
    ¬ p.Checked ↔ p = .dataResponse ∨ p = .uriVariable ∨ p = .schemaDefinition := by
  cases p <;> simp [Position.Checked]

/-- C09, what is true: all schemas in the other positions obey their rules. -/
theorem C09_rules_partial (hr : Reachable X title h b) (hb : b.build env = .ok t) {p : Position}
    (h1 : p ≠ .dataResponse) (h2 : p ≠ .uriVariable) (h3 : p ≠ .schemaDefinition) {s x : DS X}
    (hs : t.HasSchema p s) (hx : Within x s) : SchemaRule x :=
  C08_accepted hr hb (Classical.byContradiction fun h => by
    rcases (C09_unchecked_positions p).1 h with h | h | h
    · exact h1 h
    · exact h2 h
    · exact h3 h) hs hx

/-- There are such schemas. -/
example : ∃ t, (Demo.single Demo.integerSchema .data).build Demo.env = .ok t ∧
    ∃ s, t.HasSchema .data s := by
  have hr := Demo.single_reachable (p := .data) Demo.integerSchema_built nofun
  obtain ⟨t, ht⟩ := (Demo.single_accepted (env := Demo.env) (p := .data) Demo.integerSchema_built nofun nofun).2
    ⟨fun _ => Demo.integerSchema_rules, nofun, fun k _ => ⟨k, rfl⟩⟩
  exact ⟨t, ht, _, (hr.hasSchema ht).2 ⟨_, Demo.place_hasSchema nofun, rfl⟩⟩

end Wot
