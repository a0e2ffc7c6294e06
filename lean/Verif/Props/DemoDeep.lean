import Verif.Lemmas.Nesting
import Verif.Props.Single
import Verif.Props.DemoStore
/-
Example Things with deeply nested schemas.
-/
namespace Wot

/-- Nesting does not depend on the translations in schemas. -/
theorem holds_mapLang {L L' D A O : Type} (f : L → L') {c s : Schema L D A O} (h : c.Holds s) :
    (c.mapLang f).Holds (s.mapLang f) := by
  rw [holds_child, mapLang_oneOf, mapLang_subtype]
  rcases holds_child.1 h with ⟨l, hl, hc⟩ | ⟨st, hst, hc⟩
  · exact .inl ⟨_, by rw [hl]; rfl, List.mem_map_of_mem hc⟩
  · exact .inr ⟨_, by rw [hst]; rfl, by rw [children_map]; exact List.mem_map_of_mem hc⟩

theorem nests_mapLang {L L' D A O : Type} (f : L → L') {n : Nat} {s : Schema L D A O} :
    (s.mapLang f).Nests n ↔ s.Nests n := by
  constructor
  · intro h
    generalize e : s.mapLang f = s' at h
    induction h generalizing s with
    | one => exact .one _
    | more hc _ ih =>
      subst e
      rw [holds_child, mapLang_oneOf, mapLang_subtype] at hc
      rcases hc with ⟨l', hl, hc⟩ | ⟨st', hst, hc⟩
      · obtain ⟨l, hl', rfl⟩ := Option.map_eq_some_iff.1 hl
        obtain ⟨c, hc', rfl⟩ := List.mem_map.1 hc
        exact .more (holds_child.2 (.inl ⟨l, hl', hc'⟩)) (ih rfl)
      · obtain ⟨st, hst', rfl⟩ := Option.map_eq_some_iff.1 hst
        rw [children_map] at hc
        obtain ⟨c, hc', rfl⟩ := List.mem_map.1 hc
        exact .more (holds_child.2 (.inr ⟨st, hst', hc'⟩)) (ih rfl)
  · intro h
    induction h with
    | one => exact .one _
    | more hc _ ih => exact .more (holds_mapLang f hc) ih

namespace Demo

/-- Arrays of arrays of … of strings. -/
def tower : Nat → S
  | 0 => stringSchema
  | n + 1 => typed (.array { items := some (.elem (tower n)), minItems := none, maxItems := none, other := () })

theorem tower_built : ∀ n, SchemaBuilt (tower n)
  | 0 => stringSchema_built
  | n + 1 => chain_built (op := .vec ()) (ops := [.setItem (tower n)]) rfl (by simp [SpecOp.args])
      (args_built [tower n] (by simp [tower_built n]) (by simp [KindOp.args]))

theorem tower_nests : ∀ n, (tower n).Nests (n + 1)
  | 0 => .one _
  | n + 1 => .more (.item rfl rfl) (tower_nests n)

theorem tower_holds {n : Nat} {c : S} (h : c.Holds (tower n)) : ∃ k, n = k + 1 ∧ c = tower k := by
  cases n with
  | zero => rcases h with ⟨h, hc⟩ | ⟨h, hi⟩ | ⟨h, hi, hc⟩ | ⟨h, hp, hc⟩ <;> cases h
  | succ n =>
    refine ⟨n, rfl, ?_⟩
    rcases h with ⟨h, hc⟩ | ⟨h, hi⟩ | ⟨h, hi, hc⟩ | ⟨h, hp, hc⟩ <;> cases h <;> cases hi
    rfl

theorem tower_height : ∀ n k, (tower n).Nests k → k ≤ n + 1
  | n, _, .one _ => Nat.le_add_left 1 n
  | n, _, .more (n := k) hc hn => by
    obtain ⟨i, rfl, rfl⟩ := tower_holds hc
    have := tower_height i k hn
    omega

theorem tower_within {n : Nat} {x : S} (h : Within x (tower n)) : ∃ k, x = tower k := by
  generalize e : tower n = s at h
  induction h generalizing n with
  | self => exact ⟨n, e.symm⟩
  | oneOf h hc _ ih => subst e; obtain ⟨k, rfl, rfl⟩ := tower_holds (.oneOf h hc); exact ih rfl
  | item h hc _ ih => subst e; obtain ⟨k, rfl, rfl⟩ := tower_holds (.item h hc); exact ih rfl
  | items h hi hc _ ih => subst e; obtain ⟨k, rfl, rfl⟩ := tower_holds (.items h hi hc); exact ih rfl
  | property h hp hc _ ih => subst e; obtain ⟨k, rfl, rfl⟩ := tower_holds (.property h hp hc); exact ih rfl

theorem tower_plain (k : Nat) : (tower k).head.constant = none ∧ (tower k).head.default = none ∧
    (tower k).head.enumeration = none ∧ (tower k).head.titles = none ∧ (tower k).head.descriptions = none ∧
    ∀ n, (tower k).subtype ≠ some (.number n) := by
  cases k <;> exact ⟨rfl, rfl, rfl, rfl, rfl, nofun⟩

theorem tower_reachable (n : Nat) : Reachable X "Lamp" [place (tower n) .schemaDefinition]
    (single (tower n) .schemaDefinition) :=
  single_reachable (p := .schemaDefinition) (tower_built n) nofun

/-- A Thing with such a schema among its schema definitions. -/
theorem tower_thing (n : Nat) : ∃ t : Thing X, (single (tower n) .schemaDefinition).build senv.toEnv = .ok t := by
  refine (single_accepted (p := .schemaDefinition) (tower_built n) nofun nofun).2 ⟨nofun, nofun, ?_⟩
  rintro k ⟨x, hx, hk⟩
  obtain ⟨i, rfl⟩ := tower_within hx
  obtain ⟨-, -, -, h1, h2, -⟩ := tower_plain i
  rw [h1, h2] at hk
  rcases hk with ⟨_, h, _⟩ | ⟨_, h, _⟩ <;> cases h

variable {n : Nat} {t : Thing X} (hb : (single (tower n) .schemaDefinition).build senv.toEnv = .ok t)
include hb

theorem tower_schema {p : Position} {s : DS X} (hs : t.HasSchema p s) : s = (tower n).mapLang (langResult senv.toEnv) := by
  obtain ⟨u, hu, rfl⟩ := ((tower_reachable n).hasSchema hb).1 hs
  obtain ⟨-, rfl⟩ := place_schema (p := .schemaDefinition) nofun hu
  rfl

theorem tower_stored {p : Position} {s x : DS X} (hs : t.HasSchema p s) (hx : Within x s) :
    SchemaValuesKept ExtCodec.nil ExtCodec.nil ExtCodec.nil x ∧ SchemaLossless x := by
  rw [tower_schema hb hs] at hx
  obtain ⟨y, hy, rfl⟩ := within_mapLang.1 hx
  obtain ⟨i, rfl⟩ := tower_within hy
  obtain ⟨h1, h2, h3, -, -, h4⟩ := tower_plain i
  have := stored_of h1 h2 h3 fun n hn => (h4 n hn).elim
  exact ⟨this.1.mapLang _, this.2.mapLang _⟩

theorem tower_result : t = (single (tower n) .schemaDefinition).result senv.toEnv :=
  ((tower_reachable n).ok_iff _ _ |>.1 hb).2

theorem tower_values : ValuesKept senv ExtCodecs.nil t where
  created := by rw [tower_result hb]; intro d s h; cases h
  modified := by rw [tower_result hb]; intro d s h; cases h
  schemas := fun p s x hs hx => (tower_stored hb hs hx).1
  security := by rw [tower_result hb]; intro kv h; cases h
  forms := fun _ _ _ => ⟨ExtCodec.nil_reads, fun _ _ => ExtCodec.nil_reads⟩
  interactions := fun _ _ => ExtCodec.nil_reads
  properties := fun _ _ _ _ => ExtCodec.nil_reads
  actions := fun _ _ _ _ => ExtCodec.nil_reads
  events := fun _ _ _ _ => ExtCodec.nil_reads
  other := ExtCodec.nil_reads

theorem tower_lossless : ValuesLossless t where
  schemas := fun p s x hs hx => (tower_stored hb hs hx).2
  security := by rw [tower_result hb]; intro kv h; cases h

theorem tower_storable : Storable senv ExtCodecs.nil t :=
  (tower_reachable n).storable hb tagsStable (tower_values hb) (tower_lossless hb)

theorem tower_writable : Writable senv ExtCodecs.nil t :=
  nil_writable (by rw [tower_result hb]; rfl) (by rw [tower_result hb]; rfl) (tower_values hb).security

theorem tower_within_bounds : t.NestsWithin ExtCodecs.nil (n + 1) 1 where
  schemas p s hs k hk := by
    rw [tower_schema hb hs, nests_mapLang] at hk
    exact tower_height n k hk
  values p s x hs hx := by
    rw [tower_schema hb hs] at hx
    obtain ⟨y, hy, rfl⟩ := within_mapLang.1 hx
    obtain ⟨i, rfl⟩ := tower_within hy
    refine ⟨?_, ?_, ?_, ?_, ?_, ?_⟩
    · cases i <;> nofun
    · cases i <;> nofun
    · cases i <;> nofun
    · intro es h; cases h; nofun
    · intro _ _ es h; cases h; nofun
    · intro _ _ es h; cases h; nofun
  forms _ _ _ := ⟨fun es h => by cases h; nofun, fun _ _ es h => by cases h; nofun⟩
  interactions _ _ es h := by cases h; nofun
  properties _ _ _ _ es h := by cases h; nofun
  actions _ _ _ _ es h := by cases h; nofun
  events _ _ _ _ es h := by cases h; nofun
  security := by rw [tower_result hb]; intro n s _ _ h; cases h
  context := by rw [tower_result hb]; exact Nat.zero_le _
  other es h := by cases h; nofun

end Demo

end Wot
