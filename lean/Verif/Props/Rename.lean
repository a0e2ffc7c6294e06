import Verif.Lemmas.RenameReach
import Verif.Props.Build
import Verif.Props.Demo
/-
C87: names are only names.

`r.calls`, `r.thing` and `r.error` put new names for the affordances, the security definitions and the schema definitions in
place of the old ones in calls, Things and errors, wherever something is so named or referred to (Spec/Rename).
-/
namespace Wot

variable {X : ExtTypes} {env : Env} {title : String} {h : List (ThingOp X)} {b b' : ThingBuilder X} {r : Renaming}

/-! ### The renamed program -/

/-- A program that uses other names is one that can be written. -/
theorem C87_calls (r : Renaming) (hr : Reachable X title h b) :
    ∃ b', Reachable X title (r.calls h) b' ∧ b'.other = b.other := Renamed.reachable hr

/-- The same is wrong with it, under the new names, in the same phases of the validation: -/
theorem C87_faults (hf : r.Faithful) (p : Phase) (y : Error) :
    History.Fault env (r.calls h) p y ↔ ∃ x, y = r.error p x ∧ History.Fault env h p x :=
  ⟨Renamed.of_fault hf, fun ⟨_, e, hx⟩ => e ▸ Renamed.fault_of hf hx⟩

/-- it builds a Thing just when the first program does, -/
theorem C87_succeeds (hf : r.Faithful) (hr : Reachable X title h b) (hr' : Reachable X title (r.calls h) b') :
    (∃ t, b'.build env = .ok t) ↔ ∃ t, b.build env = .ok t := by
  have H : ∀ {h : List (ThingOp X)} {b : ThingBuilder X}, Reachable X title h b →
      ((∃ t, b.build env = .ok t) ↔ ∀ p x, ¬ History.Fault env h p x) := fun {h b} hr => by
    rcases hr.outcome env with ⟨h1, -, h3⟩ | ⟨⟨y, h1, h2⟩, -⟩
    · exact ⟨fun _ p x hx => h3 x (hr.fault_iff.1 ⟨p, hx⟩), fun _ => h1⟩
    · obtain ⟨p, hp⟩ := hr.fault_iff.2 h2
      exact ⟨fun ⟨t, ht⟩ => (by rw [h1] at ht; cases ht), fun h3 => absurd hp (h3 p y)⟩
  rw [H hr, H hr']
  constructor
  · exact fun h1 p x hx => h1 p _ (Renamed.fault_of hf hx)
  · intro h1 p y hy
    obtain ⟨x, -, hx⟩ := Renamed.of_fault hf hy
    exact h1 p x hx

/-- and this Thing is that of the first program under the new names. -/
theorem C87_thing (hf : r.Faithful) (hr : Reachable X title h b) (hr' : Reachable X title (r.calls h) b')
    (ho : b'.other = b.other) {t : Thing X} (hb : b.build env = .ok t) : b'.build env = .ok (r.thing t) := by
  obtain ⟨t', ht'⟩ := (C87_succeeds hf hr hr').2 ⟨t, hb⟩
  rw [hr'.build_of_valid (hr'.valid_of_build ht'), hr'.supplied, ho, Renamed.result_eq hf, ← hr.supplied]
  rw [hr.build_of_valid (hr.valid_of_build hb)] at hb
  cases hb
  rfl

/-- If the first program fails, so does the renamed one, in the same phase, with an error that, under the old names, the first
could have reported. -/
theorem C87_error (hf : r.Faithful) (hr : Reachable X title h b) (hr' : Reachable X title (r.calls h) b') {x : Error}
    (hb : b.build env = .error (.err x)) :
    ∃ p x', b'.build env = .error (.err (r.error p x')) ∧ History.Fault env h p x ∧ History.Fault env h p x' ∧
      History.NothingBefore env h p := by
  obtain ⟨p, h1, h2⟩ := C42_first hr hb
  obtain ⟨y, h3, h4⟩ := C42_reported hr' (Renamed.fault_of hf h1) fun q hq y hy => by
    obtain ⟨z, -, hz⟩ := Renamed.of_fault hf hy
    exact h2 q hq z hz
  obtain ⟨x', rfl, hx'⟩ := Renamed.of_fault hf h4
  exact ⟨p, x', h3, h1, hx', h2⟩

/-- If nothing else is wrong in this phase, the errors are the same but for the names. -/
theorem C87_error_only (hf : r.Faithful) (hr : Reachable X title h b) (hr' : Reachable X title (r.calls h) b') {x : Error}
    {p : Phase} (hx : History.Fault env h p x) (hn : History.NothingBefore env h p)
    (hu : ∀ y, History.Fault env h p y → y = x) :
    b.build env = .error (.err x) ∧ b'.build env = .error (.err (r.error p x)) := by
  obtain ⟨y, h1, h2⟩ := C42_reported hr hx hn
  cases hu y h2
  refine ⟨h1, ?_⟩
  obtain ⟨q, z, h3, h4, h5, h6⟩ := C87_error hf hr hr' h1
  have hpq : p = q := by
    rcases Nat.lt_trichotomy p.index q.index with hl | he | hg
    · exact absurd hx (h6 p hl _)
    · exact Phase.index_inj he
    · exact absurd h4 (hn q hg _)
  subst hpq
  cases hu z h5
  exact h3

/-! ### What is where -/

/-- Under its new name there is what was under the old one, -/
theorem C87_entry {V : Type} {f : String → String} (hf : ∀ m n, f m = f n → m = n) {m : HMap V} (hm : HMap.Sorted m)
    (n : String) : (Renaming.keys f m).get? (f n) = m.get? n := Renamed.keys_get hf hm n

/-- and nothing is under other names. -/
theorem C87_nothing_else {V : Type} {f : String → String} {m : HMap V} {k : String} (hk : ∀ n, f n ≠ k) :
    (Renaming.keys f m).get? k = none := by
  unfold Renaming.keys
  rw [HMap.collect_get?, ← List.map_reverse, Renamed.find_none hk]
  rfl

/-- The affordances of the Thing that the renamed program builds. -/
theorem C87_affordances (hf : r.Faithful) (hr : Reachable X title h b) (hr' : Reachable X title (r.calls h) b')
    (ho : b'.other = b.other) {t t' : Thing X} (hb : b.build env = .ok t) (hb' : b'.build env = .ok t') (n : String) :
    (t'.properties.bind (HMap.get? · (r.affordance .property n))) = (t.properties.bind (HMap.get? · n)).map r.property ∧
    (t'.actions.bind (HMap.get? · (r.affordance .action n))) = (t.actions.bind (HMap.get? · n)).map r.action ∧
    (t'.events.bind (HMap.get? · (r.affordance .event n))) = (t.events.bind (HMap.get? · n)).map r.event := by
  rw [C87_thing hf hr hr' ho hb] at hb'
  cases hb'
  rw [hr.build_of_valid (hr.valid_of_build hb)] at hb
  cases hb
  have H : ∀ {A B : Type} {f : String → String} (_ : ∀ m n, f m = f n → m = n) {g : A → B} {w : B → B} (l : List (String × A)),
      ((mapResult g l).map fun m => Renaming.keys f (HMap.mapVals w m)).bind (HMap.get? · (f n)) =
        ((mapResult g l).bind (HMap.get? · n)).map w := fun {A B f} hf' {g w} l => by
    cases hm : mapResult g l with
    | none => rfl
    | some m =>
      show (Renaming.keys f (HMap.mapVals w m)).get? (f n) = (m.get? n).map w
      rw [C87_entry hf' ((sorted_mapResult hm).mapVals w), HMap.get?_mapVals]
  exact ⟨H (hf.affordance _) _, H (hf.affordance _) _, H (hf.affordance _) _⟩

/-! ### And back -/

/-- A renaming that undoes another gives back the Thing the first program builds: nothing is lost but the names. -/
theorem C87_back {r' : Renaming} (hs : ∀ n, r'.security (r.security n) = n) (hd : ∀ n, r'.schema (r.schema n) = n)
    (ha : ∀ ty n, r'.affordance ty (r.affordance ty n) = n) (hr : Reachable X title h b) {t : Thing X}
    (hb : b.build env = .ok t) : r'.thing (r.thing t) = t := by
  rw [hr.build_of_valid (hr.valid_of_build hb), hr.supplied] at hb
  cases hb
  exact Renamed.thing_back hs hd ha (fun _ h => sorted_mapResult h) (fun _ h => sorted_mapResult h)
    (fun _ h => sorted_mapResult h) (HMap.collect_sorted _) fun m hm => by
      unfold ThingBuilder.result at hm
      dsimp only at hm
      by_cases hn : (History.supplied title h b.other).schemaDefinitions = []
      · rw [if_pos hn] at hm; cases hm
      · rw [if_neg hn] at hm; cases hm; exact HMap.Sorted.mapVals (HMap.collect_sorted _) _

/-! ### Examples -/

namespace Demo

/-- Every name gets a prefix. -/
def prefixed : Renaming where
  affordance ty n := (match ty with | .property => "p-" | .action => "a-" | .event => "e-") ++ n
  security n := "s-" ++ n
  schema n := "d-" ++ n

theorem prefixed_faithful : prefixed.Faithful where
  affordance ty m n e := by cases ty <;> exact (String.append_right_inj _).1 e
  security m n e := (String.append_right_inj _).1 e
  schema m n e := (String.append_right_inj _).1 e

/-- The property, the security definitions and the schema definition of the example Thing under their new names. -/
example : ((prefixed.thing thing).properties.map HMap.keys, (prefixed.thing thing).actions.map HMap.keys,
      (prefixed.thing thing).events.map HMap.keys) =
    (some ["p-temperature"], some ["a-set"], some ["e-overheat"]) := by decide +kernel

example : (prefixed.thing thing).security = thing.security.map ("s-" ++ ·) ∧
    (prefixed.thing thing).securityDefinitions.keys = ["s-basic", "s-both", "s-psk"] ∧
    (prefixed.thing thing).schemaDefinitions.map HMap.keys = some ["d-err"] := by decide +kernel

/-- The renamed example program builds it. -/
example : ∃ b', Reachable Demo.X "Lamp" (prefixed.calls history) b' ∧ b'.build Demo.env = .ok (prefixed.thing thing) := by
  obtain ⟨b', h1, h2⟩ := C87_calls prefixed reachable
  exact ⟨b', h1, C87_thing prefixed_faithful reachable h1 h2 built⟩

/-- Without the prefix. -/
def unprefixed : Renaming where
  affordance _ n := String.ofList (n.toList.drop 2)
  security n := String.ofList (n.toList.drop 2)
  schema n := String.ofList (n.toList.drop 2)

example : unprefixed.thing (prefixed.thing thing) = thing :=
  C87_back (fun n => by simp [prefixed, unprefixed]) (fun n => by simp [prefixed, unprefixed])
    (fun ty n => by cases ty <;> simp [prefixed, unprefixed]) reachable built

/-- The program with the undefined security scheme. -/
example : ∃ b', Reachable Demo.X "Lamp" (prefixed.calls wrongHistory) b' ∧
    ∃ p x', b'.build Demo.env = .error (.err (prefixed.error p x')) ∧ History.Fault Demo.env wrongHistory p x' := by
  obtain ⟨b', h1, -⟩ := C87_calls prefixed wrong_reachable
  obtain ⟨p, x', h2, -, h3, -⟩ := C87_error prefixed_faithful wrong_reachable h1
    (show (run wrongHistory).build Demo.env = .error (.err (.undefinedSecurity "digest")) from rfl)
  exact ⟨b', h1, p, x', h2, h3⟩

example : (run (prefixed.calls wrongHistory)).build Demo.env = .error (.err (.undefinedSecurity "s-digest")) := rfl

/-- A form with a security scheme that is not defined, and nothing else. -/
def insecure : List (ThingOp Demo.X) := [.form (form "/all" [.op .readAllProperties, .security "digest"])]

theorem insecure_reachable : Reachable Demo.X "Lamp" insecure (run insecure) :=
  run_reachable _ fun op h => by cases List.mem_singleton.1 h; exact form_built _ _

/-- Both programs report it, each under its name. -/
example : ∃ b', Reachable Demo.X "Lamp" (prefixed.calls insecure) b' ∧
    (run insecure).build Demo.env = .error (.err (.undefinedSecurity "digest")) ∧
    b'.build Demo.env = .error (.err (.undefinedSecurity "s-digest")) := by
  obtain ⟨b', h1, -⟩ := C87_calls prefixed insecure_reachable
  refine ⟨b', h1, C87_error_only (p := .thingForms) prefixed_faithful insecure_reachable h1
    ⟨_, List.mem_singleton.2 rfl, .inl ⟨"digest", ⟨["digest"], rfl, by simp⟩, ?_, rfl⟩⟩ ?_ ?_⟩
  · rintro ⟨s, hs, -⟩
    cases hs
  · intro q hq y hy
    cases q with
    | securityDefinitions =>
      rcases hy with ⟨s, hs, -⟩ | ⟨n, -, hn⟩
      · cases hs
      · simp [insecure, History.securities, Twice] at hn
    | comboReferences => obtain ⟨s, hs, -⟩ := hy; cases hs
    | schemaDefinitions =>
      obtain ⟨s, hs, -⟩ := hy
      cases hs with
      | schemaDefinition h => cases h
    | _ => exact absurd hq (by decide)
  · rintro y ⟨f, hm, hv⟩
    cases List.mem_singleton.1 hm
    rcases hv with ⟨n, ⟨l, h2, h3⟩, -, rfl⟩ | ⟨h2, -⟩ | ⟨o, ⟨l, h2, h3⟩, h4, rfl⟩ | ⟨n, ⟨a, h2, -⟩, -⟩
    · cases h2
      cases List.mem_singleton.1 h3
      rfl
    · cases h2
    · cases h2
      cases List.mem_singleton.1 h3
      exact absurd h4 (by decide)
    · cases h2

/-- One name for all. -/
def merged : Renaming where
  affordance _ _ := "x"
  security _ := "x"
  schema _ := "x"

/-- Names that were different must stay different: the example program fails if they do not. -/
example : builder.build Demo.env = .ok thing ∧
    (run (merged.calls history)).build Demo.env = .error (.err (.duplicatedSecurityDefinition "x")) := ⟨built, rfl⟩

end Demo
end Wot
