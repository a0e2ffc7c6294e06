import Verif.Props.Demo
import Verif.Lemmas.FirstDuplicate
/-
C01, C02, C03, C16: security definitions and the references to them.
-/
namespace Wot

variable {X : ExtTypes} {title : String} {h : List (ThingOp X)} {b : ThingBuilder X}
  {env : Env} {t : Thing X}

/-! ### C01 -/

/-- C01: when `build` succeeds, the `security` calls have distinct names and `securityDefinitions`
has exactly one entry per call, under the call's name. -/
theorem C01_security_definitions (hr : Reachable X title h b) (hb : b.build env = .ok t) :
    ((History.securities h).map securityName).Nodup ∧
    t.securityDefinitions.length = (History.securities h).length ∧
    ∀ n s, (n, s) ∈ t.securityDefinitions ↔
      ∃ c ∈ History.securities h, n = securityName c ∧ s = schemeResult env c.scheme := by
  have hv := hr.valid_of_build hb
  obtain ⟨_, rfl⟩ := (hr.ok_iff env t).1 hb
  have hn := hv.securityNames
  have hm : ∀ n s, (n, s) ∈ (b.result env).securityDefinitions ↔
      ∃ c ∈ History.securities h, n = securityName c ∧ s = schemeResult env c.scheme := by
    intro n s
    refine (mem_collect (schemeResult env) (l := b.securityDefinitions)
      (by rw [hr.securityNames]; exact hn) n s).trans ?_
    rw [hr.securityDefinitions]
    simp only [List.mem_map, Prod.mk.injEq]
    constructor
    · rintro ⟨_, ⟨c, hc, rfl, rfl⟩, rfl⟩; exact ⟨c, hc, rfl, rfl⟩
    · rintro ⟨c, hc, rfl, rfl⟩; exact ⟨_, ⟨c, hc, rfl, rfl⟩, rfl⟩
  refine ⟨hn, ?_, hm⟩
  have hk : (b.result env).securityDefinitions.keys.Perm ((History.securities h).map securityName) := by
    refine (List.perm_ext_iff_of_nodup (HMap.collect_sorted _).nodup hn).2 fun n => ?_
    constructor
    · intro hk
      obtain ⟨⟨k, s⟩, hks, rfl⟩ := List.mem_map.1 hk
      obtain ⟨c, hc, rfl, -⟩ := (hm k s).1 hks
      exact List.mem_map_of_mem hc
    · intro hk
      obtain ⟨c, hc, rfl⟩ := List.mem_map.1 hk
      exact List.mem_map.2 ⟨_, (hm _ _).2 ⟨c, hc, rfl, rfl⟩, rfl⟩
  have := hk.length_eq
  simpa [HMap.keys] using this

/-- C01: a repeated name makes `build` fail, with `DuplicatedSecurityDefinition` naming a repeated
name if the language tags of the security descriptions, which are looked at earlier, are fine. -/
theorem C01_duplicate_fails (hr : Reachable X title h b) {n : String}
    (hd : Twice ((History.securities h).map securityName) n) :
    ∃ e, b.build env = .error (.err e) ∧
      ((∀ c ∈ History.securities h, ∀ k, KeyOf c.descriptions k → env.langParse k ≠ none) →
        ∃ m, e = .duplicatedSecurityDefinition m ∧
          Twice ((History.securities h).map securityName) m) := by
  obtain ⟨e, he, hf⟩ := hr.fails_in (env := env) (p := .securityDefinitions)
    (e := .duplicatedSecurityDefinition n) (.inr ⟨n, rfl, hd⟩) (fun q hq => absurd hq (Nat.not_lt_zero _))
  refine ⟨e, he, fun hl => ?_⟩
  rcases hf with ⟨c, hc, k, hk, hp, -⟩ | ⟨m, rfl, hm⟩
  · exact absurd hp (hl c hc k hk)
  · exact ⟨m, rfl, hm⟩

/-- C01: more precisely, it is the first call that repeats an earlier name whose name is reported. -/
theorem C01_first_duplicate (hr : Reachable X title h b)
    {l1 l2 : List (SecuritySchemeBuilder SchemeSubtype)} {c : SecuritySchemeBuilder SchemeSubtype}
    (hs : History.securities h = l1 ++ c :: l2) (hn : (l1.map securityName).Nodup)
    (hc : securityName c ∈ l1.map securityName)
    (hl : ∀ d ∈ l1 ++ [c], ∀ k, KeyOf d.descriptions k → env.langParse k ≠ none) :
    b.build env = .error (.err (.duplicatedSecurityDefinition (securityName c))) := by
  unfold ThingBuilder.build
  rw [hr.securityDefinitions, hs, buildSecDefs_first env l1 c l2 [] hn (fun _ _ => rfl) (.inl hc) hl]
  rfl

/-- The hypotheses of C01 are met by a Thing with three security schemes, one of them a combo. -/
example : Reachable Demo.X "Lamp" Demo.history Demo.builder ∧
    Demo.builder.build Demo.env = .ok Demo.thing ∧
    (History.securities Demo.history).map securityName = ["both", "basic", "psk"] :=
  ⟨Demo.reachable, Demo.built, rfl⟩

def Demo.duplicated : List (ThingOp Demo.X) :=
  [.common (.security Demo.psk), .common (.security Demo.basic), .common (.id "urn:lamp"),
   .common (.security { Demo.psk with name := some "basic" }), .common (.security Demo.psk)]

theorem Demo.duplicated_reachable : Reachable Demo.X "Lamp" Demo.duplicated (Demo.run Demo.duplicated) := by
  refine Demo.run_reachable _ fun op h => ?_
  simp only [Demo.duplicated, List.mem_cons, List.not_mem_nil, or_false] at h
  rcases h with rfl | rfl | rfl | rfl | rfl
  · exact ⟨[.psk, .required], rfl⟩
  · exact ⟨[.basic, .required, .descriptions [("en", "user and password")]], rfl⟩
  · trivial
  · exact ⟨[.psk, .required, .withKey "basic"], rfl⟩
  · exact ⟨[.psk, .required], rfl⟩

/-- The hypotheses of the failing cases of C01 are met: `psk` and `basic` are repeated, and `basic`
is reported because it is repeated first. -/
example : (Demo.run Demo.duplicated).build Demo.env =
    .error (.err (.duplicatedSecurityDefinition "basic")) :=
  C01_first_duplicate Demo.duplicated_reachable (l1 := [Demo.psk, Demo.basic]) rfl (by decide)
    (by decide) (fun _ _ _ _ h => by cases h)

example : Twice ((History.securities Demo.duplicated).map securityName) "psk" ∧
    Twice ((History.securities Demo.duplicated).map securityName) "basic" :=
  ⟨show 2 ≤ _ by decide, show 2 ≤ _ by decide⟩

/-! ### C02 -/

/-- C02: the Thing's `security` lists the names of the schemes marked as required, in call order, and
all of them are keys of `securityDefinitions`. -/
theorem C02_thing_security (hr : Reachable X title h b) (hb : b.build env = .ok t) :
    t.security = ((History.securities h).filter (·.required)).map securityName ∧
    ∀ n ∈ t.security, t.Defines n := by
  have hs : t.security = ((History.securities h).filter (·.required)).map securityName := by
    obtain ⟨_, rfl⟩ := (hr.ok_iff env t).1 hb
    show b.security = _
    rw [hr.supplied]; rfl
  refine ⟨hs, fun n hn => (hr.defines hb).2 ?_⟩
  rw [hs, List.mem_map] at hn
  obtain ⟨c, hc, rfl⟩ := hn
  exact ⟨c, (List.mem_filter.1 hc).1, rfl⟩

/-- The hypotheses of C02 are met by a Thing two of whose three schemes are required. -/
example : Demo.thing.security = ["basic", "psk"] := (C02_thing_security Demo.reachable Demo.built).1

/-! ### C03 -/

/-- C03: in a built Thing every security name used by a form, anywhere, is defined. -/
theorem C03_form_security (hr : Reachable X title h b) (hb : b.build env = .ok t)
    {ctx : FormContext} {f : Form X} (hf : t.HasForm ctx f) {l : List String}
    (hl : f.security = some l) {n : String} (hn : n ∈ l) : t.Defines n := by
  obtain ⟨g, hg, rfl⟩ := (hr.hasForm hb).1 hf
  exact (hr.defines hb).2 ((hr.valid_of_build hb).formSecurity ctx g n hg ⟨l, hl, hn⟩)

/-- C03: a form using an undefined name makes `build` fail. -/
theorem C03_undefined_fails (hr : Reachable X title h b) {ctx : FormContext} {f : FormBuilder X}
    (hf : History.HasForm h ctx f) {n : String} (hn : f.UsesSecurity n) (hd : ¬ History.Defines h n) :
    ∃ e, b.build env = .error (.err e) := by
  obtain ⟨e, he, -⟩ := hr.fails (env := env) (e := .undefinedSecurity n) ⟨hd, ctx, f, hf, hn⟩
  exact ⟨e, he⟩

/-- C03: `UndefinedSecurity(n)` is returned only for a name that is used and undefined; it is returned
if undefined names are all that is wrong. -/
theorem C03_undefined_error (hr : Reachable X title h b) :
    (∀ n, b.build env = .error (.err (.undefinedSecurity n)) →
      ¬ History.Defines h n ∧ ∃ ctx f, History.HasForm h ctx f ∧ f.UsesSecurity n) ∧
    ((∃ ctx f n, History.HasForm h ctx f ∧ f.UsesSecurity n ∧ ¬ History.Defines h n) →
      (∀ e, History.Violates env h e → ∃ n, e = .undefinedSecurity n) →
      ∃ n, b.build env = .error (.err (.undefinedSecurity n))) := by
  constructor
  · intro n hb
    obtain ⟨p, hp, -⟩ := hr.first_fault hb
    exact hr.fault_iff.1 ⟨p, hp⟩
  · rintro ⟨ctx, f, n, hf, hn, hd⟩ hsole
    obtain ⟨e, he, hv⟩ := hr.fails (env := env) (e := .undefinedSecurity n) ⟨hd, ctx, f, hf, hn⟩
    obtain ⟨m, rfl⟩ := hsole e hv
    exact ⟨m, he⟩

/-- The hypotheses of C03 are met by a Thing-level form and a form of an event using different
schemes. -/
example : Demo.thing.HasForm .thing (FormBuilder.result Demo.thingForm) ∧
    (FormBuilder.result Demo.thingForm).security = some ["basic"] ∧
    Demo.thing.HasForm .event (FormBuilder.result (Demo.form "/hot" [.op .subscribeEvent, .security "psk"])) :=
  ⟨(Demo.reachable.hasForm Demo.built).2 ⟨_, .thing (by simp [Demo.history]), rfl⟩, rfl,
   (Demo.reachable.hasForm Demo.built).2
    ⟨_, .event (n := "overheat") (e := Demo.event) (by simp [Demo.history]) (List.mem_singleton.2 rfl), rfl⟩⟩

def Demo.undefinedAction : ActionBuilder Demo.X :=
  ActionBuilderF.apply (.empty () ())
    (.interaction (.form (Demo.form "/set" [.security "psk", .security "nosuch"])))

def Demo.undefined : List (ThingOp Demo.X) :=
  [.common (.security Demo.psk), .action "set" Demo.undefinedAction]

theorem Demo.undefined_reachable : Reachable Demo.X "Lamp" Demo.undefined (Demo.run Demo.undefined) := by
  refine Demo.run_reachable _ fun op h => ?_
  simp only [Demo.undefined, List.mem_cons, List.not_mem_nil, or_false] at h
  rcases h with rfl | rfl
  · exact ⟨[.psk, .required], rfl⟩
  · exact .call _ (Demo.form_built _ _) (.empty () ())

/-- The hypotheses of the failing cases of C03 are met. -/
example : ∃ e, (Demo.run Demo.undefined).build Demo.env = .error (.err e) := by
  refine C03_undefined_fails Demo.undefined_reachable (ctx := .action)
    (f := Demo.form "/set" [.security "psk", .security "nosuch"])
    (.action (n := "set") (a := Demo.undefinedAction) (by simp [Demo.undefined]) (List.mem_singleton.2 rfl))
    (n := "nosuch") ⟨["psk", "nosuch"], rfl, by simp⟩ ?_
  rintro ⟨s, hs, hn⟩
  have : s = Demo.psk := by simpa [History.securities, Demo.undefined] using hs
  subst this
  revert hn; decide

/-! ### C16 -/

/-- C16: in a built Thing every name listed by a combo scheme is defined. -/
theorem C16_combo_references (hr : Reachable X title h b) (hb : b.build env = .ok t) {n : String}
    {s : SecurityScheme} (hs : (n, s) ∈ t.securityDefinitions) {l : List String}
    (hc : s.subtype = .known (.combo (.oneOf l)) ∨ s.subtype = .known (.combo (.allOf l)))
    {m : String} (hm : m ∈ l) : t.Defines m := by
  obtain ⟨c, hc', rfl, rfl⟩ := ((C01_security_definitions hr hb).2.2 n s).1 hs
  exact (hr.defines hb).2 ((hr.valid_of_build hb).comboReferences c hc' m ⟨l, hc, hm⟩)

/-- C16: a combo scheme listing an undefined name, defined neither before nor after it, makes `build`
fail; if no name is duplicated and no security description has a bad language tag, the error is
`MissingSchemaDefinition` of an undefined name some combo lists. -/
theorem C16_undefined_fails (hr : Reachable X title h b) {c : SecuritySchemeBuilder SchemeSubtype}
    (hc : c ∈ History.securities h) {m : String} (hm : c.subtype.References m)
    (hd : ¬ History.Defines h m) :
    ∃ e, b.build env = .error (.err e) ∧
      ((∀ e', ¬ History.Fault env h .securityDefinitions e') →
        ∃ n, e = .missingSchemaDefinition n ∧ ¬ History.Defines h n ∧
          ∃ c ∈ History.securities h, c.subtype.References n) := by
  by_cases hn : ∀ e', ¬ History.Fault env h .securityDefinitions e'
  · obtain ⟨e, he, c', hc', n, h1, h2, rfl⟩ := hr.fails_in (env := env) (p := .comboReferences)
      (e := .missingSchemaDefinition m) ⟨c, hc, m, hm, hd, rfl⟩ (by
        intro q hq
        have : q = .securityDefinitions := by
          cases q <;> first | rfl | exact absurd hq (by decide)
        subst this
        exact hn)
    exact ⟨_, he, fun _ => ⟨n, rfl, h2, c', hc', h1⟩⟩
  · obtain ⟨e, he, -⟩ := hr.fails (env := env) (e := .missingSchemaDefinition m)
      (.inr ⟨hd, c, hc, hm⟩)
    exact ⟨e, he, fun h => absurd h hn⟩

/-- The hypotheses of C16 are met: a combo scheme refers to two schemes defined after it. -/
example : ("both", schemeResult Demo.env Demo.combo.scheme) ∈ Demo.thing.securityDefinitions :=
  ((C01_security_definitions Demo.reachable Demo.built).2.2 _ _).2
    ⟨Demo.combo, by simp [History.securities, Demo.history, Demo.link], rfl, rfl⟩

/-- The hypotheses of the failing case of C16 are met. -/
example : Reachable Demo.X "Lamp" [.common (.security Demo.combo), .common (.security Demo.psk)]
      (Demo.run [.common (.security Demo.combo), .common (.security Demo.psk)]) ∧
    Demo.combo.subtype.References "basic" ∧
    ¬ History.Defines (X := Demo.X) [.common (.security Demo.combo), .common (.security Demo.psk)] "basic" := by
  refine ⟨Demo.run_reachable _ fun op h => ?_, ⟨_, .inr rfl, by simp⟩, ?_⟩
  · simp only [List.mem_cons, List.not_mem_nil, or_false] at h
    rcases h with rfl | rfl
    · exact ⟨[.combo, .allOf ["basic"], .push "psk", .name "both"], rfl⟩
    · exact ⟨[.psk, .required], rfl⟩
  · rintro ⟨s, hs, hn⟩
    have : s = Demo.combo ∨ s = Demo.psk := by simpa [History.securities] using hs
    rcases this with rfl | rfl <;> revert hn <;> decide

end Wot
