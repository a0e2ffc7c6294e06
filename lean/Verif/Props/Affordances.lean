import Verif.Props.Demo
/-
C06, C11, C14, C27: affordances, URI variables and links.
-/
namespace Wot

variable {X : ExtTypes} {title : String} {h : List (ThingOp X)} {b : ThingBuilder X}
  {env : Env} {t : Thing X}

/-! ### C06 -/

/-- C06: when `build` succeeds, the names of the affordances of each kind are pairwise distinct and are
exactly the keys of the corresponding member. -/
theorem C06_affordance_names (hr : Reachable X title h b) (hb : b.build env = .ok t)
    (ty : AffordanceType) :
    (History.affordanceNames h ty).Nodup ∧
    (t.affordanceNames ty).Perm (History.affordanceNames h ty) := by
  have hv := hr.valid_of_build hb
  obtain ⟨_, rfl⟩ := (hr.ok_iff env t).1 hb
  cases ty with
  | property =>
    refine ⟨hv.propertyNames, ?_⟩
    show (((mapResult _ b.properties).getD []).map _).Perm _
    rw [hr.properties]; exact mapResult_names _ hv.propertyNames
  | action =>
    refine ⟨hv.actionNames, ?_⟩
    show (((mapResult _ b.actions).getD []).map _).Perm _
    rw [hr.actions]; exact mapResult_names _ hv.actionNames
  | event =>
    refine ⟨hv.eventNames, ?_⟩
    show (((mapResult _ b.events).getD []).map _).Perm _
    rw [hr.events]; exact mapResult_names _ hv.eventNames

/-- C06: a kind without affordances gives an absent member, not an empty one. -/
theorem C06_absent (hr : Reachable X title h b) (hb : b.build env = .ok t) :
    (t.properties = none ↔ History.affordanceNames h .property = []) ∧
    (t.actions = none ↔ History.affordanceNames h .action = []) ∧
    (t.events = none ↔ History.affordanceNames h .event = []) := by
  obtain ⟨_, rfl⟩ := (hr.ok_iff env t).1 hb
  have key : ∀ {A T : Type} (f : A → T) (l : List (String × A)),
      mapResult f l = none ↔ l.map (·.1) = [] := by
    intro A T f l
    unfold mapResult
    split <;> simp_all
  refine ⟨?_, ?_, ?_⟩
  · show mapResult _ b.properties = none ↔ _; rw [hr.properties]; exact key _ _
  · show mapResult _ b.actions = none ↔ _; rw [hr.actions]; exact key _ _
  · show mapResult _ b.events = none ↔ _; rw [hr.events]; exact key _ _

/-- C06: if two affordances of a kind share a name, `build` fails; it reports a name that occurs twice
if that is all that is wrong. -/
theorem C06_duplicate_fails (hr : Reachable X title h b) {ty : AffordanceType} {n : String}
    (hd : Twice (History.affordanceNames h ty) n) :
    ∃ e, b.build env = .error (.err e) ∧
      ((∀ e', History.Violates env h e' → ∃ ty' n', e' = .duplicatedAffordance ty' n') →
        ∃ ty' m, e = .duplicatedAffordance ty' m ∧ Twice (History.affordanceNames h ty') m) := by
  have key : ∀ ty n, History.Violates env h (.duplicatedAffordance ty n) ↔
      Twice (History.affordanceNames h ty) n := by intro ty n; cases ty <;> exact .rfl
  obtain ⟨e, he, hv⟩ := hr.fails (env := env) ((key ty n).2 hd)
  refine ⟨e, he, fun hs => ?_⟩
  obtain ⟨ty', m, rfl⟩ := hs e hv
  exact ⟨ty', m, rfl, (key ty' m).1 hv⟩

/-- The hypotheses of C06 are met by a Thing with one affordance of each kind. -/
example : Demo.thing.affordanceNames .property = ["temperature"] ∧
    Demo.thing.affordanceNames .action = ["set"] ∧ Demo.thing.affordanceNames .event = ["overheat"] :=
  ⟨rfl, rfl, rfl⟩

/-- The hypotheses of the failing case of C06 are met, also next to an event of the same name. -/
example :
    Twice (History.affordanceNames
      [ThingOp.action "set" Demo.action, .event "set" Demo.event, .action "set" Demo.action] .action) "set" ∧
    Reachable Demo.X "Lamp"
      [.action "set" Demo.action, .event "set" Demo.event, .action "set" Demo.action]
      (Demo.run [.action "set" Demo.action, .event "set" Demo.event, .action "set" Demo.action]) :=
  ⟨show 2 ≤ _ by decide, Demo.run_reachable _ fun op h => by
    simp only [List.mem_cons, List.not_mem_nil, or_false] at h
    rcases h with rfl | rfl | rfl
    · exact Demo.action_built
    · exact Demo.event_built
    · exact Demo.action_built⟩

/-! ### C11 -/

/-- C11: in a built Thing no URI variable, of the Thing or of an affordance, has type array or object. -/
theorem C11_uri_variables (hr : Reachable X title h b) (hb : b.build env = .ok t) {s : DS X}
    (hs : t.HasSchema .uriVariable s) :
    (∀ a, s.subtype ≠ some (.array a)) ∧ ∀ o, s.subtype ≠ some (.object o) := by
  obtain ⟨u, hu, rfl⟩ := (hr.hasSchema hb).1 hs
  have hn := mt (arrayOrObject_mapLang (f := langResult env)).1 ((hr.valid_of_build hb).uriVariables u hu)
  exact ⟨fun a ha => hn (.inl ⟨a, ha⟩), fun o ho => hn (.inr ⟨o, ho⟩)⟩

/-- C11: a URI variable of type array or object makes `build` fail, with `InvalidUriVariables` if that
is all that is wrong. -/
theorem C11_bad_uri_variable_fails (hr : Reachable X title h b) {s : UDS X}
    (hs : History.HasSchema h .uriVariable s)
    (hbad : (∃ a, s.subtype = some (.array a)) ∨ ∃ o, s.subtype = some (.object o)) :
    ∃ e, b.build env = .error (.err e) ∧
      ((∀ e', History.Violates env h e' → e' = .invalidUriVariables) → e = .invalidUriVariables) := by
  obtain ⟨e, he, hv⟩ := hr.fails (env := env) (e := .invalidUriVariables) ⟨s, hs, hbad⟩
  exact ⟨e, he, fun hsole => hsole e hv⟩

/-- C11: `InvalidUriVariables` is returned only if there is such a URI variable. -/
theorem C11_error (hr : Reachable X title h b)
    (hb : b.build env = .error (.err .invalidUriVariables)) :
    ∃ s, History.HasSchema h .uriVariable s ∧
      ((∃ a, s.subtype = some (.array a)) ∨ ∃ o, s.subtype = some (.object o)) := by
  obtain ⟨p, hp, -⟩ := hr.first_fault hb
  exact hr.fault_iff.1 ⟨p, hp⟩

/-- The hypotheses of C11 are met by a URI variable of the Thing and one of a property. -/
example : Demo.thing.HasSchema .uriVariable (Demo.stringSchema.mapLang (langResult Demo.env)) :=
  (Demo.reachable.hasSchema Demo.built).2 ⟨_, .propertyUriVariable (n := "temperature") (k := "unit")
    (p := Demo.property) (s := Demo.stringSchema) (by simp [Demo.history]) (List.mem_singleton.2 rfl), rfl⟩

/-- The hypotheses of the failing case of C11 are met, and `build` reports the error. -/
example : Reachable Demo.X "Lamp" [.uriVariable "v" Demo.vecSchema] (Demo.run [.uriVariable "v" Demo.vecSchema]) ∧
    History.HasSchema (X := Demo.X) [.uriVariable "v" Demo.vecSchema] .uriVariable Demo.vecSchema ∧
    (Demo.run [.uriVariable "v" Demo.vecSchema]).build Demo.env = .error (.err .invalidUriVariables) :=
  ⟨Demo.run_reachable _ fun op h => by cases List.mem_singleton.1 h; exact Demo.vecSchema_built,
   .uriVariable (n := "v") rfl, rfl⟩

/-- A choice between an array and an object. -/
def Demo.hidden : Demo.S := .mk { other := () } (some [Demo.vecSchema, Demo.objectSchema]) none

theorem Demo.hidden_built : SchemaBuilt Demo.hidden :=
  Demo.chain_built (op := .oneOf Demo.vecSchema) (ops := [.oneOf Demo.objectSchema])
    rfl (by intro s hs; cases List.mem_singleton.1 hs; exact Demo.vecSchema_built)
    (Demo.args_built [Demo.objectSchema] (by simp [Demo.objectSchema_built]) (by simp [KindOp.args]))

/-- An array or object inside a `oneOf` is not noticed: `build` accepts a URI variable all of whose
values are arrays or objects. -/
theorem C11_hidden_in_oneOf :
    ∃ (h : List (ThingOp Demo.X)) (b : ThingBuilder Demo.X) (t : Thing Demo.X) (s : DS Demo.X),
      Reachable Demo.X "Lamp" h b ∧ b.build Demo.env = .ok t ∧ t.HasSchema .uriVariable s ∧
      ∃ l, s.oneOf = some l ∧ l ≠ [] ∧
        ∀ x ∈ l, (∃ a, x.subtype = some (.array a)) ∨ ∃ o, x.subtype = some (.object o) := by
  have hr : Reachable Demo.X "Lamp" [.uriVariable "v" Demo.hidden]
      (Demo.run [.uriVariable "v" Demo.hidden]) :=
    Demo.run_reachable _ fun op h => by cases List.mem_singleton.1 h; exact Demo.hidden_built
  have hb : (Demo.run [.uriVariable "v" Demo.hidden]).build Demo.env =
      .ok ((Demo.run [.uriVariable "v" Demo.hidden]).result Demo.env) := rfl
  refine ⟨_, _, _, Demo.hidden.mapLang (langResult Demo.env), hr, hb,
    (hr.hasSchema hb).2 ⟨Demo.hidden, .uriVariable (n := "v") rfl, rfl⟩,
    [Demo.vecSchema.mapLang (langResult Demo.env), Demo.objectSchema.mapLang (langResult Demo.env)],
    rfl, by simp, fun x hx => ?_⟩
  simp only [List.mem_cons, List.not_mem_nil, or_false] at hx
  rcases hx with rfl | rfl
  · exact .inl ⟨_, rfl⟩
  · exact .inr ⟨_, rfl⟩

/-! ### C14 -/

/-- C14: in a built Thing only links with relation `icon` have sizes. -/
theorem C14_link_sizes (hr : Reachable X title h b) (hb : b.build env = .ok t) {ls : List Link}
    (hls : t.links = some ls) {l : Link} (hl : l ∈ ls) (hs : l.sizes ≠ none) :
    l.rel = some "icon" := by
  have hv := hr.valid_of_build hb
  obtain ⟨_, rfl⟩ := (hr.ok_iff env t).1 hb
  have hls : b.links.map (List.map (linkResult env)) = some ls := hls
  rw [hr.links] at hls
  obtain ⟨us, hus, rfl⟩ := Option.map_eq_some_iff.1 hls
  obtain ⟨u, hu, rfl⟩ := List.mem_map.1 hl
  exact hv.linkSizes u (someList_mem.1 ⟨us, hus, hu⟩) hs

/-- C14: links keep their order and all supplied fields; language tags are replaced by what they parse
to, and a link without any has no `hreflang`. A Thing without links has no `links` member. -/
theorem C14_links (hr : Reachable X title h b) (hb : b.build env = .ok t) :
    t.links = (if History.links h = [] then none else
      some ((History.links h).map fun l =>
        { href := l.href, ty := l.ty, rel := l.rel, anchor := l.anchor, sizes := l.sizes,
          hreflang := if l.hreflang = [] then none else
            some (l.hreflang.map fun k => (env.langParse k).getD k) })) ∧
    ∀ l ∈ History.links h, ∀ k ∈ l.hreflang, ∃ tag, env.langParse k = some tag := by
  have hv := hr.valid_of_build hb
  obtain ⟨_, rfl⟩ := (hr.ok_iff env t).1 hb
  refine ⟨?_, fun l hl k hk => hv.languages k (.hreflang hl hk)⟩
  show b.links.map (List.map (linkResult env)) = _
  rw [hr.links]
  unfold someList
  split <;> rfl

/-- C14: a link with sizes and a relation other than `icon` makes `build` fail, with
`SizesWithRelNotIcon` if nothing earlier fails and the links' language tags are accepted. -/
theorem C14_bad_link_fails (hr : Reachable X title h b) {l : UncheckedLink} (hl : l ∈ History.links h)
    (hs : l.sizes ≠ none) (hrel : l.rel ≠ some "icon") :
    ∃ e, b.build env = .error (.err e) ∧
      (History.NothingBefore env h .links →
       (∀ l ∈ History.links h, ∀ k ∈ l.hreflang, env.langParse k ≠ none) →
        e = .sizesWithRelNotIcon) := by
  by_cases hn : History.NothingBefore env h .links
  · obtain ⟨e, he, l', hl', hv⟩ := hr.fails_in (env := env) (p := .links) (e := .sizesWithRelNotIcon)
      ⟨l, hl, .inl ⟨hs, hrel, rfl⟩⟩ hn
    refine ⟨e, he, fun _ hk => ?_⟩
    rcases hv with ⟨-, -, rfl⟩ | ⟨k, hk1, hk2, -⟩
    · rfl
    · exact absurd hk2 (hk l' hl' k hk1)
  · obtain ⟨e, he, -⟩ := hr.fails (env := env) (e := .sizesWithRelNotIcon) ⟨l, hl, hs, hrel⟩
    exact ⟨e, he, fun h => absurd h hn⟩

/-- The hypotheses of C14 are met by an icon link with sizes next to a plain link. -/
example : Demo.thing.links = some
    [{ href := "/icon.png", ty := none, rel := some "icon", anchor := none, sizes := some "16x16",
       hreflang := some ["en"] },
     { href := "/manual", ty := none, rel := none, anchor := none, sizes := none, hreflang := none }] := rfl

/-- The hypotheses of the failing case of C14 are met: a link with sizes and no relation. -/
example : Reachable Demo.X "Lamp" [.common (.linkWith [] "/x" [.sizes "1x1"])]
      (Demo.run [.common (.linkWith [] "/x" [.sizes "1x1"])]) ∧
    (Demo.run [.common (.linkWith [] "/x" [.sizes "1x1"])]).build Demo.env =
      .error (.err .sizesWithRelNotIcon) :=
  ⟨Demo.run_reachable _ fun op h => by cases List.mem_singleton.1 h; trivial, rfl⟩

/-! ### C27 -/

/-- C27: in every property of a built Thing the human readable members of the interaction part and of
the data schema part are identical; they are written to the same JSON object. -/
theorem C27_property_information (hr : Reachable X title h b) (hb : b.build env = .ok t)
    {m : HMap (PropertyAffordance X)} (hm : t.properties = some m) {n : String}
    {p : PropertyAffordance X} (hp : (n, p) ∈ m) :
    p.interaction.attype = p.dataSchema.head.attype ∧
    p.interaction.title = p.dataSchema.head.title ∧
    p.interaction.titles = p.dataSchema.head.titles ∧
    p.interaction.description = p.dataSchema.head.description ∧
    p.interaction.descriptions = p.dataSchema.head.descriptions := by
  obtain ⟨q, -, rfl⟩ := (hr.hasProperty hb).1 ⟨m, hm, hp⟩
  refine ⟨rfl, rfl, ?_, rfl, ?_⟩
  · exact (mapLang_titles (langResult env) q.schema).symm
  · exact (mapLang_descriptions (langResult env) q.schema).symm

/-- The hypotheses of C27 are met by a property with a title and translations. -/
example : ∃ m, Demo.thing.properties = some m ∧
    ("temperature", PropertyBuilder.result Demo.env Demo.property) ∈ m ∧
    (PropertyBuilder.result Demo.env Demo.property).interaction.titles =
      some ⟨[("en", "Temperature"), ("it", "Temperatura")]⟩ :=
  ⟨_, rfl, List.mem_singleton.2 rfl, rfl⟩

end Wot
