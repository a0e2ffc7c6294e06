import Verif.Lemmas.SameReach
import Verif.Props.Build
import Verif.Props.Blind
/-
C86: programs with different extensions that make the same calls.

`History.plain` leaves out of a sequence of calls all extension values, and `History.withExt` replaces them by those of
another program (Spec/SameCalls).
-/
namespace Wot

variable {X Y : ExtTypes} {env : Env} {title title' : String} {h : List (ThingOp X)} {h' : List (ThingOp Y)}
  {b : ThingBuilder X} {b' : ThingBuilder Y}

/-! ### Calls that differ only in their extension values -/

/-- The same is wrong with what was supplied, -/
theorem C86_violations (hr : Reachable X title h b) (hr' : Reachable Y title' h' b') (e : History.plain h = History.plain h')
    (x : Error) : History.Violates env h x ↔ History.Violates env h' x := by
  rw [← hr.fault_iff, ← hr'.fault_iff]
  refine exists_congr fun p => ?_
  rw [← Blind.fault_ext (e := .plain), ← Blind.fault_ext (h := h') (e := .plain)]
  exact (congrArg (History.Fault env · p x) e).to_iff

/-- so one builder builds a Thing just when the other does. -/
theorem C86_succeeds (hr : Reachable X title h b) (hr' : Reachable Y title' h' b') (e : History.plain h = History.plain h') :
    (∃ t, b.build env = .ok t) ↔ ∃ t, b'.build env = .ok t := by
  have H : ∀ {Z : ExtTypes} {title : String} {h : List (ThingOp Z)} {b : ThingBuilder Z}, Reachable Z title h b →
      ((∃ t, b.build env = .ok t) ↔ ∀ x, ¬ History.Violates env h x) := fun hr => by
    rcases hr.outcome env with ⟨h1, -, h3⟩ | ⟨⟨y, h1, h2⟩, -⟩
    · exact ⟨fun _ => h3, fun _ => h1⟩
    · exact ⟨fun ⟨t, ht⟩ => (by rw [h1] at ht; cases ht), fun h3 => absurd h2 (h3 y)⟩
  rw [H hr, H hr']
  exact forall_congr' fun x => not_congr (C86_violations hr hr' e x)

/-- If both fail, they report something that is wrong in the same phase of the validation, for both of them. -/
theorem C86_phase (hr : Reachable X title h b) (hr' : Reachable Y title' h' b') (e : History.plain h = History.plain h')
    {x x' : Error} (hb : b.build env = .error (.err x)) (hb' : b'.build env = .error (.err x')) :
    ∃ p, History.Fault env h p x ∧ History.Fault env h p x' ∧ History.NothingBefore env h p ∧
      History.Fault env h' p x ∧ History.Fault env h' p x' ∧ History.NothingBefore env h' p := by
  have H : ∀ p y, History.Fault env h p y ↔ History.Fault env h' p y := fun p y => by
    rw [← Blind.fault_ext (e := .plain), ← Blind.fault_ext (h := h') (e := .plain)]
    exact (congrArg (History.Fault env · p y) e).to_iff
  obtain ⟨p, h1, h2⟩ := C42_first hr hb
  obtain ⟨q, h3, h4⟩ := C42_first hr' hb'
  have hpq : p = q := by
    rcases Nat.lt_trichotomy p.index q.index with hl | he | hg
    · exact absurd ((H p x).1 h1) (h4 p hl x)
    · exact Phase.index_inj he
    · exact absurd ((H q x').2 h3) (h2 q hg x')
  subst hpq
  exact ⟨p, h1, (H p x').2 h3, h2, (H p x).1 h1, h3, h4⟩

/-- If only one thing is wrong, both report it. -/
theorem C86_error (hr : Reachable X title h b) (hr' : Reachable Y title' h' b') (e : History.plain h = History.plain h')
    {x : Error} (ho : ∀ y, History.Violates env h y → y = x) (hb : b.build env = .error (.err x)) :
    b'.build env = .error (.err x) := by
  rcases hr'.outcome env with ⟨h1, -⟩ | ⟨⟨y, h1, h2⟩, -⟩
  · obtain ⟨t, ht⟩ := (C86_succeeds hr hr' e).2 h1
    rw [hb] at ht; cases ht
  · rw [h1, ho y ((C86_violations hr hr' e y).2 h2)]

/-- The Things they build differ only in their extension values. -/
theorem C86_things (hr : Reachable X title h b) (hr' : Reachable Y title h' b') (e : History.plain h = History.plain h')
    {t : Thing X} {t' : Thing Y} (hb : b.build env = .ok t) (hb' : b'.build env = .ok t') : t.plain = t'.plain := by
  have H : ∀ {Z : ExtTypes} {h : List (ThingOp Z)} {b : ThingBuilder Z} {t : Thing Z}, Reachable Z title h b →
      b.build env = .ok t → t.plain = (History.supplied title (History.plain h) ()).result env := fun hr hb => by
    rw [hr.build_of_valid (hr.valid_of_build hb)] at hb
    cases hb
    rw [hr.supplied]
    exact (Blind.result_ext (e := .plain)).symm
  rw [H hr hb, H hr' hb', e]

/-! ### From one program to another -/

/-- Whatever calls a program makes, one with other extensions can make as well, with the extension values it has for those of
the first. If the first builds a Thing, it builds this Thing with its own extension values; if the first fails, so does it, in
the same phase. -/
theorem C86_other (f : ExtMap X Y) (hr : Reachable X title h b) :
    ∃ b', Reachable Y title (History.withExt f h) b' ∧ (∀ t, b.build env = .ok t → b'.build env = .ok (t.withExt f)) ∧
      ∀ x, b.build env = .error (.err x) → ∃ x' p, b'.build env = .error (.err x') ∧ History.Fault env h p x ∧
        History.Fault env h p x' ∧ History.NothingBefore env h p := by
  obtain ⟨b', hr', ho⟩ := Blind.reachable_ext (e := f) hr
  refine ⟨b', hr', fun t ht => ?_, fun x hx => ?_⟩
  · rcases hr'.outcome env with ⟨-, h1, -⟩ | ⟨⟨y, -, h1⟩, -⟩
    · rw [hr'.build_of_valid h1, hr'.supplied, ho, Blind.result_ext, ← hr.supplied]
      rw [hr.build_of_valid (hr.valid_of_build ht)] at ht
      cases ht
      rfl
    · obtain ⟨p, hp⟩ := hr'.fault_iff.2 h1
      rcases hr.outcome env with ⟨-, -, h2⟩ | ⟨⟨z, h2, -⟩, -⟩
      · exact absurd (hr.fault_iff.1 ⟨p, Blind.fault_ext.1 hp⟩) (h2 y)
      · rw [h2] at ht; cases ht
  · obtain ⟨p, h1, h2⟩ := C42_first hr hx
    obtain ⟨x', h3, h4⟩ := C42_reported hr' (Blind.fault_ext.2 h1) fun q hq y hy => h2 q hq y (Blind.fault_ext.1 hy)
    exact ⟨x', p, h3, h1, Blind.fault_ext.1 h4, h2⟩

/-- In particular, extensions are never needed to build a Thing. -/
theorem C86_without (hr : Reachable X title h b) {t : Thing X} (hb : b.build env = .ok t) :
    ∃ b', Reachable .nil title (History.plain h) b' ∧ b'.build env = .ok t.plain := by
  obtain ⟨b', hr', h1, -⟩ := C86_other (env := env) .plain hr
  exact ⟨b', hr', h1 t hb⟩

/-! ### Examples -/

/-- The calls with different message headers differ only in extension values, -/
theorem Demo.web_calls (hs hs' : List Http.MessageHeader) :
    History.plain [ThingOp.form (Demo.webForm hs)] = History.plain [.form (Demo.webForm hs')] := rfl

/-- so the Things differ only in these. -/
example (hs hs' : List Http.MessageHeader) : (Demo.webThing hs).plain = (Demo.webThing hs').plain :=
  C86_things (Demo.web_reachable hs) (Demo.web_reachable hs') (Demo.web_calls hs hs') (Demo.web_ok hs) (Demo.web_ok hs')

/-- The same calls without HTTP and CoAP. -/
example (hs : List Http.MessageHeader) : ∃ b', Reachable .nil "Lamp" (History.plain [.form (Demo.webForm hs)]) b' ∧
    b'.build Demo.senv.toEnv = .ok (Demo.webThing hs).plain := C86_without (Demo.web_reachable hs) (Demo.web_ok hs)

namespace Demo

/-- A form without operations, in a program with an extension of Things. -/
def opless (o : String) : List (ThingOp ThingExt) :=
  [.setOther o, .form ((FormBuilderF.new (X := ThingExt) ()).setHref "/all")]

/-- The builder. -/
def oplessBuilder (o : String) : ThingBuilder ThingExt :=
  (ThingBuilder.new (X := ThingExt) "Lamp" "first").finishExtend.run (opless o)

theorem opless_reachable (o : String) : Reachable ThingExt "Lamp" (opless o) (oplessBuilder o) :=
  ⟨.extended (h := []) (opless o) (.new (X := ThingExt) "Lamp" "first"), by
    intro op h
    rcases List.mem_cons.1 h with rfl | h
    · trivial
    · cases List.mem_singleton.1 h; exact .href _ (.new _)⟩

/-- The same in a program without. -/
theorem run_opless : Reachable .nil "Lamp" [.form (form "/all" [])] (run [.form (form "/all" [])]) :=
  run_reachable _ fun op h => by cases List.mem_singleton.1 h; exact form_built _ _

end Demo

/-- The operation is missing in both, and nothing else is wrong. -/
example (o : String) : History.plain (Demo.opless o) = History.plain [ThingOp.form (Demo.form "/all" [])] ∧
    (Demo.oplessBuilder o).build Demo.env = .error (.err .missingOpInForm) ∧
    (Demo.run [.form (Demo.form "/all" [])]).build Demo.env = .error (.err .missingOpInForm) := by
  have hb : (Demo.oplessBuilder o).build Demo.env = .error (.err .missingOpInForm) := rfl
  refine ⟨rfl, hb, C86_error (Demo.opless_reachable o) Demo.run_opless rfl (fun y hy => ?_) hb⟩
  rw [C86_violations (Demo.opless_reachable o) Demo.run_opless rfl] at hy
  have hs : ∀ p s, ¬ History.HasSchema [ThingOp.form (Demo.form "/all" [])] p s := by
    intro p s h
    cases h with
    | property h1 => cases List.mem_singleton.1 h1
    | input h1 h2 => cases List.mem_singleton.1 h1
    | output h1 h2 => cases List.mem_singleton.1 h1
    | subscription h1 h2 => cases List.mem_singleton.1 h1
    | data h1 h2 => cases List.mem_singleton.1 h1
    | dataResponse h1 h2 => cases List.mem_singleton.1 h1
    | cancellation h1 h2 => cases List.mem_singleton.1 h1
    | uriVariable h1 => cases h1
    | propertyUriVariable h1 h2 => cases List.mem_singleton.1 h1
    | actionUriVariable h1 h2 => cases List.mem_singleton.1 h1
    | eventUriVariable h1 h2 => cases List.mem_singleton.1 h1
    | schemaDefinition h1 => cases h1
  have hf : ∀ ctx f, History.HasForm [ThingOp.form (Demo.form "/all" [])] ctx f → f = Demo.form "/all" [] := by
    intro ctx f h
    cases h with
    | thing h1 => cases List.mem_singleton.1 h1; rfl
    | property h1 h2 => cases List.mem_singleton.1 h1
    | action h1 h2 => cases List.mem_singleton.1 h1
    | event h1 h2 => cases List.mem_singleton.1 h1
  cases y with
  | missingOpInForm => rfl
  | duplicatedSecurityDefinition n => exact absurd hy (by simp [History.Violates, Twice, History.securities])
  | invalidOpInForm ctx o =>
    obtain ⟨-, f, h1, l, h2, -⟩ := hy
    cases hf _ _ h1; cases h2
  | undefinedSecurity n =>
    obtain ⟨-, ctx, f, h1, l, h2, -⟩ := hy
    cases hf _ _ h1; cases h2
  | invalidMinMax => obtain ⟨p, s, x, -, h, -⟩ := hy; exact absurd h (hs p s)
  | nanMinMax => obtain ⟨p, s, x, -, h, -⟩ := hy; exact absurd h (hs p s)
  | invalidMultipleOf => obtain ⟨p, s, x, -, h, -⟩ := hy; exact absurd h (hs p s)
  | duplicatedAffordance ty n =>
    cases ty <;>
      exact absurd hy (by simp [History.Violates, Twice, History.properties, History.actions, History.events])
  | missingSchemaDefinition n =>
    rcases hy with ⟨-, f, h1, r, h2, -⟩ | ⟨-, s, h1, -⟩
    · cases List.mem_singleton.1 h1; cases h2
    · cases h1
  | invalidUriVariables => obtain ⟨s, h, -⟩ := hy; exact absurd h (hs _ s)
  | invalidLanguageTag k =>
    obtain ⟨h, -⟩ := hy
    cases h with
    | titles h1 => cases h1
    | descriptions h1 => cases h1
    | security h1 => cases h1
    | infoTitles h1 => cases h1 <;> rename_i h2 _ <;> cases List.mem_singleton.1 h2
    | infoDescriptions h1 => cases h1 <;> rename_i h2 _ <;> cases List.mem_singleton.1 h2
    | schema h1 => exact absurd h1 (hs _ _)
    | hreflang h1 => cases h1
  | sizesWithRelNotIcon => obtain ⟨l, h, -⟩ := hy; cases h

end Wot
