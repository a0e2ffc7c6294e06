import Verif.Lemmas.LeftOut
import Verif.Props.Together
/-
C91: what a Thing does not use can be left out.
-/
namespace Wot

variable {X : ExtTypes} {title : String} {h₁ h₂ : List (ThingOp X)} {b b' : ThingBuilder X} {env : Env} {t t' : Thing X}

/-- A program without one of its calls is one that can be written. -/
theorem C91_calls {op : ThingOp X} (ho : ∀ v, op ≠ .setOther v) (hr : Reachable X title (h₁ ++ op :: h₂) b) :
    ∃ b', Reachable X title (h₁ ++ h₂) b' ∧ b'.other = b.other := LeftOut.reachable ho hr

section
variable {s : SecuritySchemeBuilder SchemeSubtype} (hr : Reachable X title (h₁ ++ .common (.security s) :: h₂) b)
  (hr' : Reachable X title (h₁ ++ h₂) b') (hb : b.build env = .ok t)
include hr hr' hb

/-- The call that adds a security definition can be left out just when no form names it and no other definition combines it. -/
theorem C91_security : (∃ t', b'.build env = .ok t') ↔ ¬ t.NeedsSecurity (securityName s) := by
  have hv := hr.valid_of_build hb
  have hsec : History.securities (h₁ ++ .common (.security s) :: h₂) =
      History.securities h₁ ++ s :: History.securities h₂ := LeftOut.sec_eq
  have hsec' : History.securities (h₁ ++ h₂) = History.securities h₁ ++ History.securities h₂ := securities_append
  have hmem : ∀ c, c ∈ History.securities (h₁ ++ .common (.security s) :: h₂) → c = s ∨ c ∈ History.securities (h₁ ++ h₂) := by
    intro c hc
    rw [hsec, List.mem_append, List.mem_cons] at hc
    rw [hsec', List.mem_append]
    rcases hc with hc | rfl | hc
    · exact .inr (.inl hc)
    · exact .inl rfl
    · exact .inr (.inr hc)
  have hback : ∀ c, c ∈ History.securities (h₁ ++ h₂) → c ∈ History.securities (h₁ ++ .common (.security s) :: h₂) := fun c hc =>
    (LeftOut.sublist.filterMap _).subset hc
  have hnot : ∀ c, c ∈ History.securities (h₁ ++ h₂) → securityName c ≠ securityName s := fun c hc => LeftOut.sec_not hv hc
  rw [C17_exact hr' env]
  constructor
  · rintro hv' (⟨c, f, l, hf, hl, hn⟩ | ⟨m, d, l, hd, hm, hl, hn⟩)
    · obtain ⟨g, hg, rfl⟩ := (hr.hasForm hb).1 hf
      have hg' : History.HasForm (h₁ ++ h₂) c g := by
        cases hg with
        | thing a => rcases LeftOut.mem_of a with e | a; cases e; exact .thing a
        | property a b => rcases LeftOut.mem_of a with e | a; cases e; exact .property a b
        | action a b => rcases LeftOut.mem_of a with e | a; cases e; exact .action a b
        | event a b => rcases LeftOut.mem_of a with e | a; cases e; exact .event a b
      obtain ⟨c', hc', e⟩ := hv'.formSecurity c g _ hg' ⟨l, hl, hn⟩
      exact hnot c' hc' e
    · obtain ⟨c, hc, rfl, rfl⟩ := (C20_securities hr hb m d).1 hd
      rcases hmem c hc with rfl | hc
      · exact hm rfl
      · obtain ⟨c', hc', e⟩ := hv'.comboReferences c hc _ ⟨l, hl, hn⟩
        exact hnot c' hc' e
  · intro hno
    have hdef : ∀ n, History.Defines (h₁ ++ .common (.security s) :: h₂) n → n ≠ securityName s → History.Defines (h₁ ++ h₂) n := by
      rintro n ⟨c, hc, rfl⟩ hn
      rcases hmem c hc with rfl | hc
      · exact absurd rfl hn
      · exact ⟨c, hc, rfl⟩
    refine LeftOut.valid LeftOut.sublist (LeftOut.drop rfl).symm (LeftOut.drop rfl).symm (LeftOut.drop rfl).symm
      (fun n s h => ?_) hv (fun c hc n hn => ?_) (fun c f n hf hn => ?_) fun f n hf hn => ?_
    · rwa [show History.schemaDefinitions (h₁ ++ _ :: h₂) = History.schemaDefinitions (h₁ ++ h₂) from LeftOut.drop rfl]
    · refine hdef n (hv.comboReferences c (hback c hc) n hn) ?_
      rintro rfl
      obtain ⟨l, hl, hn⟩ := hn
      exact hno (.inr ⟨securityName c, _, l, (C20_securities hr hb _ _).2 ⟨c, hback c hc, rfl, rfl⟩, hnot c hc, hl, hn⟩)
    · have hf' := LeftOut.hasForm (LeftOut.sublist (op := .common (.security s))) hf
      refine hdef n (hv.formSecurity c f n hf' hn) ?_
      rintro rfl
      obtain ⟨l, hl, hn⟩ := hn
      exact hno (.inl ⟨c, f.result, l, (hr.hasForm hb).2 ⟨f, hf', rfl⟩, hl, hn⟩)
    · obtain ⟨d, hd⟩ := hv.responseSchemas f n (LeftOut.sublist.subset hf) hn
      rcases LeftOut.mem_of hd with e | hd
      · cases e
      · exact ⟨d, hd⟩

/-- What is built then is the Thing without it. -/
theorem C91_less_security (ho : b'.other = b.other) (hb' : b'.build env = .ok t') : t.LessSecurity (securityName s) t' := by
  have hv := hr.valid_of_build hb
  have hsec : History.securities (h₁ ++ .common (.security s) :: h₂) =
      History.securities h₁ ++ s :: History.securities h₂ := LeftOut.sec_eq
  have hsec' : History.securities (h₁ ++ h₂) = History.securities h₁ ++ History.securities h₂ := securities_append
  have hnot : ∀ c, c ∈ History.securities (h₁ ++ h₂) → securityName c ≠ securityName s := fun c hc => LeftOut.sec_not hv hc
  refine ⟨?_, ?_, fun m d => ?_⟩
  · rw [hr.build_of_valid hv] at hb
    rw [hr'.build_of_valid (hr'.valid_of_build hb')] at hb'
    cases hb
    cases hb'
    rw [hr.supplied, hr'.supplied, ho]
    unfold ThingBuilder.result History.supplied
    dsimp only
    have e1 : History.contexts (h₁ ++ .common (.security s) :: h₂) = History.contexts (h₁ ++ h₂) := LeftOut.drop rfl
    have e2 : History.ids (h₁ ++ .common (.security s) :: h₂) = History.ids (h₁ ++ h₂) := LeftOut.drop rfl
    have e3 : History.attypes (h₁ ++ .common (.security s) :: h₂) = History.attypes (h₁ ++ h₂) := LeftOut.drop rfl
    have e4 : History.titles (h₁ ++ .common (.security s) :: h₂) = History.titles (h₁ ++ h₂) := LeftOut.drop rfl
    have e5 : History.descriptionTexts (h₁ ++ .common (.security s) :: h₂) = History.descriptionTexts (h₁ ++ h₂) := LeftOut.drop rfl
    have e6 : History.descriptions (h₁ ++ .common (.security s) :: h₂) = History.descriptions (h₁ ++ h₂) := LeftOut.drop rfl
    have e7 : History.versions (h₁ ++ .common (.security s) :: h₂) = History.versions (h₁ ++ h₂) := LeftOut.drop rfl
    have e8 : History.createds (h₁ ++ .common (.security s) :: h₂) = History.createds (h₁ ++ h₂) := LeftOut.drop rfl
    have e9 : History.modifieds (h₁ ++ .common (.security s) :: h₂) = History.modifieds (h₁ ++ h₂) := LeftOut.drop rfl
    have e10 : History.supports (h₁ ++ .common (.security s) :: h₂) = History.supports (h₁ ++ h₂) := LeftOut.drop rfl
    have e11 : History.bases (h₁ ++ .common (.security s) :: h₂) = History.bases (h₁ ++ h₂) := LeftOut.drop rfl
    have e12 : History.properties (h₁ ++ .common (.security s) :: h₂) = History.properties (h₁ ++ h₂) := LeftOut.drop rfl
    have e13 : History.actions (h₁ ++ .common (.security s) :: h₂) = History.actions (h₁ ++ h₂) := LeftOut.drop rfl
    have e14 : History.events (h₁ ++ .common (.security s) :: h₂) = History.events (h₁ ++ h₂) := LeftOut.drop rfl
    have e15 : History.links (h₁ ++ .common (.security s) :: h₂) = History.links (h₁ ++ h₂) := LeftOut.drop rfl
    have e16 : History.forms (h₁ ++ .common (.security s) :: h₂) = History.forms (h₁ ++ h₂) := LeftOut.drop rfl
    have e17 : History.uriVariables (h₁ ++ .common (.security s) :: h₂) = History.uriVariables (h₁ ++ h₂) := LeftOut.drop rfl
    have e18 : History.profiles (h₁ ++ .common (.security s) :: h₂) = History.profiles (h₁ ++ h₂) := LeftOut.drop rfl
    have e19 : History.schemaDefinitions (h₁ ++ .common (.security s) :: h₂) = History.schemaDefinitions (h₁ ++ h₂) := LeftOut.drop rfl
    rw [e1, e2, e3, e4, e5, e6, e7, e8, e9, e10, e11, e12, e13, e14, e15, e16, e17, e18, e19]
  · rw [(C02_thing_security hr hb).1, (C02_thing_security hr' hb').1, hsec, hsec', List.filter_append, List.filter_append,
      List.map_append, List.map_append, List.filter_append]
    have hk : ∀ l : List (SecuritySchemeBuilder SchemeSubtype), (∀ c ∈ l, c ∈ History.securities (h₁ ++ h₂)) →
        ((l.filter (·.required)).map securityName).filter (· ≠ securityName s) = (l.filter (·.required)).map securityName :=
      fun l hl => List.filter_eq_self.2 fun n hn => by
        obtain ⟨c, hc, rfl⟩ := List.mem_map.1 hn
        exact decide_eq_true (hnot c (hl c (List.mem_filter.1 hc).1))
    rw [hk _ fun c hc => hsec' ▸ List.mem_append_left _ hc]
    congr 1
    have h2 := hk (History.securities h₂) fun c hc => hsec' ▸ List.mem_append_right _ hc
    rw [List.filter_cons]
    split
    · rw [List.map_cons, List.filter_cons_of_neg (by simp), h2]
    · exact h2.symm
  · rw [C20_securities hr hb, C20_securities hr' hb']
    constructor
    · rintro ⟨c, hc, rfl, rfl⟩
      exact ⟨⟨c, (LeftOut.sublist.filterMap _).subset hc, rfl, rfl⟩, hnot c hc⟩
    · rintro ⟨⟨c, hc, rfl, rfl⟩, hm⟩
      rw [hsec, List.mem_append, List.mem_cons] at hc
      rcases hc with hc | rfl | hc
      · exact ⟨c, hsec' ▸ List.mem_append_left _ hc, rfl, rfl⟩
      · exact absurd rfl hm
      · exact ⟨c, hsec' ▸ List.mem_append_right _ hc, rfl, rfl⟩

end

section
variable {n : String} {s : UDS X} (hr : Reachable X title (h₁ ++ .schemaDefinition n s :: h₂) b)
  (hr' : Reachable X title (h₁ ++ h₂) b') (hb : b.build env = .ok t) (hu : ∀ s', .schemaDefinition n s' ∉ h₁ ++ h₂)
include hr hr' hb hu

/-- The only call that adds a schema definition can be left out just when no form of the Thing itself refers to it. (What the forms of
affordances refer to is not checked, C15.) -/
theorem C91_schema : (∃ t', b'.build env = .ok t') ↔ ¬ t.NeedsSchema n := by
  have hv := hr.valid_of_build hb
  have hsec : History.securities (h₁ ++ .schemaDefinition n s :: h₂) = History.securities (h₁ ++ h₂) := LeftOut.drop rfl
  have hdef : ∀ m, History.Defines (h₁ ++ .schemaDefinition n s :: h₂) m → History.Defines (h₁ ++ h₂) m := fun m h => by
    unfold History.Defines at h ⊢
    rwa [hsec] at h
  rw [C17_exact hr' env]
  constructor
  · rintro hv' ⟨f, l, a, hf, hl, ha, hn⟩
    obtain ⟨g, hg, rfl⟩ := (hr.hasForm hb).1 hf
    cases hg with
    | thing hg =>
      rcases LeftOut.mem_of hg with e | hg
      · cases e
      · have hl' : g.additionalResponses = l := by
          have hl : (if g.additionalResponses = [] then none else some g.additionalResponses) = some l := hl
          split at hl
          · cases hl
          · exact Option.some.inj hl
        obtain ⟨s', hs'⟩ := hv'.responseSchemas g n hg ⟨a, hl' ▸ ha, hn⟩
        exact hu s' hs'
  · intro hno
    refine LeftOut.valid LeftOut.sublist (LeftOut.drop rfl).symm (LeftOut.drop rfl).symm (LeftOut.drop rfl).symm
      (fun m s' h => ?_) hv (fun c hc m hm => ?_) (fun c f m hf hm => ?_) fun f m hf hm => ?_
    · rw [LeftOut.schemas_other fun e => ?_]
      · exact h
      · subst e
        rw [LeftOut.schemas_none hu] at h
        cases h
    · exact hdef m (hv.comboReferences c (hsec ▸ hc) m hm)
    · exact hdef m (hv.formSecurity c f m (LeftOut.hasForm LeftOut.sublist hf) hm)
    · have hf' := LeftOut.sublist (op := .schemaDefinition n s) |>.subset hf
      obtain ⟨d, hd⟩ := hv.responseSchemas f m hf' hm
      rcases LeftOut.mem_of hd with e | hd
      · cases e
        obtain ⟨a, ha, hm⟩ := hm
        refine absurd ⟨f.result, f.additionalResponses, a, (hr.hasForm hb).2 ⟨f, .thing hf', rfl⟩, ?_, ha, hm⟩ hno
        exact if_neg fun e => by rw [e] at ha; cases ha
      · exact ⟨d, hd⟩

/-- What is built then is the Thing without it. -/
theorem C91_less_schema (ho : b'.other = b.other) (hb' : b'.build env = .ok t') : t.LessSchema n t' := by
  have h0 := hb
  have h0' := hb'
  refine ⟨?_, fun m d => ?_⟩
  · rw [hr.build_of_valid (hr.valid_of_build hb)] at hb
    rw [hr'.build_of_valid (hr'.valid_of_build hb')] at hb'
    cases hb
    cases hb'
    rw [hr.supplied, hr'.supplied, ho]
    unfold ThingBuilder.result History.supplied
    dsimp only
    have e1 : History.contexts (h₁ ++ .schemaDefinition n s :: h₂) = History.contexts (h₁ ++ h₂) := LeftOut.drop rfl
    have e2 : History.ids (h₁ ++ .schemaDefinition n s :: h₂) = History.ids (h₁ ++ h₂) := LeftOut.drop rfl
    have e3 : History.attypes (h₁ ++ .schemaDefinition n s :: h₂) = History.attypes (h₁ ++ h₂) := LeftOut.drop rfl
    have e4 : History.titles (h₁ ++ .schemaDefinition n s :: h₂) = History.titles (h₁ ++ h₂) := LeftOut.drop rfl
    have e5 : History.descriptionTexts (h₁ ++ .schemaDefinition n s :: h₂) = History.descriptionTexts (h₁ ++ h₂) := LeftOut.drop rfl
    have e6 : History.descriptions (h₁ ++ .schemaDefinition n s :: h₂) = History.descriptions (h₁ ++ h₂) := LeftOut.drop rfl
    have e7 : History.versions (h₁ ++ .schemaDefinition n s :: h₂) = History.versions (h₁ ++ h₂) := LeftOut.drop rfl
    have e8 : History.createds (h₁ ++ .schemaDefinition n s :: h₂) = History.createds (h₁ ++ h₂) := LeftOut.drop rfl
    have e9 : History.modifieds (h₁ ++ .schemaDefinition n s :: h₂) = History.modifieds (h₁ ++ h₂) := LeftOut.drop rfl
    have e10 : History.supports (h₁ ++ .schemaDefinition n s :: h₂) = History.supports (h₁ ++ h₂) := LeftOut.drop rfl
    have e11 : History.bases (h₁ ++ .schemaDefinition n s :: h₂) = History.bases (h₁ ++ h₂) := LeftOut.drop rfl
    have e12 : History.properties (h₁ ++ .schemaDefinition n s :: h₂) = History.properties (h₁ ++ h₂) := LeftOut.drop rfl
    have e13 : History.actions (h₁ ++ .schemaDefinition n s :: h₂) = History.actions (h₁ ++ h₂) := LeftOut.drop rfl
    have e14 : History.events (h₁ ++ .schemaDefinition n s :: h₂) = History.events (h₁ ++ h₂) := LeftOut.drop rfl
    have e15 : History.links (h₁ ++ .schemaDefinition n s :: h₂) = History.links (h₁ ++ h₂) := LeftOut.drop rfl
    have e16 : History.forms (h₁ ++ .schemaDefinition n s :: h₂) = History.forms (h₁ ++ h₂) := LeftOut.drop rfl
    have e17 : History.uriVariables (h₁ ++ .schemaDefinition n s :: h₂) = History.uriVariables (h₁ ++ h₂) := LeftOut.drop rfl
    have e18 : History.profiles (h₁ ++ .schemaDefinition n s :: h₂) = History.profiles (h₁ ++ h₂) := LeftOut.drop rfl
    have e19 : History.securities (h₁ ++ .schemaDefinition n s :: h₂) = History.securities (h₁ ++ h₂) := LeftOut.drop rfl
    rw [e1, e2, e3, e4, e5, e6, e7, e8, e9, e10, e11, e12, e13, e14, e15, e16, e17, e18, e19]
  · show (∃ _, _) ↔ (∃ _, _) ∧ _
    rw [(C20_schemas hr hb).2.2.1, (C20_schemas hr' hb').2.2.1]
    by_cases hm : m = n
    · subst hm
      rw [LeftOut.schemas_none hu]
      constructor
      · rintro ⟨u, h, -⟩
        cases h
      · exact fun h => absurd rfl h.2
    · rw [LeftOut.schemas_other hm]
      exact ⟨fun h => ⟨h, hm⟩, fun h => h.1⟩

end

/-! ### Examples -/

namespace Demo

theorem part_reachable (l : List (ThingOp Demo.X)) (hl : ∀ op ∈ l, op ∈ history) : Reachable Demo.X "Lamp" l (run l) :=
  run_reachable _ fun op ho => history_built op (hl op ho)

/-- The names under which a list of calls defines schemas. -/
def schemaNames (l : List (ThingOp Demo.X)) : List String := l.flatMap fun
  | .schemaDefinition n _ => [n]
  | _ => []

theorem not_defined {n : String} {l : List (ThingOp Demo.X)} (hn : n ∉ schemaNames l) (s) : .schemaDefinition n s ∉ l :=
  fun hs => hn (List.mem_flatMap.2 ⟨_, hs, List.mem_singleton.2 rfl⟩)

theorem ok_of_isOk {ε α : Type} {x : Except ε α} (h : x.isOk = true) : ∃ t, x = .ok t := by
  cases x with
  | ok t => exact ⟨t, rfl⟩
  | error e => cases h

/-- Nothing refers to the combination: the lamp can do without it. -/
example : ¬ thing.NeedsSecurity "both" ∧ ∃ t', (run (history.take 3 ++ history.drop 4)).build Demo.env = .ok t' ∧
    thing.LessSecurity "both" t' := by
  have hr' := part_reachable (history.take 3 ++ history.drop 4) fun op ho => by
    rcases List.mem_append.1 ho with ho | ho
    · exact List.mem_of_mem_take ho
    · exact List.mem_of_mem_drop ho
  obtain ⟨t', ht⟩ := ok_of_isOk (x := (run (history.take 3 ++ history.drop 4)).build Demo.env) (by decide +kernel)
  exact ⟨(C91_security (h₁ := history.take 3) (h₂ := history.drop 4) (s := combo) reachable hr' built).1 ⟨_, ht⟩, t', ht,
    C91_less_security (h₁ := history.take 3) (h₂ := history.drop 4) (s := combo) reachable hr' built rfl ht⟩

/-- The combination refers to the pre-shared key: that cannot be left out. -/
example : thing.NeedsSecurity "psk" ∧ ∃ e, (run (history.take 5 ++ history.drop 6)).build Demo.env = .error (.err e) := by
  have hr' := part_reachable (history.take 5 ++ history.drop 6) fun op ho => by
    rcases List.mem_append.1 ho with ho | ho
    · exact List.mem_of_mem_take ho
    · exact List.mem_of_mem_drop ho
  refine ⟨Classical.not_not.1 fun hn => ?_, _, rfl⟩
  obtain ⟨t, ht⟩ := (C91_security (h₁ := history.take 5) (h₂ := history.drop 6) (s := psk) reachable hr' built).2 hn
  cases ht

/-- The form of the lamp refers to the schema definition. -/
example : thing.NeedsSchema "err" := by
  have hr' := part_reachable (history.take 10 ++ history.drop 11) fun op ho => by
    rcases List.mem_append.1 ho with ho | ho
    · exact List.mem_of_mem_take ho
    · exact List.mem_of_mem_drop ho
  refine Classical.not_not.1 fun hn => ?_
  obtain ⟨t, ht⟩ := (C91_schema (h₁ := history.take 10) (h₂ := history.drop 11) (n := "err") (s := objectSchema) reachable hr' built
    (not_defined (by decide))).2 hn
  cases ht

/-- Another one is not used. -/
example : ∃ t, (run (history ++ [.schemaDefinition "spare" stringSchema])).build Demo.env = .ok t ∧ ¬ t.NeedsSchema "spare" ∧
    t.LessSchema "spare" thing := by
  have hr := run_reachable (history ++ [.schemaDefinition "spare" stringSchema]) fun op ho => by
    rcases List.mem_append.1 ho with ho | ho
    · exact history_built op ho
    · cases List.mem_singleton.1 ho
      exact stringSchema_built
  have hr' : Reachable Demo.X "Lamp" (history ++ []) builder := reachable
  have hu := not_defined (n := "spare") (l := history ++ []) (by decide)
  obtain ⟨t, ht⟩ := ok_of_isOk (x := (run (history ++ [.schemaDefinition "spare" stringSchema])).build Demo.env) (by decide +kernel)
  exact ⟨t, ht, (C91_schema hr hr' ht hu).1 ⟨_, built⟩, C91_less_schema hr hr' ht hu rfl built⟩

end Demo
end Wot
