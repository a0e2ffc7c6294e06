import Verif.Props.LeftOut
/-
C92: affordances, forms, links and whatever else stands on its own can be left out.
-/
namespace Wot

variable {X : ExtTypes} {title : String} {h₁ h₂ : List (ThingOp X)} {b b' : ThingBuilder X} {env : Env} {t t' : Thing X}

/-- A call that stands on its own can be left out. -/
theorem C92_independent {op : ThingOp X} (ho : op.Independent) (hr : Reachable X title (h₁ ++ op :: h₂) b)
    (hr' : Reachable X title (h₁ ++ h₂) b') (hb : b.build env = .ok t) : ∃ t', b'.build env = .ok t' := by
  have hv := hr.valid_of_build hb
  have hs : History.securities (h₁ ++ op :: h₂) = History.securities (h₁ ++ h₂) := by
    refine LeftOut.drop ?_
    rcases op with (_ | _ | _ | _ | _ | _ | _ | _ | _ | _ | _ | _ | _ | _ | _ | _) | _ | _ | _ | _ | _ | _ | _ <;> first | rfl | exact ho.elim
  have hu : History.uriVariables (h₁ ++ op :: h₂) = History.uriVariables (h₁ ++ h₂) := by
    refine LeftOut.drop ?_
    rcases op with _ | _ | _ | _ | _ | _ | _ | _ <;> first | rfl | exact ho.elim
  have hd : History.schemaDefinitions (h₁ ++ op :: h₂) = History.schemaDefinitions (h₁ ++ h₂) := by
    refine LeftOut.drop ?_
    rcases op with _ | _ | _ | _ | _ | _ | _ | _ <;> first | rfl | exact ho.elim
  have ht : History.titles (h₁ ++ op :: h₂) = History.titles (h₁ ++ h₂) := by
    refine LeftOut.drop ?_
    rcases op with (_ | _ | _ | _ | _ | _ | _ | _ | _ | _ | _ | _ | _ | _ | _ | _) | _ | _ | _ | _ | _ | _ | _ <;> first | rfl | exact ho.elim
  have hds : History.descriptions (h₁ ++ op :: h₂) = History.descriptions (h₁ ++ h₂) := by
    refine LeftOut.drop ?_
    rcases op with (_ | _ | _ | _ | _ | _ | _ | _ | _ | _ | _ | _ | _ | _ | _ | _) | _ | _ | _ | _ | _ | _ | _ <;> first | rfl | exact ho.elim
  have hdef : ∀ m, History.Defines (h₁ ++ op :: h₂) m → History.Defines (h₁ ++ h₂) m := fun m h => by
    unfold History.Defines at h ⊢
    rwa [hs] at h
  refine (C17_exact hr' env).2 (LeftOut.valid LeftOut.sublist hu.symm ht.symm hds.symm (fun n s h => hd ▸ h) hv
    (fun c hc m hm => hdef m (hv.comboReferences c (hs ▸ hc) m hm))
    (fun c f m hf hm => hdef m (hv.formSecurity c f m (LeftOut.hasForm LeftOut.sublist hf) hm)) fun f m hf hm => ?_)
  obtain ⟨d, hd⟩ := hv.responseSchemas f m (LeftOut.sublist.subset hf) hm
  rcases LeftOut.mem_of hd with rfl | hd
  · exact ho.elim
  · exact ⟨d, hd⟩

/-- So can one that is the only one in its place. -/
theorem C92_only_one {op : ThingOp X} (ho : op.OnlyOne (h₁ ++ h₂)) (hr : Reachable X title (h₁ ++ op :: h₂) b)
    (hr' : Reachable X title (h₁ ++ h₂) b') (hb : b.build env = .ok t) : ∃ t', b'.build env = .ok t' := by
  have hv := hr.valid_of_build hb
  have hs : History.securities (h₁ ++ op :: h₂) = History.securities (h₁ ++ h₂) := by
    refine LeftOut.drop ?_
    rcases op with (_ | _ | _ | _ | _ | _ | _ | _ | _ | _ | _ | _ | _ | _ | _ | _) | _ | _ | _ | _ | _ | _ | _ <;> first | rfl | exact ho.elim
  have hd : History.schemaDefinitions (h₁ ++ op :: h₂) = History.schemaDefinitions (h₁ ++ h₂) := by
    refine LeftOut.drop ?_
    rcases op with _ | _ | _ | _ | _ | _ | _ | _ <;> first | rfl | exact ho.elim
  have hu : ∀ n s, lastOf (History.named n (History.uriVariables (h₁ ++ h₂))) = some s →
      lastOf (History.named n (History.uriVariables (h₁ ++ op :: h₂))) = some s := by
    intro n s h
    cases op with
    | uriVariable m d =>
      by_cases e : n = m
      · subst e
        rw [LeftOut.uris_none ho] at h
        cases h
      · rwa [LeftOut.uris_other e]
    | _ => rwa [show History.uriVariables (h₁ ++ _ :: h₂) = History.uriVariables (h₁ ++ h₂) from LeftOut.drop rfl]
  have ht : ∀ c, lastOf (History.titles (h₁ ++ h₂)) = some c → lastOf (History.titles (h₁ ++ op :: h₂)) = some c := by
    intro c h
    by_cases e : ∃ d, op = .common (.titles d)
    · obtain ⟨d, rfl⟩ := e
      obtain ⟨x, hx, hc⟩ := List.mem_filterMap.1 (lastOf_mem h)
      split at hc
      · exact absurd hx (ho _)
      · cases hc
    · rwa [show History.titles (h₁ ++ _ :: h₂) = History.titles (h₁ ++ h₂) from LeftOut.drop (by
        split
        · exact absurd ⟨_, rfl⟩ e
        · rfl)]
  have hds : ∀ c, lastOf (History.descriptions (h₁ ++ h₂)) = some c → lastOf (History.descriptions (h₁ ++ op :: h₂)) = some c := by
    intro c h
    by_cases e : ∃ d, op = .common (.descriptions d)
    · obtain ⟨d, rfl⟩ := e
      obtain ⟨x, hx, hc⟩ := List.mem_filterMap.1 (lastOf_mem h)
      split at hc
      · exact absurd hx (ho _)
      · cases hc
    · rwa [show History.descriptions (h₁ ++ _ :: h₂) = History.descriptions (h₁ ++ h₂) from LeftOut.drop (by
        split
        · exact absurd ⟨_, rfl⟩ e
        · rfl)]
  have hdef : ∀ m, History.Defines (h₁ ++ op :: h₂) m → History.Defines (h₁ ++ h₂) m := fun m h => by
    unfold History.Defines at h ⊢
    rwa [hs] at h
  refine (C17_exact hr' env).2 (LeftOut.valid_of LeftOut.sublist hu ht hds (fun n s h => hd ▸ h) hv
    (fun c hc m hm => hdef m (hv.comboReferences c (hs ▸ hc) m hm))
    (fun c f m hf hm => hdef m (hv.formSecurity c f m (LeftOut.hasForm LeftOut.sublist hf) hm)) fun f m hf hm => ?_)
  obtain ⟨d, hd⟩ := hv.responseSchemas f m (LeftOut.sublist.subset hf) hm
  rcases LeftOut.mem_of hd with rfl | hd
  · exact ho.elim
  · exact ⟨d, hd⟩

/-- Without a property, what is built is the Thing without it. -/
theorem C92_property {n : String} {q : PropertyBuilder X} (hr : Reachable X title (h₁ ++ .property n q :: h₂) b)
    (hr' : Reachable X title (h₁ ++ h₂) b') (hb : b.build env = .ok t) (ho : b'.other = b.other) :
    ∃ t', b'.build env = .ok t' ∧ t.LessProperty n t' := by
  obtain ⟨t', hb'⟩ := C92_independent (op := .property n q) trivial hr hr' hb
  refine ⟨t', hb', ?_, fun m d => ?_⟩
  · rw [hr.build_of_valid (hr.valid_of_build hb)] at hb
    rw [hr'.build_of_valid (hr'.valid_of_build hb')] at hb'
    cases hb
    cases hb'
    rw [hr.supplied, hr'.supplied, ho]
    unfold ThingBuilder.result History.supplied
    dsimp only
    have e0 : History.contexts (h₁ ++ .property n q :: h₂) = History.contexts (h₁ ++ h₂) := LeftOut.drop rfl
    have e1 : History.ids (h₁ ++ .property n q :: h₂) = History.ids (h₁ ++ h₂) := LeftOut.drop rfl
    have e2 : History.attypes (h₁ ++ .property n q :: h₂) = History.attypes (h₁ ++ h₂) := LeftOut.drop rfl
    have e3 : History.titles (h₁ ++ .property n q :: h₂) = History.titles (h₁ ++ h₂) := LeftOut.drop rfl
    have e4 : History.descriptionTexts (h₁ ++ .property n q :: h₂) = History.descriptionTexts (h₁ ++ h₂) := LeftOut.drop rfl
    have e5 : History.descriptions (h₁ ++ .property n q :: h₂) = History.descriptions (h₁ ++ h₂) := LeftOut.drop rfl
    have e6 : History.versions (h₁ ++ .property n q :: h₂) = History.versions (h₁ ++ h₂) := LeftOut.drop rfl
    have e7 : History.createds (h₁ ++ .property n q :: h₂) = History.createds (h₁ ++ h₂) := LeftOut.drop rfl
    have e8 : History.modifieds (h₁ ++ .property n q :: h₂) = History.modifieds (h₁ ++ h₂) := LeftOut.drop rfl
    have e9 : History.supports (h₁ ++ .property n q :: h₂) = History.supports (h₁ ++ h₂) := LeftOut.drop rfl
    have e10 : History.bases (h₁ ++ .property n q :: h₂) = History.bases (h₁ ++ h₂) := LeftOut.drop rfl
    have e11 : History.actions (h₁ ++ .property n q :: h₂) = History.actions (h₁ ++ h₂) := LeftOut.drop rfl
    have e12 : History.events (h₁ ++ .property n q :: h₂) = History.events (h₁ ++ h₂) := LeftOut.drop rfl
    have e13 : History.links (h₁ ++ .property n q :: h₂) = History.links (h₁ ++ h₂) := LeftOut.drop rfl
    have e14 : History.forms (h₁ ++ .property n q :: h₂) = History.forms (h₁ ++ h₂) := LeftOut.drop rfl
    have e15 : History.uriVariables (h₁ ++ .property n q :: h₂) = History.uriVariables (h₁ ++ h₂) := LeftOut.drop rfl
    have e16 : History.profiles (h₁ ++ .property n q :: h₂) = History.profiles (h₁ ++ h₂) := LeftOut.drop rfl
    have e17 : History.schemaDefinitions (h₁ ++ .property n q :: h₂) = History.schemaDefinitions (h₁ ++ h₂) := LeftOut.drop rfl
    have e18 : History.securities (h₁ ++ .property n q :: h₂) = History.securities (h₁ ++ h₂) := LeftOut.drop rfl
    rw [e0, e1, e2, e3, e4, e5, e6, e7, e8, e9, e10, e11, e12, e13, e14, e15, e16, e17, e18]
  · show (∃ _, _) ↔ (∃ _, _) ∧ _
    rw [(C20_affordances hr hb m).1, (C20_affordances hr' hb' m).1]
    have hn := (hr.valid_of_build hb).propertyNames
    have e : History.properties (h₁ ++ .property n q :: h₂) = History.properties h₁ ++ (n, q) :: History.properties h₂ := by
      show List.filterMap _ _ = _
      rw [List.filterMap_append]
      rfl
    rw [e, List.map_append, List.map_cons, List.nodup_append, List.nodup_cons] at hn
    obtain ⟨-, ⟨hn, -⟩, hm⟩ := hn
    constructor
    · rintro ⟨x, hx, rfl⟩
      refine ⟨⟨x, LeftOut.sublist.subset hx, rfl⟩, ?_⟩
      rintro rfl
      rcases List.mem_append.1 hx with hx | hx
      · exact hm _ (List.mem_map.2 ⟨(m, x), List.mem_filterMap.2 ⟨_, hx, rfl⟩, rfl⟩) _ List.mem_cons_self rfl
      · exact hn (List.mem_map.2 ⟨(m, x), List.mem_filterMap.2 ⟨_, hx, rfl⟩, rfl⟩)
    · rintro ⟨⟨x, hx, rfl⟩, hne⟩
      rcases LeftOut.mem_of hx with e | hx
      · cases e
        exact absurd rfl hne
      · exact ⟨x, hx, rfl⟩

/-- Without an action, what is built is the Thing without it. -/
theorem C92_action {n : String} {q : ActionBuilder X} (hr : Reachable X title (h₁ ++ .action n q :: h₂) b)
    (hr' : Reachable X title (h₁ ++ h₂) b') (hb : b.build env = .ok t) (ho : b'.other = b.other) :
    ∃ t', b'.build env = .ok t' ∧ t.LessAction n t' := by
  obtain ⟨t', hb'⟩ := C92_independent (op := .action n q) trivial hr hr' hb
  refine ⟨t', hb', ?_, fun m d => ?_⟩
  · rw [hr.build_of_valid (hr.valid_of_build hb)] at hb
    rw [hr'.build_of_valid (hr'.valid_of_build hb')] at hb'
    cases hb
    cases hb'
    rw [hr.supplied, hr'.supplied, ho]
    unfold ThingBuilder.result History.supplied
    dsimp only
    have e0 : History.contexts (h₁ ++ .action n q :: h₂) = History.contexts (h₁ ++ h₂) := LeftOut.drop rfl
    have e1 : History.ids (h₁ ++ .action n q :: h₂) = History.ids (h₁ ++ h₂) := LeftOut.drop rfl
    have e2 : History.attypes (h₁ ++ .action n q :: h₂) = History.attypes (h₁ ++ h₂) := LeftOut.drop rfl
    have e3 : History.titles (h₁ ++ .action n q :: h₂) = History.titles (h₁ ++ h₂) := LeftOut.drop rfl
    have e4 : History.descriptionTexts (h₁ ++ .action n q :: h₂) = History.descriptionTexts (h₁ ++ h₂) := LeftOut.drop rfl
    have e5 : History.descriptions (h₁ ++ .action n q :: h₂) = History.descriptions (h₁ ++ h₂) := LeftOut.drop rfl
    have e6 : History.versions (h₁ ++ .action n q :: h₂) = History.versions (h₁ ++ h₂) := LeftOut.drop rfl
    have e7 : History.createds (h₁ ++ .action n q :: h₂) = History.createds (h₁ ++ h₂) := LeftOut.drop rfl
    have e8 : History.modifieds (h₁ ++ .action n q :: h₂) = History.modifieds (h₁ ++ h₂) := LeftOut.drop rfl
    have e9 : History.supports (h₁ ++ .action n q :: h₂) = History.supports (h₁ ++ h₂) := LeftOut.drop rfl
    have e10 : History.bases (h₁ ++ .action n q :: h₂) = History.bases (h₁ ++ h₂) := LeftOut.drop rfl
    have e11 : History.properties (h₁ ++ .action n q :: h₂) = History.properties (h₁ ++ h₂) := LeftOut.drop rfl
    have e12 : History.events (h₁ ++ .action n q :: h₂) = History.events (h₁ ++ h₂) := LeftOut.drop rfl
    have e13 : History.links (h₁ ++ .action n q :: h₂) = History.links (h₁ ++ h₂) := LeftOut.drop rfl
    have e14 : History.forms (h₁ ++ .action n q :: h₂) = History.forms (h₁ ++ h₂) := LeftOut.drop rfl
    have e15 : History.uriVariables (h₁ ++ .action n q :: h₂) = History.uriVariables (h₁ ++ h₂) := LeftOut.drop rfl
    have e16 : History.profiles (h₁ ++ .action n q :: h₂) = History.profiles (h₁ ++ h₂) := LeftOut.drop rfl
    have e17 : History.schemaDefinitions (h₁ ++ .action n q :: h₂) = History.schemaDefinitions (h₁ ++ h₂) := LeftOut.drop rfl
    have e18 : History.securities (h₁ ++ .action n q :: h₂) = History.securities (h₁ ++ h₂) := LeftOut.drop rfl
    rw [e0, e1, e2, e3, e4, e5, e6, e7, e8, e9, e10, e11, e12, e13, e14, e15, e16, e17, e18]
  · show (∃ _, _) ↔ (∃ _, _) ∧ _
    rw [(C20_affordances hr hb m).2.1, (C20_affordances hr' hb' m).2.1]
    have hn := (hr.valid_of_build hb).actionNames
    have e : History.actions (h₁ ++ .action n q :: h₂) = History.actions h₁ ++ (n, q) :: History.actions h₂ := by
      show List.filterMap _ _ = _
      rw [List.filterMap_append]
      rfl
    rw [e, List.map_append, List.map_cons, List.nodup_append, List.nodup_cons] at hn
    obtain ⟨-, ⟨hn, -⟩, hm⟩ := hn
    constructor
    · rintro ⟨x, hx, rfl⟩
      refine ⟨⟨x, LeftOut.sublist.subset hx, rfl⟩, ?_⟩
      rintro rfl
      rcases List.mem_append.1 hx with hx | hx
      · exact hm _ (List.mem_map.2 ⟨(m, x), List.mem_filterMap.2 ⟨_, hx, rfl⟩, rfl⟩) _ List.mem_cons_self rfl
      · exact hn (List.mem_map.2 ⟨(m, x), List.mem_filterMap.2 ⟨_, hx, rfl⟩, rfl⟩)
    · rintro ⟨⟨x, hx, rfl⟩, hne⟩
      rcases LeftOut.mem_of hx with e | hx
      · cases e
        exact absurd rfl hne
      · exact ⟨x, hx, rfl⟩

/-- Without an event, what is built is the Thing without it. -/
theorem C92_event {n : String} {q : EventBuilder X} (hr : Reachable X title (h₁ ++ .event n q :: h₂) b)
    (hr' : Reachable X title (h₁ ++ h₂) b') (hb : b.build env = .ok t) (ho : b'.other = b.other) :
    ∃ t', b'.build env = .ok t' ∧ t.LessEvent n t' := by
  obtain ⟨t', hb'⟩ := C92_independent (op := .event n q) trivial hr hr' hb
  refine ⟨t', hb', ?_, fun m d => ?_⟩
  · rw [hr.build_of_valid (hr.valid_of_build hb)] at hb
    rw [hr'.build_of_valid (hr'.valid_of_build hb')] at hb'
    cases hb
    cases hb'
    rw [hr.supplied, hr'.supplied, ho]
    unfold ThingBuilder.result History.supplied
    dsimp only
    have e0 : History.contexts (h₁ ++ .event n q :: h₂) = History.contexts (h₁ ++ h₂) := LeftOut.drop rfl
    have e1 : History.ids (h₁ ++ .event n q :: h₂) = History.ids (h₁ ++ h₂) := LeftOut.drop rfl
    have e2 : History.attypes (h₁ ++ .event n q :: h₂) = History.attypes (h₁ ++ h₂) := LeftOut.drop rfl
    have e3 : History.titles (h₁ ++ .event n q :: h₂) = History.titles (h₁ ++ h₂) := LeftOut.drop rfl
    have e4 : History.descriptionTexts (h₁ ++ .event n q :: h₂) = History.descriptionTexts (h₁ ++ h₂) := LeftOut.drop rfl
    have e5 : History.descriptions (h₁ ++ .event n q :: h₂) = History.descriptions (h₁ ++ h₂) := LeftOut.drop rfl
    have e6 : History.versions (h₁ ++ .event n q :: h₂) = History.versions (h₁ ++ h₂) := LeftOut.drop rfl
    have e7 : History.createds (h₁ ++ .event n q :: h₂) = History.createds (h₁ ++ h₂) := LeftOut.drop rfl
    have e8 : History.modifieds (h₁ ++ .event n q :: h₂) = History.modifieds (h₁ ++ h₂) := LeftOut.drop rfl
    have e9 : History.supports (h₁ ++ .event n q :: h₂) = History.supports (h₁ ++ h₂) := LeftOut.drop rfl
    have e10 : History.bases (h₁ ++ .event n q :: h₂) = History.bases (h₁ ++ h₂) := LeftOut.drop rfl
    have e11 : History.properties (h₁ ++ .event n q :: h₂) = History.properties (h₁ ++ h₂) := LeftOut.drop rfl
    have e12 : History.actions (h₁ ++ .event n q :: h₂) = History.actions (h₁ ++ h₂) := LeftOut.drop rfl
    have e13 : History.links (h₁ ++ .event n q :: h₂) = History.links (h₁ ++ h₂) := LeftOut.drop rfl
    have e14 : History.forms (h₁ ++ .event n q :: h₂) = History.forms (h₁ ++ h₂) := LeftOut.drop rfl
    have e15 : History.uriVariables (h₁ ++ .event n q :: h₂) = History.uriVariables (h₁ ++ h₂) := LeftOut.drop rfl
    have e16 : History.profiles (h₁ ++ .event n q :: h₂) = History.profiles (h₁ ++ h₂) := LeftOut.drop rfl
    have e17 : History.schemaDefinitions (h₁ ++ .event n q :: h₂) = History.schemaDefinitions (h₁ ++ h₂) := LeftOut.drop rfl
    have e18 : History.securities (h₁ ++ .event n q :: h₂) = History.securities (h₁ ++ h₂) := LeftOut.drop rfl
    rw [e0, e1, e2, e3, e4, e5, e6, e7, e8, e9, e10, e11, e12, e13, e14, e15, e16, e17, e18]
  · show (∃ _, _) ↔ (∃ _, _) ∧ _
    rw [(C20_affordances hr hb m).2.2, (C20_affordances hr' hb' m).2.2]
    have hn := (hr.valid_of_build hb).eventNames
    have e : History.events (h₁ ++ .event n q :: h₂) = History.events h₁ ++ (n, q) :: History.events h₂ := by
      show List.filterMap _ _ = _
      rw [List.filterMap_append]
      rfl
    rw [e, List.map_append, List.map_cons, List.nodup_append, List.nodup_cons] at hn
    obtain ⟨-, ⟨hn, -⟩, hm⟩ := hn
    constructor
    · rintro ⟨x, hx, rfl⟩
      refine ⟨⟨x, LeftOut.sublist.subset hx, rfl⟩, ?_⟩
      rintro rfl
      rcases List.mem_append.1 hx with hx | hx
      · exact hm _ (List.mem_map.2 ⟨(m, x), List.mem_filterMap.2 ⟨_, hx, rfl⟩, rfl⟩) _ List.mem_cons_self rfl
      · exact hn (List.mem_map.2 ⟨(m, x), List.mem_filterMap.2 ⟨_, hx, rfl⟩, rfl⟩)
    · rintro ⟨⟨x, hx, rfl⟩, hne⟩
      rcases LeftOut.mem_of hx with e | hx
      · cases e
        exact absurd rfl hne
      · exact ⟨x, hx, rfl⟩

/-- Without a form, what is built is the Thing without it; the others stay in order. -/
theorem C92_form {f : FormBuilder X} (hr : Reachable X title (h₁ ++ .form f :: h₂) b)
    (hr' : Reachable X title (h₁ ++ h₂) b') (hb : b.build env = .ok t) (ho : b'.other = b.other) :
    ∃ t' l₁ l₂, b'.build env = .ok t' ∧ t' = { t with forms := t'.forms } ∧
      t.forms = some (l₁ ++ f.result :: l₂) ∧ t'.forms.getD [] = l₁ ++ l₂ := by
  obtain ⟨t', hb'⟩ := C92_independent (op := .form f) trivial hr hr' hb
  have hb0 := hb
  have hb0' := hb'
  refine ⟨t', (History.forms h₁).map FormBuilder.result, (History.forms h₂).map FormBuilder.result, hb', ?_, ?_, ?_⟩
  · rw [hr.build_of_valid (hr.valid_of_build hb)] at hb
    rw [hr'.build_of_valid (hr'.valid_of_build hb')] at hb'
    cases hb
    cases hb'
    rw [hr.supplied, hr'.supplied, ho]
    unfold ThingBuilder.result History.supplied
    dsimp only
    have e0 : History.contexts (h₁ ++ .form f :: h₂) = History.contexts (h₁ ++ h₂) := LeftOut.drop rfl
    have e1 : History.ids (h₁ ++ .form f :: h₂) = History.ids (h₁ ++ h₂) := LeftOut.drop rfl
    have e2 : History.attypes (h₁ ++ .form f :: h₂) = History.attypes (h₁ ++ h₂) := LeftOut.drop rfl
    have e3 : History.titles (h₁ ++ .form f :: h₂) = History.titles (h₁ ++ h₂) := LeftOut.drop rfl
    have e4 : History.descriptionTexts (h₁ ++ .form f :: h₂) = History.descriptionTexts (h₁ ++ h₂) := LeftOut.drop rfl
    have e5 : History.descriptions (h₁ ++ .form f :: h₂) = History.descriptions (h₁ ++ h₂) := LeftOut.drop rfl
    have e6 : History.versions (h₁ ++ .form f :: h₂) = History.versions (h₁ ++ h₂) := LeftOut.drop rfl
    have e7 : History.createds (h₁ ++ .form f :: h₂) = History.createds (h₁ ++ h₂) := LeftOut.drop rfl
    have e8 : History.modifieds (h₁ ++ .form f :: h₂) = History.modifieds (h₁ ++ h₂) := LeftOut.drop rfl
    have e9 : History.supports (h₁ ++ .form f :: h₂) = History.supports (h₁ ++ h₂) := LeftOut.drop rfl
    have e10 : History.bases (h₁ ++ .form f :: h₂) = History.bases (h₁ ++ h₂) := LeftOut.drop rfl
    have e11 : History.properties (h₁ ++ .form f :: h₂) = History.properties (h₁ ++ h₂) := LeftOut.drop rfl
    have e12 : History.actions (h₁ ++ .form f :: h₂) = History.actions (h₁ ++ h₂) := LeftOut.drop rfl
    have e13 : History.events (h₁ ++ .form f :: h₂) = History.events (h₁ ++ h₂) := LeftOut.drop rfl
    have e14 : History.links (h₁ ++ .form f :: h₂) = History.links (h₁ ++ h₂) := LeftOut.drop rfl
    have e15 : History.uriVariables (h₁ ++ .form f :: h₂) = History.uriVariables (h₁ ++ h₂) := LeftOut.drop rfl
    have e16 : History.profiles (h₁ ++ .form f :: h₂) = History.profiles (h₁ ++ h₂) := LeftOut.drop rfl
    have e17 : History.schemaDefinitions (h₁ ++ .form f :: h₂) = History.schemaDefinitions (h₁ ++ h₂) := LeftOut.drop rfl
    have e18 : History.securities (h₁ ++ .form f :: h₂) = History.securities (h₁ ++ h₂) := LeftOut.drop rfl
    rw [e0, e1, e2, e3, e4, e5, e6, e7, e8, e9, e10, e11, e12, e13, e14, e15, e16, e17, e18]
  · have e : History.forms (h₁ ++ .form f :: h₂) = History.forms h₁ ++ f :: History.forms h₂ := by
      show List.filterMap _ _ = _
      rw [List.filterMap_append]
      rfl
    rw [hr.built_eq hb0]
    show (someList (History.forms (h₁ ++ .form f :: h₂))).map _ = _
    rw [e, someList, if_neg (by simp), Option.map_some, List.map_append, List.map_cons]
  · have e : History.forms (h₁ ++ h₂) = History.forms h₁ ++ History.forms h₂ := List.filterMap_append ..
    rw [hr'.built_eq hb0', ← List.map_append, ← e]
    show ((someList (History.forms (h₁ ++ h₂))).map _).getD [] = _
    unfold someList
    split
    · rename_i e
      rw [e]
      rfl
    · rfl

/-- Without a link, what is built is the Thing without it; the others stay in order. -/
theorem C92_link {pre post : List LinkOp} {href : String} (hr : Reachable X title (h₁ ++ .common (.linkWith pre href post) :: h₂) b)
    (hr' : Reachable X title (h₁ ++ h₂) b') (hb : b.build env = .ok t) (ho : b'.other = b.other) :
    ∃ t' l₁ l₂, b'.build env = .ok t' ∧ t' = { t with links := t'.links } ∧
      t.links = some (l₁ ++ linkResult env (.ofCalls pre href post) :: l₂) ∧ t'.links.getD [] = l₁ ++ l₂ := by
  obtain ⟨t', hb'⟩ := C92_independent (op := .common (.linkWith pre href post)) trivial hr hr' hb
  have hb0 := hb
  have hb0' := hb'
  refine ⟨t', (History.links h₁).map (linkResult env), (History.links h₂).map (linkResult env), hb', ?_, ?_, ?_⟩
  · rw [hr.build_of_valid (hr.valid_of_build hb)] at hb
    rw [hr'.build_of_valid (hr'.valid_of_build hb')] at hb'
    cases hb
    cases hb'
    rw [hr.supplied, hr'.supplied, ho]
    unfold ThingBuilder.result History.supplied
    dsimp only
    have e0 : History.contexts (h₁ ++ .common (.linkWith pre href post) :: h₂) = History.contexts (h₁ ++ h₂) := LeftOut.drop rfl
    have e1 : History.ids (h₁ ++ .common (.linkWith pre href post) :: h₂) = History.ids (h₁ ++ h₂) := LeftOut.drop rfl
    have e2 : History.attypes (h₁ ++ .common (.linkWith pre href post) :: h₂) = History.attypes (h₁ ++ h₂) := LeftOut.drop rfl
    have e3 : History.titles (h₁ ++ .common (.linkWith pre href post) :: h₂) = History.titles (h₁ ++ h₂) := LeftOut.drop rfl
    have e4 : History.descriptionTexts (h₁ ++ .common (.linkWith pre href post) :: h₂) = History.descriptionTexts (h₁ ++ h₂) := LeftOut.drop rfl
    have e5 : History.descriptions (h₁ ++ .common (.linkWith pre href post) :: h₂) = History.descriptions (h₁ ++ h₂) := LeftOut.drop rfl
    have e6 : History.versions (h₁ ++ .common (.linkWith pre href post) :: h₂) = History.versions (h₁ ++ h₂) := LeftOut.drop rfl
    have e7 : History.createds (h₁ ++ .common (.linkWith pre href post) :: h₂) = History.createds (h₁ ++ h₂) := LeftOut.drop rfl
    have e8 : History.modifieds (h₁ ++ .common (.linkWith pre href post) :: h₂) = History.modifieds (h₁ ++ h₂) := LeftOut.drop rfl
    have e9 : History.supports (h₁ ++ .common (.linkWith pre href post) :: h₂) = History.supports (h₁ ++ h₂) := LeftOut.drop rfl
    have e10 : History.bases (h₁ ++ .common (.linkWith pre href post) :: h₂) = History.bases (h₁ ++ h₂) := LeftOut.drop rfl
    have e11 : History.properties (h₁ ++ .common (.linkWith pre href post) :: h₂) = History.properties (h₁ ++ h₂) := LeftOut.drop rfl
    have e12 : History.actions (h₁ ++ .common (.linkWith pre href post) :: h₂) = History.actions (h₁ ++ h₂) := LeftOut.drop rfl
    have e13 : History.events (h₁ ++ .common (.linkWith pre href post) :: h₂) = History.events (h₁ ++ h₂) := LeftOut.drop rfl
    have e14 : History.forms (h₁ ++ .common (.linkWith pre href post) :: h₂) = History.forms (h₁ ++ h₂) := LeftOut.drop rfl
    have e15 : History.uriVariables (h₁ ++ .common (.linkWith pre href post) :: h₂) = History.uriVariables (h₁ ++ h₂) := LeftOut.drop rfl
    have e16 : History.profiles (h₁ ++ .common (.linkWith pre href post) :: h₂) = History.profiles (h₁ ++ h₂) := LeftOut.drop rfl
    have e17 : History.schemaDefinitions (h₁ ++ .common (.linkWith pre href post) :: h₂) = History.schemaDefinitions (h₁ ++ h₂) := LeftOut.drop rfl
    have e18 : History.securities (h₁ ++ .common (.linkWith pre href post) :: h₂) = History.securities (h₁ ++ h₂) := LeftOut.drop rfl
    rw [e0, e1, e2, e3, e4, e5, e6, e7, e8, e9, e10, e11, e12, e13, e14, e15, e16, e17, e18]
  · have e : History.links (h₁ ++ .common (.linkWith pre href post) :: h₂) = History.links h₁ ++ .ofCalls pre href post :: History.links h₂ := by
      show List.filterMap _ _ = _
      rw [List.filterMap_append]
      rfl
    rw [hr.built_eq hb0]
    show (someList (History.links (h₁ ++ .common (.linkWith pre href post) :: h₂))).map _ = _
    rw [e, someList, if_neg (by simp), Option.map_some, List.map_append, List.map_cons]
  · have e : History.links (h₁ ++ h₂) = History.links h₁ ++ History.links h₂ := List.filterMap_append ..
    rw [hr'.built_eq hb0', ← List.map_append, ← e]
    show ((someList (History.links (h₁ ++ h₂))).map _).getD [] = _
    unfold someList
    split
    · rename_i e
      rw [e]
      rfl
    · rfl

/-! ### Examples -/

namespace Demo

theorem without_reachable (i j : Nat) : Reachable Demo.X "Lamp" (history.take i ++ history.drop j) (run (history.take i ++ history.drop j)) :=
  part_reachable _ fun op ho => by
    rcases List.mem_append.1 ho with ho | ho
    · exact List.mem_of_mem_take ho
    · exact List.mem_of_mem_drop ho

/-- The lamp without its form, of which the schema definition and the basic scheme are parts that stay. -/
example : ∃ t', (run (history.take 9 ++ history.drop 10)).build Demo.env = .ok t' :=
  C92_independent (h₁ := history.take 9) (h₂ := history.drop 10) (op := .form thingForm) trivial reachable (without_reachable 9 10) built

/-- The lamp without its titles, and without its URI variable. -/
example : (∃ t', (run (history.take 2 ++ history.drop 3)).build Demo.env = .ok t') ∧
    ∃ t', (run (history.take 11 ++ history.drop 12)).build Demo.env = .ok t' := by
  refine ⟨C92_only_one (h₁ := history.take 2) (h₂ := history.drop 3) (op := .common (.titles [("en", "Lamp"), ("it", "Lampada")]))
    (fun c hc => ?_) reachable (without_reachable 2 3) built,
    C92_only_one (h₁ := history.take 11) (h₂ := history.drop 12) (op := .uriVariable "q" stringSchema)
    (fun c hc => ?_) reachable (without_reachable 11 12) built⟩
  · simp [history, link] at hc
  · simp [history, link] at hc

/-- It was the only form, so there is none left. -/
example : ∃ t', (run (history.take 9 ++ history.drop 10)).build Demo.env = .ok t' ∧ t'.forms.getD [] = [] := by
  obtain ⟨t', l₁, l₂, h, -, hf, hf'⟩ := C92_form (h₁ := history.take 9) (h₂ := history.drop 10) (f := thingForm) reachable
    (without_reachable 9 10) built rfl
  have hl : t'.forms.getD [] = [] := by
    have e : thing.forms = some [thingForm.result] := rfl
    rw [e] at hf
    have := congrArg List.length (Option.some.inj hf)
    rw [hf']
    refine List.length_eq_zero_iff.1 ?_
    rw [List.length_append, List.length_singleton, List.length_cons] at this
    rw [List.length_append]
    omega
  exact ⟨t', h, hl⟩

/-- One of the two links of the lamp. -/
example : ∃ t', (run (history.take 6 ++ history.drop 7)).build Demo.env = .ok t' ∧ (t'.links.getD []).length = 1 := by
  obtain ⟨t', l₁, l₂, h, -, hf, hf'⟩ := C92_link (h₁ := history.take 6) (h₂ := history.drop 7) reachable (without_reachable 6 7) built rfl
  have hn := congrArg (fun o => (o.getD []).length) hf
  have e : (thing.links.getD []).length = 2 := rfl
  refine ⟨t', h, ?_⟩
  rw [hf', List.length_append]
  have hn : (thing.links.getD []).length = _ := hn
  rw [e] at hn
  simp at hn
  omega

/-- The lamp without a property, which it had. -/
example : ∃ n q t', .property n q ∈ history ∧ (run (history.take 12 ++ history.drop 13)).build Demo.env = .ok t' ∧
    thing.LessProperty n t' := by
  obtain ⟨t', h⟩ := C92_property (h₁ := history.take 12) (h₂ := history.drop 13) reachable (without_reachable 12 13) built rfl
  exact ⟨_, _, t', List.mem_append_right (history.take 12) (List.mem_cons_self (l := history.drop 13)), h⟩

/-- The lamp without an action. -/
example : ∃ n q t', .action n q ∈ history ∧ (run (history.take 13 ++ history.drop 14)).build Demo.env = .ok t' ∧
    thing.LessAction n t' := by
  obtain ⟨t', h⟩ := C92_action (h₁ := history.take 13) (h₂ := history.drop 14) reachable (without_reachable 13 14) built rfl
  exact ⟨_, _, t', List.mem_append_right (history.take 13) (List.mem_cons_self (l := history.drop 14)), h⟩

/-- The lamp without an event. -/
example : ∃ n q t', .event n q ∈ history ∧ (run (history.take 14 ++ history.drop 15)).build Demo.env = .ok t' ∧
    thing.LessEvent n t' := by
  obtain ⟨t', h⟩ := C92_event (h₁ := history.take 14) (h₂ := history.drop 15) reachable (without_reachable 14 15) built rfl
  exact ⟨_, _, t', List.mem_append_right (history.take 14) (List.mem_cons_self (l := history.drop 15)), h⟩

end Demo

/-- The other calls cannot be left out in general: a URI variable that is an object is an error, unless a later call replaces it. -/
theorem C92_replaced : ∃ (n : String) (s s' : UDS Demo.X) (b b' : ThingBuilder Demo.X) (t : Thing Demo.X),
    Reachable Demo.X "Lamp" [.uriVariable n s, .uriVariable n s'] b ∧ Reachable Demo.X "Lamp" [.uriVariable n s] b' ∧
    b.build Demo.env = .ok t ∧ b'.build Demo.env = .error (.err .invalidUriVariables) := by
  have hr := Demo.run_reachable [.uriVariable "q" Demo.objectSchema, .uriVariable "q" Demo.stringSchema] fun op ho => by
    rcases List.mem_cons.1 ho with rfl | ho
    · exact Demo.objectSchema_built
    · cases List.mem_singleton.1 ho
      exact Demo.stringSchema_built
  have hr' := Demo.run_reachable [.uriVariable "q" Demo.objectSchema] fun op ho => by
    cases List.mem_singleton.1 ho
    exact Demo.objectSchema_built
  obtain ⟨t, ht⟩ := Demo.ok_of_isOk (x := (Demo.run [.uriVariable "q" Demo.objectSchema,
    .uriVariable "q" Demo.stringSchema]).build Demo.env) (by decide +kernel)
  exact ⟨"q", _, _, _, _, t, hr, hr', ht, rfl⟩

end Wot
