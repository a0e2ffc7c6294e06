import Verif.Lemmas.RenameResult
import Verif.Lemmas.BuildableParts
/-
The renamed calls can be made.
-/
namespace Wot
namespace Renamed

variable {X : ExtTypes} {r : Renaming}

/-! ### Forms -/

/-- A form under construction. -/
def formPart {H F : Type} (r : Renaming) (x : FormBuilderF X H F) : FormBuilderF X H F :=
  { x with security := x.security.map (List.map r.security), additionalResponses := x.additionalResponses.map r.response }

theorem formReach {H F : Type} {x : FormBuilderF X H F} (hx : FormReach X x) : FormReach X (formPart r x) := by
  induction hx with
  | new other => exact .new other
  | href v _ ih => exact .href v ih
  | @call H F b op _ ih =>
    cases op with
    | security v =>
      have := FormReach.call (.security (r.security v)) ih
      have e : (formPart r b).apply (.security (r.security v)) = formPart r (b.apply (.security v)) := by
        unfold formPart FormBuilderF.apply optPush
        dsimp only
        cases b.security <;> simp
      rwa [e] at this
    | additionalResponse c =>
      obtain ⟨c', hc'⟩ := additional_calls (r.response (.ofCalls c))
      have := FormReach.call (.additionalResponse c') ih
      have e : (formPart r b).apply (.additionalResponse c') = formPart r (b.apply (.additionalResponse c)) := by
        unfold formPart FormBuilderF.apply
        dsimp only
        rw [hc', List.map_append]; rfl
      rwa [e] at this
    | contentType v => exact .call (.contentType v) ih
    | contentCoding v => exact .call (.contentCoding v) ih
    | subprotocol v => exact .call (.subprotocol v) ih
    | op o => exact .call (.op o) ih
    | scope v => exact .call (.scope v) ih
    | response ct o => exact .call (.response ct o) ih
  | ext f _ ih => exact .ext f ih

/-! ### Affordances -/

/-- The interaction part of an affordance under construction. -/
def interactionPart {I : Type} (r : Renaming) (i : PartialInteraction X I) : PartialInteraction X I :=
  { i with forms := i.forms.map r.formCall }

/-- A call on it. -/
def interactionOp (r : Renaming) : InteractionOp X → InteractionOp X
  | .form x => .form (r.formCall x)
  | .uriVariable n s => .uriVariable n s

theorem interactionOp_built {op : InteractionOp X} (hb : op.Built) : (interactionOp r op).Built := by
  cases op with
  | form x => exact formReach (x := x) hb
  | uriVariable n s => exact hb

theorem interaction_apply {I : Type} {i : PartialInteraction X I} {op : InteractionOp X} :
    (interactionPart r i).apply (interactionOp r op) = interactionPart r (i.apply op) := by
  cases op with
  | form x =>
    show PartialInteraction.mk (_ ++ _) _ _ = PartialInteraction.mk (List.map _ (_ ++ _)) _ _
    rw [List.map_append]; rfl
  | uriVariable n s => rfl

/-- A property under construction. -/
def propertyPart {D I O : Type} (r : Renaming) (p : PropertyBuilderF X D I O) : PropertyBuilderF X D I O :=
  { p with interaction := interactionPart r p.interaction }

theorem propertyReach {D I O : Type} {p : PropertyBuilderF X D I O} (hp : PropertyReach X p) :
    PropertyReach X (propertyPart r p) := by
  induction hp with
  | empty i s o => exact .empty i s o
  | call op hb _ ih =>
    cases op with
    | interaction op =>
      have := PropertyReach.call (.interaction (interactionOp r op)) (interactionOp_built (r := r) hb) ih
      unfold PropertyBuilderF.apply propertyPart at this
      dsimp only at this
      rw [interaction_apply] at this
      exact this
    | info op => exact .call (.info op) trivial ih
    | observable v => exact .call (.observable v) trivial ih
  | mapSchema f _ ih => exact .mapSchema f ih
  | ext f g _ ih => exact .ext f g ih

/-- An action under construction. -/
def actionPart {I O : Type} (r : Renaming) (a : ActionBuilderF X I O) : ActionBuilderF X I O :=
  { a with interaction := { a.interaction with part := interactionPart r a.interaction.part } }

theorem actionReach {I O : Type} {p : ActionBuilderF X I O} (hp : ActionReach X p) : ActionReach X (actionPart r p) := by
  induction hp with
  | empty i o => exact .empty i o
  | call op hb _ ih =>
    cases op with
    | interaction op =>
      have := ActionReach.call (.interaction (interactionOp r op)) (interactionOp_built (r := r) hb) ih
      unfold ActionBuilderF.apply actionPart at this
      dsimp only at this
      rw [interaction_apply] at this
      exact this
    | info op => exact .call (.info op) trivial ih
    | input s => exact .call (.input s) hb ih
    | output s => exact .call (.output s) hb ih
    | safe => exact .call .safe trivial ih
    | idempotent => exact .call .idempotent trivial ih
    | synchronous v => exact .call (.synchronous v) trivial ih
  | ext f g _ ih => exact .ext f g ih

/-- An event under construction. -/
def eventPart {I O : Type} (r : Renaming) (a : EventBuilderF X I O) : EventBuilderF X I O :=
  { a with interaction := { a.interaction with part := interactionPart r a.interaction.part } }

theorem eventReach {I O : Type} {p : EventBuilderF X I O} (hp : EventReach X p) : EventReach X (eventPart r p) := by
  induction hp with
  | empty i o => exact .empty i o
  | call op hb _ ih =>
    cases op with
    | interaction op =>
      have := EventReach.call (.interaction (interactionOp r op)) (interactionOp_built (r := r) hb) ih
      unfold EventBuilderF.apply eventPart at this
      dsimp only at this
      rw [interaction_apply] at this
      exact this
    | info op => exact .call (.info op) trivial ih
    | subscription s => exact .call (.subscription s) hb ih
    | data s => exact .call (.data s) hb ih
    | cancellation s => exact .call (.cancellation s) hb ih
    | dataResponse s => exact .call (.dataResponse s) hb ih
  | ext f g _ ih => exact .ext f g ih

/-! ### Security schemes -/

/-- A call on a security scheme builder. -/
def secOp (r : Renaming) : SecOp → SecOp
  | .allOf l => .allOf (l.map r.security)
  | .oneOf l => .oneOf (l.map r.security)
  | .extend l => .extend (l.map r.security)
  | .push v => .push (r.security v)
  | op => op

/-- The type parameter. -/
def secTag (r : Renaming) : SecTag → SecTag
  | .allOf l => .allOf (l.map r.security)
  | .oneOf l => .oneOf (l.map r.security)
  | t => t

theorem tag_apply {t : SecTag} {op : SecOp} : (secTag r t).apply (secOp r op) = (t.apply op).map (secTag r) := by
  cases t <;> cases op <;> simp [secTag, secOp, SecTag.apply]

theorem tag_combo {t : SecTag} : (secTag r t).isCombo = t.isCombo := by cases t <;> rfl

theorem tag_build {t : SecTag} : (secTag r t).build = t.build.map r.subtype := by cases t <;> rfl

/-- A builder. -/
def secBuilder (r : Renaming) (b : SecuritySchemeBuilder SecTag) : SecuritySchemeBuilder SecTag :=
  { b with subtype := secTag r b.subtype }

theorem sec_apply {b : SecuritySchemeBuilder SecTag} {op : SecOp} :
    (secBuilder r b).apply (secOp r op) = (b.apply op).map (secBuilder r) := by
  have H : ∀ op, ((secTag r b.subtype).apply (secOp r op)).map (fun t => { secBuilder r b with subtype := t }) =
      ((b.subtype.apply op).map fun t => { b with subtype := t }).map (secBuilder r) := fun op => by
    rw [tag_apply, Option.map_map, Option.map_map]; rfl
  cases op with
  | name v =>
    unfold SecuritySchemeBuilder.apply
    show (if (secTag r b.subtype).isCombo then _ else _) = _
    rw [tag_combo]
    show _ = Option.map _ (if b.subtype.isCombo then _ else _)
    split
    · rfl
    · exact H (.name v)
  | attype v => rfl
  | description v => rfl
  | descriptions v => rfl
  | proxy v => rfl
  | withKey v => rfl
  | required => rfl
  | _ => exact H _

theorem sec_fold {l : List SecOp} {b : SecuritySchemeBuilder SecTag} :
    (l.map (secOp r)).foldlM SecuritySchemeBuilder.apply (secBuilder r b) =
      (l.foldlM SecuritySchemeBuilder.apply b).map (secBuilder r) := by
  induction l generalizing b with
  | nil => rfl
  | cons op l ih =>
    rw [List.map_cons, List.foldlM_cons, List.foldlM_cons, sec_apply]
    cases b.apply op with
    | none => rfl
    | some b' => exact ih

theorem security_calls {s : SecuritySchemeBuilder SchemeSubtype} (hs : ∃ calls, SecuritySchemeBuilder.ofCalls calls = some s) :
    ∃ calls, SecuritySchemeBuilder.ofCalls calls = some (r.securityCall s) := by
  obtain ⟨l, hl⟩ := hs
  refine ⟨l.map (secOp r) ++ [.withKey (r.security (securityName s))], ?_⟩
  unfold SecuritySchemeBuilder.ofCalls at hl ⊢
  rw [List.foldlM_append]
  have := sec_fold (r := r) (l := l) (b := { subtype := .unset })
  rw [show secBuilder r { subtype := .unset } = { subtype := .unset } from rfl] at this
  rw [this]
  cases hb : l.foldlM SecuritySchemeBuilder.apply { subtype := .unset } with
  | none => rw [hb] at hl; cases hl
  | some b =>
    rw [hb] at hl
    show ((secTag r b.subtype).build.bind fun s => _) = _
    rw [tag_build]
    change (b.subtype.build.bind fun s => _) = _ at hl
    cases ht : b.subtype.build with
    | none => rw [ht] at hl; cases hl
    | some t => rw [ht] at hl; cases hl; rfl

/-! ### Things -/

theorem call_built {op : ThingOp X} (hb : op.Built) : (r.call op).Built := by
  cases op with
  | common c =>
    cases c with
    | security s => exact security_calls hb
    | _ => exact hb
  | form x => exact formReach (x := x) hb
  | uriVariable n s => exact hb
  | property n p => exact ⟨propertyReach (PropertyBuilder.Built.reach hb), PropertyBuilder.Built.schema (p := p) hb⟩
  | action n a => exact actionReach (p := a) hb
  | event n a => exact eventReach (p := a) hb
  | schemaDefinition n s => exact hb
  | setOther o => trivial

theorem common_other (b : ThingBuilder X) (c : CommonOp) : (b.applyCommon c).other = b.other := by
  cases c <;> (simp only [ThingBuilder.applyCommon]; try split) <;> rfl

theorem commons_other (b : ThingBuilder X) (l : List CommonOp) : (b.run (r.calls (l.map .common))).other = b.other := by
  induction l generalizing b with
  | nil => rfl
  | cons c l ih => cases c <;> exact (ih _).trans (common_other _ _)

theorem run_other {h : List (ThingOp X)} (b b' : ThingBuilder X) (e : b.other = b'.other) :
    (b.run (r.calls h)).other = (b'.run h).other := by
  induction h generalizing b b' with
  | nil => exact e
  | cons op h ih =>
    refine ih _ _ ?_
    cases op with
    | common c =>
      have : ∃ c', r.call (X := X) (.common c) = .common c' := by cases c <;> exact ⟨_, rfl⟩
      obtain ⟨c', hc'⟩ := this
      rw [hc']
      exact (common_other _ _).trans (e.trans (common_other _ _).symm)
    | setOther o => rfl
    | _ => exact e

/-- The program that uses the new names. -/
theorem reachable {title : String} {h : List (ThingOp X)} {b : ThingBuilder X} (hr : Reachable X title h b) :
    ∃ b', Reachable X title (r.calls h) b' ∧ b'.other = b.other := by
  have hb : ∀ op ∈ r.calls h, op.Built := fun op ho => by
    obtain ⟨op, h1, rfl⟩ := List.mem_map.1 ho
    exact call_built (hr.built op h1)
  obtain ⟨hr, -⟩ := hr
  cases hr with
  | @toExtend l _ h1 =>
    exact ⟨_, ⟨Reach.extended (r.calls (l.map .common)) (.new title b.other), hb⟩, commons_other _ _⟩
  | @extended l b0 ops h1 =>
    refine ⟨_, ⟨Reach.extended (r.calls (l.map ThingOp.common ++ ops)) (.new title b0.other), hb⟩, ?_⟩
    unfold Renaming.calls
    rw [List.map_append]
    unfold ThingBuilder.run
    rw [List.foldl_append]
    exact run_other _ _ (commons_other _ _)

end Renamed
end Wot
