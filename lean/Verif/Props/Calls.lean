import Verif.Spec.Calls
import Verif.Lemmas.SchemaHistory
import Verif.Props.Demo
/-
C44–C47: forms, affordances, links and security schemes are exactly what the calls on their builders
say.
-/
set_option linter.unusedSimpArgs false

namespace Wot

variable {X : ExtTypes}

/-! ### C44: forms -/

private theorem response_ofCalls (l : List RespOp) :
    AdditionalResponse.ofCalls l = ResponseCalls.response l := by
  induction l using snoc_induction with
  | nil => rfl
  | snoc l a ih =>
    unfold AdditionalResponse.ofCalls at ih ⊢
    rw [List.foldl_append, ih]
    cases a <;> simp [AdditionalResponse.apply, ResponseCalls.response, ResponseCalls.successes,
      ResponseCalls.contentTypes, ResponseCalls.schemas, List.filterMap_append, lastOf_append]

/-- Every form builder the API yields comes from a list of calls. -/
theorem C44_all {H F : Type} {b : FormBuilderF X H F} (hr : FormReach X b) :
    ∃ hs ops, FormCalls X hs ops b := by
  induction hr with
  | new o => exact ⟨[], [], .new o⟩
  | href v _ ih => obtain ⟨hs, ops, h⟩ := ih; exact ⟨_, _, .href v h⟩
  | call op _ ih => obtain ⟨hs, ops, h⟩ := ih; exact ⟨_, _, .call op h⟩
  | ext f _ ih => obtain ⟨hs, ops, h⟩ := ih; exact ⟨_, _, .ext f h⟩

private theorem unit_ne_string : (Unit : Type) ≠ String := fun h => by
  have : ∀ a b : String, a = b := h ▸ (fun _ _ : Unit => rfl)
  exact absurd (this "" "a") (by decide)

private theorem form_href {H F : Type} {hs : List String} {ops : List (FormOp X)}
    {b : FormBuilderF X H F} (hc : FormCalls X hs ops b) :
    (H = Unit ∧ hs = []) ∨ ∃ e : H = String, hs = [cast e b.href] := by
  induction hc with
  | new o => exact .inl ⟨rfl, rfl⟩
  | href v _ ih =>
    rcases ih with ⟨_, rfl⟩ | ⟨e, _⟩
    · exact .inr ⟨rfl, rfl⟩
    · exact absurd e unit_ne_string
  | call op _ ih =>
    rcases ih with h | ⟨e, h⟩
    · exact .inl h
    · subst e; refine .inr ⟨rfl, ?_⟩; cases op <;> exact h
  | ext f _ ih => exact ih

private theorem ops_push (l : List FormOperation) (o : FormOperation) :
    (if l = [] then FormOps.default else .custom l).push o =
      if l ++ [o] = [] then .default else .custom (l ++ [o]) := by
  cases l <;> simp [FormOps.push]

private theorem form_fields {H F : Type} {hs : List String} {ops : List (FormOp X)}
    {b : FormBuilderF X H F} (hc : FormCalls X hs ops b) :
    (b.op = if FormCalls.operations ops = [] then .default else .custom (FormCalls.operations ops)) ∧
    b.contentType = lastOf (FormCalls.contentTypes ops) ∧
    b.contentCoding = lastOf (FormCalls.contentCodings ops) ∧
    b.subprotocol = lastOf (FormCalls.subprotocols ops) ∧
    b.security = someList (FormCalls.securities ops) ∧
    b.scopes = someList (FormCalls.scopes ops) ∧
    b.response = lastOf (FormCalls.responses ops) ∧
    b.additionalResponses = FormCalls.additionalResponses ops := by
  induction hc with
  | new o => exact ⟨rfl, rfl, rfl, rfl, rfl, rfl, rfl, rfl⟩
  | href v _ ih => exact ih
  | ext f _ ih => exact ih
  | @call H F hs ops b op _ ih =>
    obtain ⟨h1, h2, h3, h4, h5, h6, h7, h8⟩ := ih
    cases op <;>
      simp only [FormBuilderF.apply, FormCalls.operations, FormCalls.contentTypes,
        FormCalls.contentCodings, FormCalls.subprotocols, FormCalls.securities, FormCalls.scopes,
        FormCalls.responses, FormCalls.additionalResponses, List.filterMap_append, List.filterMap_cons,
        List.filterMap_nil, List.append_nil, lastOf_append, response_ofCalls, ← optPush_someList] <;>
      refine ⟨?_, ?_, ?_, ?_, ?_, ?_, ?_, ?_⟩ <;>
      first
        | exact h1 | exact h2 | exact h3 | exact h4 | exact h5 | exact h6 | exact h7 | exact h8
        | rfl
        | trivial
        | (rw [h5]; rfl) | (rw [h6]; rfl) | (rw [h8]; rfl)
        | (rw [h1]; exact ops_push _ _)

/-- C44: a form is the one described by the calls on its builder: see `FormCalls.form`. -/
theorem C44_form {hs : List String} {ops : List (FormOp X)} {b : FormBuilder X}
    (hc : FormCalls X hs ops b) :
    ∃ href, hs = [href] ∧ FormBuilder.toForm b = FormCalls.form ops href b.other := by
  obtain ⟨h1, h2, h3, h4, h5, h6, h7, h8⟩ := form_fields hc
  rcases form_href hc with ⟨e, _⟩ | ⟨_, e⟩
  · exact absurd e.symm unit_ne_string
  · refine ⟨b.href, e, ?_⟩
    unfold FormBuilder.toForm FormCalls.form
    rw [h1, h2, h3, h4, h5, h6, h7, h8]
    congr 1
    unfold nonEmpty someList
    cases FormCalls.additionalResponses ops <;> rfl

/-- A form built by seven calls. -/
example : ∃ b : FormBuilder .nil,
    FormCalls .nil ["/a"] [.op .readProperty, .scope "x", .contentType "a/b", .scope "y",
      .contentType "c/d", .additionalResponse [.schema "s", .success]] b ∧
    FormBuilder.toForm b =
      { op := .custom [.readProperty], href := "/a", contentType := some "c/d", contentCoding := none,
        subprotocol := none, security := none, scopes := some ["x", "y"], response := none,
        additionalResponses := some [{ success := true, schema := some "s" }], other := () } :=
  ⟨_, .call (hs := ["/a"]) (ops := [_, _, _, _, _]) _ (.call (ops := [_, _, _, _]) _
    (.call (ops := [_, _, _]) _ (.href (hs := []) "/a" (.call (ops := [_, _]) _ (.call (ops := [_]) _
      (.call (ops := []) _ (.new ()))))))), rfl⟩

/-! ### C45: affordances -/

private theorem infoOf_apply (l : List InfoOp) (o : InfoOp) : infoOf (l ++ [o]) = (infoOf l).apply o := by
  cases o <;>
    simp [infoOf, HumanReadableInfo.apply, SchemaCalls.attypes, SchemaCalls.titleTexts,
      SchemaCalls.titles, SchemaCalls.descriptionTexts, SchemaCalls.descriptions,
      List.filterMap_append, lastOf_append, optPush_someList, ofCalls_eq]

theorem C45_all_properties {D I O : Type} {b : PropertyBuilderF X D I O} (hr : PropertyReach X b) :
    ∃ ops, (∀ op ∈ ops, op.Built) ∧ PropertyCalls X ops b := by
  induction hr with
  | empty i d o => exact ⟨[], nofun, .empty i d o⟩
  | call op hb _ ih =>
    obtain ⟨ops, h1, h2⟩ := ih
    refine ⟨ops ++ [op], fun o ho => ?_, .call op h2⟩
    rcases List.mem_append.1 ho with ho | ho
    · exact h1 o ho
    · simp only [List.mem_singleton] at ho; subst ho; exact hb
  | mapSchema f _ ih => obtain ⟨ops, h1, h2⟩ := ih; exact ⟨ops, h1, .mapSchema f h2⟩
  | ext f g _ ih => obtain ⟨ops, h1, h2⟩ := ih; exact ⟨ops, h1, .ext f g h2⟩

theorem C45_all_actions {I O : Type} {b : ActionBuilderF X I O} (hr : ActionReach X b) :
    ∃ ops, (∀ op ∈ ops, op.Built) ∧ ActionCalls X ops b := by
  induction hr with
  | empty i o => exact ⟨[], nofun, .empty i o⟩
  | call op hb _ ih =>
    obtain ⟨ops, h1, h2⟩ := ih
    refine ⟨ops ++ [op], fun o ho => ?_, .call op h2⟩
    rcases List.mem_append.1 ho with ho | ho
    · exact h1 o ho
    · simp only [List.mem_singleton] at ho; subst ho; exact hb
  | ext f g _ ih => obtain ⟨ops, h1, h2⟩ := ih; exact ⟨ops, h1, .ext f g h2⟩

theorem C45_all_events {I O : Type} {b : EventBuilderF X I O} (hr : EventReach X b) :
    ∃ ops, (∀ op ∈ ops, op.Built) ∧ EventCalls X ops b := by
  induction hr with
  | empty i o => exact ⟨[], nofun, .empty i o⟩
  | call op hb _ ih =>
    obtain ⟨ops, h1, h2⟩ := ih
    refine ⟨ops ++ [op], fun o ho => ?_, .call op h2⟩
    rcases List.mem_append.1 ho with ho | ho
    · exact h1 o ho
    · simp only [List.mem_singleton] at ho; subst ho; exact hb
  | ext f g _ ih => obtain ⟨ops, h1, h2⟩ := ih; exact ⟨ops, h1, .ext f g h2⟩

private theorem interaction_snoc {O : Type} {b : PartialInteraction X O} {l : List (InteractionOp X)}
    (h1 : b.forms = InteractionCalls.forms l)
    (h2 : b.uriVariables = HMap.collect (InteractionCalls.uriVariables l)) (op : InteractionOp X) :
    (b.apply op).forms = InteractionCalls.forms (l ++ [op]) ∧
    (b.apply op).uriVariables = HMap.collect (InteractionCalls.uriVariables (l ++ [op])) := by
  cases op <;>
    simp [PartialInteraction.apply, InteractionCalls.forms, InteractionCalls.uriVariables,
      List.filterMap_append, h1, h2, collect_append]

/-- C45: the members of a property affordance other than those of its data schema are what the calls
on its builder say. -/
theorem C45_property {D I O : Type} {ops : List (PropertyOp X)} {b : PropertyBuilderF X D I O}
    (hc : PropertyCalls X ops b) :
    b.info = infoOf (PropertyCalls.infos ops) ∧
    b.interaction.forms = InteractionCalls.forms (PropertyCalls.interactions ops) ∧
    b.interaction.uriVariables =
      HMap.collect (InteractionCalls.uriVariables (PropertyCalls.interactions ops)) ∧
    b.observable = lastOf (PropertyCalls.observables ops) := by
  induction hc with
  | empty i d o => exact ⟨rfl, rfl, rfl, rfl⟩
  | mapSchema f _ ih => exact ih
  | ext f g _ ih => exact ih
  | @call D I O ops b op _ ih =>
    obtain ⟨h1, h2, h3, h4⟩ := ih
    cases op with
    | interaction op =>
      obtain ⟨h5, h6⟩ := interaction_snoc h2 h3 op
      simp only [PropertyBuilderF.apply, PropertyCalls.infos, PropertyCalls.interactions,
        PropertyCalls.observables, List.filterMap_append, List.filterMap_cons, List.filterMap_nil,
        List.append_nil]
      exact ⟨h1, h5, h6, h4⟩
    | info op =>
      simp only [PropertyBuilderF.apply, PropertyCalls.infos, PropertyCalls.interactions,
        PropertyCalls.observables, List.filterMap_append, List.filterMap_cons, List.filterMap_nil,
        List.append_nil, infoOf_apply]
      exact ⟨congrArg (·.apply op) h1, h2, h3, h4⟩
    | observable v =>
      simp only [PropertyBuilderF.apply, PropertyCalls.infos, PropertyCalls.interactions,
        PropertyCalls.observables, List.filterMap_append, List.filterMap_cons, List.filterMap_nil,
        List.append_nil, lastOf_append]
      exact ⟨h1, h2, h3, trivial⟩

/-- C45: the same for actions. -/
theorem C45_action {I O : Type} {ops : List (ActionOp X)} {b : ActionBuilderF X I O}
    (hc : ActionCalls X ops b) :
    b.interaction.info = infoOf (ActionCalls.infos ops) ∧
    b.interaction.part.forms = InteractionCalls.forms (ActionCalls.interactions ops) ∧
    b.interaction.part.uriVariables =
      HMap.collect (InteractionCalls.uriVariables (ActionCalls.interactions ops)) ∧
    b.input = lastOf (ActionCalls.inputs ops) ∧
    b.output = lastOf (ActionCalls.outputs ops) ∧
    (b.safe = true ↔ ActionCalls.safes ops ≠ []) ∧
    (b.idempotent = true ↔ ActionCalls.idempotents ops ≠ []) ∧
    b.synchronous = lastOf (ActionCalls.synchronouses ops) := by
  induction hc with
  | empty i o => exact ⟨rfl, rfl, rfl, rfl, rfl, ⟨nofun, nofun⟩, ⟨nofun, nofun⟩, rfl⟩
  | ext f g _ ih => exact ih
  | @call I O ops b op _ ih =>
    obtain ⟨h1, h2, h3, h4, h5, h6, h7, h8⟩ := ih
    cases op with
    | interaction op =>
      obtain ⟨h9, h10⟩ := interaction_snoc h2 h3 op
      simp only [ActionBuilderF.apply, ActionCalls.infos, ActionCalls.interactions, ActionCalls.inputs,
        ActionCalls.outputs, ActionCalls.safes, ActionCalls.idempotents, ActionCalls.synchronouses,
        List.filterMap_append, List.filterMap_cons, List.filterMap_nil, List.append_nil] at *
      exact ⟨h1, h9, h10, h4, h5, h6, h7, h8⟩
    | info op =>
      simp only [ActionBuilderF.apply, ActionCalls.infos, ActionCalls.interactions, ActionCalls.inputs,
        ActionCalls.outputs, ActionCalls.safes, ActionCalls.idempotents, ActionCalls.synchronouses,
        List.filterMap_append, List.filterMap_cons, List.filterMap_nil, List.append_nil,
        infoOf_apply] at *
      exact ⟨congrArg (·.apply op) h1, h2, h3, h4, h5, h6, h7, h8⟩
    | _ =>
      simp [ActionBuilderF.apply, ActionCalls.infos, ActionCalls.interactions, ActionCalls.inputs,
        ActionCalls.outputs, ActionCalls.safes, ActionCalls.idempotents, ActionCalls.synchronouses,
        List.filterMap_append, lastOf_append] at *
      simp [h1, h2, h3, h4, h5, h6, h7, h8]

/-- C45: the same for events. -/
theorem C45_event {I O : Type} {ops : List (EventOp X)} {b : EventBuilderF X I O}
    (hc : EventCalls X ops b) :
    b.interaction.info = infoOf (EventCalls.infos ops) ∧
    b.interaction.part.forms = InteractionCalls.forms (EventCalls.interactions ops) ∧
    b.interaction.part.uriVariables =
      HMap.collect (InteractionCalls.uriVariables (EventCalls.interactions ops)) ∧
    b.subscription = lastOf (EventCalls.subscriptions ops) ∧
    b.data = lastOf (EventCalls.datas ops) ∧
    b.cancellation = lastOf (EventCalls.cancellations ops) ∧
    b.dataResponse = lastOf (EventCalls.dataResponses ops) := by
  induction hc with
  | empty i o => exact ⟨rfl, rfl, rfl, rfl, rfl, rfl, rfl⟩
  | ext f g _ ih => exact ih
  | @call I O ops b op _ ih =>
    obtain ⟨h1, h2, h3, h4, h5, h6, h7⟩ := ih
    cases op with
    | interaction op =>
      obtain ⟨h9, h10⟩ := interaction_snoc h2 h3 op
      simp only [EventBuilderF.apply, EventCalls.infos, EventCalls.interactions,
        EventCalls.subscriptions, EventCalls.datas, EventCalls.cancellations, EventCalls.dataResponses,
        List.filterMap_append, List.filterMap_cons, List.filterMap_nil, List.append_nil] at *
      exact ⟨h1, h9, h10, h4, h5, h6, h7⟩
    | info op =>
      simp only [EventBuilderF.apply, EventCalls.infos, EventCalls.interactions,
        EventCalls.subscriptions, EventCalls.datas, EventCalls.cancellations, EventCalls.dataResponses,
        List.filterMap_append, List.filterMap_cons, List.filterMap_nil, List.append_nil,
        infoOf_apply] at *
      exact ⟨congrArg (·.apply op) h1, h2, h3, h4, h5, h6, h7⟩
    | _ =>
      simp [EventBuilderF.apply, EventCalls.infos, EventCalls.interactions,
        EventCalls.subscriptions, EventCalls.datas, EventCalls.cancellations, EventCalls.dataResponses,
        List.filterMap_append, lastOf_append] at *
      simp [h1, h2, h3, h4, h5, h6, h7]

/-- An action built by five calls. -/
example : ∃ b : ActionBuilder .nil,
    ActionCalls .nil [.safe, .info (.title "a"), .info (.title "b"),
      .interaction (.uriVariable "v" (.default ())), .synchronous true] b ∧
    b.safe = true ∧ b.interaction.info.title = some "b" ∧ b.interaction.part.uriVariables.keys = ["v"] :=
  ⟨_, .call (ops := [_, _, _, _]) _ (.call (ops := [_, _, _]) _ (.call (ops := [_, _]) _
    (.call (ops := [_]) _ (.call (ops := []) _ (.empty () ()))))), rfl, rfl, rfl⟩

/-! ### C46: security schemes -/

open SecCalls

/-- The state of a security scheme builder, given the call that chose the kind (if any). -/
private def tagOf (l : List SecOp) : SecOp → SecTag
  | .noSec => .noSec
  | .auto => .auto
  | .combo =>
    if allOfs l ≠ [] then .allOf (members l)
    else if oneOfs l ≠ [] then .oneOf (members l)
    else .emptyCombo
  | .basic => .basic { location := (lastOf (locations l)).getD .header, name := lastOf (names l) }
  | .digest =>
    .digest { qop := (lastOf (qops l)).getD .auth, location := (lastOf (locations l)).getD .header,
              name := lastOf (names l) }
  | .apiKey => .apiKey { location := (lastOf (locations l)).getD .query, name := lastOf (names l) }
  | .bearer =>
    .bearer { authorization := lastOf (authorizations l), alg := (lastOf (algs l)).getD "ES256",
              format := (lastOf (formats l)).getD "jwt",
              location := (lastOf (locations l)).getD .header, name := lastOf (names l) }
  | .psk => .psk { identity := none }
  | .oauth2 flow =>
    .oauth2 { authorization := lastOf (authorizations l), token := lastOf (tokens l),
              refresh := lastOf (refreshes l), scopes := someList (scopes l), flow }
  | .custom scheme => .custom scheme ((lastOf (datas l)).getD .null)
  | _ => .unset

/-- Before the kind is chosen, no kind-specific call has been made. -/
private structure NoDetails (l : List SecOp) : Prop where
  names : names l = []
  locations : locations l = []
  qops : qops l = []
  authorizations : authorizations l = []
  algs : algs l = []
  formats : formats l = []
  tokens : tokens l = []
  refreshes : refreshes l = []
  scopes : scopes l = []
  datas : datas l = []
  allOfs : allOfs l = []
  oneOfs : oneOfs l = []
  members : members l = []

/-- The calls that choose the kind of a scheme. -/
private inductive Choice : SecOp → Prop
  | noSec : Choice .noSec
  | auto : Choice .auto
  | combo : Choice .combo
  | basic : Choice .basic
  | digest : Choice .digest
  | bearer : Choice .bearer
  | psk : Choice .psk
  | oauth2 (f : String) : Choice (.oauth2 f)
  | apiKey : Choice .apiKey
  | custom (s : String) : Choice (.custom s)

private inductive TagInv (l : List SecOp) : SecTag → Prop
  | unset : choices l = [] → NoDetails l → TagInv l .unset
  | chosen {c : SecOp} : choices l = [c] → Choice c →
      (c = .combo → allOfs l = [] → oneOfs l = [] → members l = []) → TagInv l (tagOf l c)

private theorem TagInv.cast {l : List SecOp} {t : SecTag} (c : SecOp) (h1 : choices l = [c])
    (h2 : Choice c) (h3 : c = .combo → allOfs l = [] → oneOfs l = [] → members l = [])
    (h : t = tagOf l c) : TagInv l t := h ▸ .chosen h1 h2 h3

section
variable {l : List SecOp} {op : SecOp}

local macro "tag_step" c:term:max h:ident h1:ident op:ident : tactic => `(tactic|
  (cases $op:ident <;> simp only [tagOf, SecTag.apply, reduceCtorEq, Option.some.injEq] at $h:ident <;> subst $h:ident <;>
    (refine TagInv.cast $c (by simp only [choices, List.filterMap_append, $h1:ident]; rfl)
        (by constructor) nofun ?_ <;>
     simp only [tagOf, names, locations, qops, authorizations, algs, formats, tokens, refreshes,
      scopes, datas, List.filterMap_append, List.filterMap_cons, List.filterMap_nil,
      List.append_nil, lastOf_append, Option.getD_some, ← optPush_someList])))

private theorem TagInv.step {t t' : SecTag} (hi : TagInv l t) (h : t.apply op = some t') :
    TagInv (l ++ [op]) t' := by
  cases hi with
  | unset h1 h2 =>
    obtain ⟨n1, n2, n3, n4, n5, n6, n7, n8, n9, n10, n11, n12, n13⟩ := h2
    unfold choices at h1
    unfold names at n1
    unfold locations at n2
    unfold qops at n3
    unfold authorizations at n4
    unfold algs at n5
    unfold formats at n6
    unfold tokens at n7
    unfold refreshes at n8
    unfold scopes at n9
    unfold datas at n10
    unfold allOfs at n11
    unfold oneOfs at n12
    unfold members at n13
    cases op <;> simp only [SecTag.apply, reduceCtorEq, Option.some.injEq] at h <;> subst h <;>
      (refine TagInv.cast _ (by simp only [choices, List.filterMap_append, h1]; rfl) (by constructor) ?_ ?_ <;>
       simp only [tagOf, names, locations, qops, authorizations, algs, formats, tokens, refreshes, scopes,
        datas, allOfs, oneOfs, members, List.filterMap_append, List.flatMap_append, n1, n2, n3, n4, n5, n6,
        n7, n8, n9, n10, n11, n12, n13] <;> first | (intro h; cases h; done) | (intros; rfl) | rfl)
  | chosen h1 h2 h3 =>
    unfold choices at h1
    cases h2 with
    | combo =>
      simp only [tagOf] at h
      by_cases ha : allOfs l = []
      · by_cases ho : oneOfs l = []
        · have hm := h3 rfl ha ho
          simp only [ha, ho, ne_eq, not_true_eq_false, if_false] at h
          unfold allOfs at ha
          unfold oneOfs at ho
          unfold members at hm
          cases op <;> simp only [SecTag.apply, reduceCtorEq, Option.some.injEq] at h <;> subst h <;>
            (refine TagInv.cast .combo (by simp only [choices, List.filterMap_append, h1]; rfl)
                (by constructor) ?_ ?_ <;>
             simp [tagOf, allOfs, oneOfs, members, ha, ho, hm])
        · simp only [ha, ho, ne_eq, not_true_eq_false, if_false, not_false_eq_true, if_true] at h
          unfold allOfs at ha
          unfold oneOfs at ho
          cases op <;> simp only [SecTag.apply, reduceCtorEq, Option.some.injEq] at h <;> subst h <;>
            (refine TagInv.cast .combo (by simp only [choices, List.filterMap_append, h1]; rfl)
                (by constructor) ?_ ?_ <;>
             simp [tagOf, allOfs, oneOfs, members, ha, ho])
      · simp only [ha, ne_eq, not_false_eq_true, if_true] at h
        unfold allOfs at ha
        cases op <;> simp only [SecTag.apply, reduceCtorEq, Option.some.injEq] at h <;> subst h <;>
          (refine TagInv.cast .combo (by simp only [choices, List.filterMap_append, h1]; rfl)
              (by constructor) ?_ ?_ <;>
           simp [tagOf, allOfs, oneOfs, members, ha])
    | noSec => tag_step (.noSec) h h1 op
    | auto => tag_step (.auto) h h1 op
    | basic => tag_step (.basic) h h1 op
    | digest => tag_step (.digest) h h1 op
    | bearer => tag_step (.bearer) h h1 op
    | psk => tag_step (.psk) h h1 op
    | oauth2 f => tag_step (.oauth2 f) h h1 op
    | apiKey => tag_step (.apiKey) h h1 op
    | custom s => tag_step (.custom s) h h1 op

end

private theorem tagOf_isCombo {l : List SecOp} {c : SecOp} (h : Choice c) :
    (tagOf l c).isCombo = true ↔ c = .combo := by
  cases h <;> simp only [tagOf, SecTag.isCombo, reduceCtorEq, Bool.false_eq_true]
  by_cases ha : allOfs l = [] <;> by_cases ho : oneOfs l = [] <;> simp [ha, ho]

/-- Whether a combo was chosen. -/
private def isCombo (l : List SecOp) : Bool := (choices l).any fun | .combo => true | _ => false

private theorem TagInv.isCombo {l : List SecOp} {t : SecTag} (h : TagInv l t) :
    t.isCombo = Wot.isCombo l := by
  cases h with
  | unset h1 _ => rw [Wot.isCombo, h1]; rfl
  | chosen h1 h2 _ =>
    rw [Wot.isCombo, h1]
    cases h2 <;> try rfl
    exact (tagOf_isCombo .combo).2 rfl

private def commonSec (l : List SecOp) (t : SecTag) : SecuritySchemeBuilder SecTag :=
  { attype := someList (attypes l), description := lastOf (descriptionTexts l),
    descriptions := (lastOf (descriptions l)).map fun c => ⟨HMap.collect c⟩,
    proxy := lastOf (proxies l), name := lastOf (keys l (isCombo l)), subtype := t,
    required := !(requests l).isEmpty }

/-- Calls that leave the kind-specific state alone. -/
private inductive Neutral (l : List SecOp) : SecOp → Prop
  | attype (v : String) : Neutral l (.attype v)
  | description (v : String) : Neutral l (.description v)
  | descriptions (c : List (String × String)) : Neutral l (.descriptions c)
  | proxy (v : String) : Neutral l (.proxy v)
  | withKey (v : String) : Neutral l (.withKey v)
  | required : Neutral l .required
  | name (v : String) : isCombo l = true → Neutral l (.name v)

private theorem Neutral.choices {l : List SecOp} {op : SecOp} (h : Neutral l op) :
    choices (l ++ [op]) = choices l := by
  unfold SecCalls.choices
  rw [List.filterMap_append]
  cases h <;> exact List.append_nil _

private theorem Neutral.tag {l : List SecOp} {op : SecOp} {t : SecTag} (h : Neutral l op)
    (ht : TagInv l t) : TagInv (l ++ [op]) t := by
  have hc := h.choices
  have h1 : locations (l ++ [op]) = locations l := by
    unfold locations; rw [List.filterMap_append]; cases h <;> exact List.append_nil _
  have h2 : qops (l ++ [op]) = qops l := by
    unfold qops; rw [List.filterMap_append]; cases h <;> exact List.append_nil _
  have h3 : authorizations (l ++ [op]) = authorizations l := by
    unfold authorizations; rw [List.filterMap_append]; cases h <;> exact List.append_nil _
  have h4 : algs (l ++ [op]) = algs l := by
    unfold algs; rw [List.filterMap_append]; cases h <;> exact List.append_nil _
  have h5 : formats (l ++ [op]) = formats l := by
    unfold formats; rw [List.filterMap_append]; cases h <;> exact List.append_nil _
  have h6 : tokens (l ++ [op]) = tokens l := by
    unfold tokens; rw [List.filterMap_append]; cases h <;> exact List.append_nil _
  have h7 : refreshes (l ++ [op]) = refreshes l := by
    unfold refreshes; rw [List.filterMap_append]; cases h <;> exact List.append_nil _
  have h8 : scopes (l ++ [op]) = scopes l := by
    unfold scopes; rw [List.filterMap_append]; cases h <;> exact List.append_nil _
  have h9 : datas (l ++ [op]) = datas l := by
    unfold datas; rw [List.filterMap_append]; cases h <;> exact List.append_nil _
  have h10 : allOfs (l ++ [op]) = allOfs l := by
    unfold allOfs; rw [List.filterMap_append]; cases h <;> exact List.append_nil _
  have h11 : oneOfs (l ++ [op]) = oneOfs l := by
    unfold oneOfs; rw [List.filterMap_append]; cases h <;> exact List.append_nil _
  have h12 : members (l ++ [op]) = members l := by
    unfold members; rw [List.flatMap_append]; cases h <;> exact List.append_nil _
  have h13 : isCombo l = true ∨ names (l ++ [op]) = names l := by
    unfold names
    rw [List.filterMap_append]
    cases h with
    | name v hv => exact .inl hv
    | _ => exact .inr (List.append_nil _)
  cases ht with
  | unset g1 g2 =>
    have h14 : names (l ++ [op]) = names l := by
      rcases h13 with h13 | h13
      · rw [isCombo, g1] at h13; exact absurd h13 nofun
      · exact h13
    obtain ⟨n1, n2, n3, n4, n5, n6, n7, n8, n9, n10, n11, n12, n13⟩ := g2
    exact .unset (hc.trans g1) ⟨h14.trans n1, h1.trans n2, h2.trans n3, h3.trans n4, h4.trans n5,
      h5.trans n6, h6.trans n7, h7.trans n8, h8.trans n9, h9.trans n10, h10.trans n11, h11.trans n12,
      h12.trans n13⟩
  | chosen g1 g2 g3 =>
    refine TagInv.cast _ (hc.trans g1) g2 (by rw [h10, h11, h12]; exact g3) ?_
    cases g2 with
    | combo => simp only [tagOf, h10, h11, h12]
    | _ =>
      have h14 : names (l ++ [op]) = names l := by
        rcases h13 with h13 | h13
        · rw [isCombo, g1] at h13; exact absurd h13 nofun
        · exact h13
      simp only [tagOf, h1, h2, h3, h4, h5, h6, h7, h8, h9, h14]

private theorem keys_of_names {l : List SecOp} (h : names l = []) (c : Bool) : keys l c = keys l false := by
  unfold names at h
  rw [List.filterMap_eq_nil_iff] at h
  unfold keys
  induction l with
  | nil => rfl
  | cons a l ih =>
    have h1 := h a (by simp)
    have h2 := ih fun x hx => h x (by simp [hx])
    cases a with
    | name v => exact absurd h1 nofun
    | withKey v => simp only [List.filterMap_cons, h2]
    | _ => simp only [List.filterMap_cons]; exact h2

private theorem Neutral.isCombo {l : List SecOp} {op : SecOp} (h : Neutral l op) :
    isCombo (l ++ [op]) = Wot.isCombo l := by
  unfold Wot.isCombo
  rw [h.choices]

private theorem commonSec_neutral {l : List SecOp} {op : SecOp} {t : SecTag} {b : SecuritySchemeBuilder SecTag}
    (hn : Neutral l op) (ht : TagInv l t) (h : (commonSec l t).apply op = some b) :
    b = commonSec (l ++ [op]) t := by
  unfold commonSec
  rw [hn.isCombo]
  cases hn with
  | name v hv =>
    simp only [SecuritySchemeBuilder.apply, commonSec, ht.isCombo, hv, if_true, Option.some.injEq] at h
    subst h
    simp [attypes, descriptionTexts, descriptions, proxies, keys, requests, List.filterMap_append,
      lastOf_append, hv]
  | _ =>
    simp only [SecuritySchemeBuilder.apply, commonSec, Option.some.injEq] at h
    subst h
    simp [attypes, descriptionTexts, descriptions, proxies, keys, requests, List.filterMap_append,
      lastOf_append, optPush_someList, ofCalls_eq]

private theorem commonSec_tag {l : List SecOp} {op : SecOp} {t t' : SecTag} (ht : TagInv l t)
    (h : t.apply op = some t') (hc : t.isCombo = true → ∀ v, op ≠ .name v) :
    { commonSec l t with subtype := t' } = commonSec (l ++ [op]) t' := by
  have hk : lastOf (keys (l ++ [op]) (isCombo (l ++ [op]))) = lastOf (keys l (isCombo l)) := by
    have happ : ∀ c, keys (l ++ [op]) c = keys l c ++ keys [op] c := fun c => by
      unfold keys; rw [List.filterMap_append]
    have hkey : ∀ c, (c = true → ∀ v, op ≠ .name v) → keys [op] c = [] := by
      intro c hc'
      cases op with
      | withKey v => simp only [SecTag.apply, reduceCtorEq] at h
      | name v =>
        cases c with
        | true => exact absurd rfl (hc' rfl v)
        | false => rfl
      | _ => rfl
    have hs := ht.step h
    cases ht with
    | unset g1 g2 =>
      rw [happ, hkey _ (fun _ v e => by subst e; simp only [SecTag.apply, reduceCtorEq] at h),
        List.append_nil, keys_of_names g2.names, keys_of_names g2.names (isCombo l)]
    | chosen g1 g2 g3 =>
      have hcc : choices (l ++ [op]) = choices l := by
        have e : choices (l ++ [op]) = choices l ++ choices [op] := by
          unfold choices; rw [List.filterMap_append]
        cases hs with
        | unset g4 _ => rw [e, g1] at g4; cases g4
        | chosen g4 _ _ =>
          rw [e, g1] at g4
          injection g4 with _ g5
          have g6 : choices [op] = [] := g5
          rw [e, g6, List.append_nil]
      have hic : isCombo (l ++ [op]) = isCombo l := by unfold isCombo; rw [hcc]
      rw [hic, happ, hkey, List.append_nil]
      intro hi
      apply hc
      rw [(TagInv.chosen g1 g2 g3).isCombo, hi]
  unfold commonSec
  rw [hk]
  cases op <;> first
    | (simp [attypes, descriptionTexts, descriptions, proxies, requests, List.filterMap_append]; done)
    | (simp only [SecTag.apply, reduceCtorEq] at h; done)

private theorem sec_state {l : List SecOp} {b : SecuritySchemeBuilder SecTag}
    (h : l.foldlM SecuritySchemeBuilder.apply { subtype := .unset } = some b) :
    ∃ t, TagInv l t ∧ b = commonSec l t := by
  induction l using snoc_induction generalizing b with
  | nil =>
    cases h
    exact ⟨.unset, .unset rfl ⟨rfl, rfl, rfl, rfl, rfl, rfl, rfl, rfl, rfl, rfl, rfl, rfl, rfl⟩, rfl⟩
  | snoc l op ih =>
    rw [List.foldlM_append] at h
    obtain ⟨b1, h1, h2⟩ := Option.bind_eq_some_iff.1 h
    obtain ⟨t, ht, rfl⟩ := ih h1
    have h3 : (commonSec l t).apply op = some b := by simpa using h2
    have neutral : Neutral l op → ∃ t, TagInv (l ++ [op]) t ∧ b = commonSec (l ++ [op]) t := fun hn =>
      ⟨t, hn.tag ht, commonSec_neutral hn ht h3⟩
    have tag : (t.isCombo = true → ∀ v, op ≠ .name v) →
        (t.apply op).map (fun t' => { commonSec l t with subtype := t' }) = some b →
        ∃ t, TagInv (l ++ [op]) t ∧ b = commonSec (l ++ [op]) t := by
      intro hc hm
      obtain ⟨t', h4, rfl⟩ := Option.map_eq_some_iff.1 hm
      exact ⟨t', ht.step h4, commonSec_tag ht h4 hc⟩
    cases op with
    | attype v => exact neutral (.attype v)
    | description v => exact neutral (.description v)
    | descriptions v => exact neutral (.descriptions v)
    | proxy v => exact neutral (.proxy v)
    | withKey v => exact neutral (.withKey v)
    | required => exact neutral .required
    | name v =>
      by_cases hi : t.isCombo = true
      · exact neutral (.name v (ht.isCombo ▸ hi))
      · refine tag (fun h => absurd h hi) ?_
        exact (if_neg (show ¬(commonSec l t).subtype.isCombo = true from hi)).symm.trans h3
    | _ => exact tag (fun _ _ => nofun) h3

/-- C46: exactly one call of a security scheme closure chooses the kind of the scheme; the scheme's
kind-specific part is the one described by that call and the later ones, see `SecCalls.subtype`. -/
theorem C46_kind {calls : List SecOp} {b : SecuritySchemeBuilder SchemeSubtype}
    (h : SecuritySchemeBuilder.ofCalls calls = some b) :
    ∃ c, SecCalls.choices calls = [c] ∧ SecCalls.subtype calls c = some b.subtype ∧
      b.name = lastOf (SecCalls.keys calls (match c with | .combo => true | _ => false)) := by
  obtain ⟨b1, h1, h2⟩ := Option.bind_eq_some_iff.1 h
  obtain ⟨t, ht, rfl⟩ := sec_state h1
  obtain ⟨s, h3, h4⟩ := Option.bind_eq_some_iff.1 h2
  cases h4
  cases ht with
  | unset _ _ => cases h3
  | chosen g1 g2 g3 =>
    refine ⟨_, g1, ?_, ?_⟩
    · rw [← h3]
      cases g2 <;> try rfl
      simp only [SecCalls.subtype, commonSec, tagOf]
      by_cases ha : allOfs calls = [] <;> by_cases ho : oneOfs calls = [] <;>
        simp [ha, ho, SecTag.build]
    · show lastOf (keys calls (isCombo calls)) = _
      unfold isCombo
      rw [g1]
      cases g2 <;> rfl

/-- C46: everything else in a security scheme is what the calls on its builder say. -/
theorem C46_common {calls : List SecOp} {b : SecuritySchemeBuilder SchemeSubtype}
    (h : SecuritySchemeBuilder.ofCalls calls = some b) :
    b.attype = someList (SecCalls.attypes calls) ∧
    b.description = lastOf (SecCalls.descriptionTexts calls) ∧
    b.descriptions = (lastOf (SecCalls.descriptions calls)).map (fun c => ⟨HMap.collect c⟩) ∧
    b.proxy = lastOf (SecCalls.proxies calls) ∧
    (b.required = true ↔ .required ∈ calls) := by
  obtain ⟨b1, h1, h2⟩ := Option.bind_eq_some_iff.1 h
  obtain ⟨t, ht, rfl⟩ := sec_state h1
  obtain ⟨s, h3, h4⟩ := Option.bind_eq_some_iff.1 h2
  cases h4
  refine ⟨rfl, rfl, rfl, rfl, ?_⟩
  simp only [commonSec, Bool.not_eq_true', List.isEmpty_eq_false_iff, requests, ne_eq,
    List.filterMap_eq_nil_iff]
  constructor
  · intro hn
    apply Classical.byContradiction
    intro hm
    refine hn fun a ha => ?_
    cases a with
    | required => exact absurd ha hm
    | _ => rfl
  · intro hm hn
    exact absurd (hn _ hm) nofun

/-- C46: a pre-shared-key scheme made with the builder never has an identity: no call can set it. -/
theorem C46_psk_identity {calls : List SecOp} {b : SecuritySchemeBuilder SchemeSubtype} {s : PskScheme}
    (h : SecuritySchemeBuilder.ofCalls calls = some b) (hs : b.subtype = .known (.psk s)) :
    s.identity = none := by
  obtain ⟨c, h1, h2, _⟩ := C46_kind h
  rw [hs] at h2
  cases c with
  | combo =>
    simp only [SecCalls.subtype] at h2
    split at h2
    · cases h2
    · split at h2 <;> cases h2
  | psk => cases h2; rfl
  | _ => cases h2

/-- A bearer scheme and a combo built by several calls. -/
example : ∃ b, SecuritySchemeBuilder.ofCalls
      [.attype "a", .bearer, .alg "x", .name "n", .required, .alg "y", .withKey "k"] = some b ∧
    b.subtype = .known (.bearer { alg := "y", name := some "n" }) ∧ b.name = some "k" ∧
    b.required = true := ⟨_, rfl, rfl, rfl, rfl⟩

example : ∃ b, SecuritySchemeBuilder.ofCalls
      [.combo, .name "c", .oneOf ["x"], .extend ["y", "z"], .push "w"] = some b ∧
    b.subtype = .known (.combo (.oneOf ["x", "y", "z", "w"])) ∧ b.name = some "c" := ⟨_, rfl, rfl, rfl⟩

/-! ### C47: links -/

private theorem link_fields (l : UncheckedLink) (ops : List LinkOp) :
    ops.foldl UncheckedLink.apply l =
      { href := l.href, ty := (lastOf (LinkCalls.types ops)).or l.ty,
        rel := (lastOf (LinkCalls.rels ops)).or l.rel,
        anchor := (lastOf (LinkCalls.anchors ops)).or l.anchor,
        sizes := (lastOf (LinkCalls.sizes ops)).or l.sizes,
        hreflang := l.hreflang ++ LinkCalls.hreflangs ops } := by
  induction ops using snoc_induction with
  | nil => obtain ⟨_, _, _, _, _, _⟩ := l; simp [LinkCalls.types, LinkCalls.rels, LinkCalls.anchors,
      LinkCalls.sizes, LinkCalls.hreflangs, lastOf]
  | snoc ops op ih =>
    rw [List.foldl_append, ih]
    cases op <;> simp [UncheckedLink.apply, LinkCalls.types, LinkCalls.rels, LinkCalls.anchors,
      LinkCalls.sizes, LinkCalls.hreflangs, List.filterMap_append, lastOf_append]

private theorem lastOf_or {α : Type} (a b : List α) : (lastOf b).or (lastOf a) = lastOf (a ++ b) := by
  induction b using snoc_induction with
  | nil => simp [lastOf]
  | snoc b x _ => rw [← List.append_assoc, lastOf_append, lastOf_append]; rfl

/-- C47: a link is what the calls of its closure say, before or after `href`. -/
theorem C47_link (pre : List LinkOp) (href : String) (post : List LinkOp) :
    UncheckedLink.ofCalls pre href post =
      { href := href, ty := lastOf (LinkCalls.types (pre ++ post)),
        rel := lastOf (LinkCalls.rels (pre ++ post)),
        anchor := lastOf (LinkCalls.anchors (pre ++ post)),
        sizes := lastOf (LinkCalls.sizes (pre ++ post)),
        hreflang := LinkCalls.hreflangs (pre ++ post) } := by
  unfold UncheckedLink.ofCalls
  rw [link_fields, link_fields]
  simp only [Option.or_none, List.nil_append, lastOf_or, LinkCalls.types, LinkCalls.rels,
    LinkCalls.anchors, LinkCalls.sizes, LinkCalls.hreflangs, List.filterMap_append]

/-- C47: conversion keeps these values, drops an empty list of languages and otherwise replaces each
language by the parsed tag. -/
theorem C47_built {env : Env} {u : UncheckedLink} {l : Link} (h : u.tryInto env = .ok l) :
    l.href = u.href ∧ l.ty = u.ty ∧ l.rel = u.rel ∧ l.anchor = u.anchor ∧ l.sizes = u.sizes ∧
    (u.hreflang = [] ↔ l.hreflang = none) ∧
    Pointwise (fun a b => env.langParse a = some b) u.hreflang (l.hreflang.getD []) := by
  unfold UncheckedLink.tryInto at h
  split at h
  · cases h
  · cases hm : tryMap (parseHreflang env) u.hreflang with
    | error e => rw [hm] at h; cases h
    | ok v =>
      rw [hm] at h
      cases h
      have hp : Pointwise (fun a b => env.langParse a = some b) u.hreflang v := by
        generalize u.hreflang = l at hm
        induction l generalizing v with
        | nil => cases hm; exact .nil
        | cons a l ih =>
          simp only [tryMap, parseHreflang] at hm
          cases ha : env.langParse a with
          | none => rw [ha] at hm; cases hm
          | some t =>
            rw [ha] at hm
            cases hl : tryMap (parseHreflang env) l with
            | error e => simp only [hl] at hm; cases hm
            | ok w => simp only [hl] at hm; cases hm; exact .cons ha (ih _ hl)
      refine ⟨rfl, rfl, rfl, rfl, rfl, ?_, ?_⟩
      · have := hp.length_eq
        unfold nonEmpty
        cases v with
        | nil => simp only [List.isEmpty_nil, if_true, iff_true]; exact List.length_eq_zero_iff.1 this
        | cons a v =>
          simp only [List.isEmpty_cons, Bool.false_eq_true, if_false, reduceCtorEq, iff_false]
          intro e
          rw [e] at this
          cases this
      · unfold nonEmpty
        cases v <;> exact hp

example : UncheckedLink.ofCalls [.rel "x", .hreflang "it"] "/a" [.hreflang "en", .rel "icon", .sizes "2x2"] =
    { href := "/a", rel := some "icon", sizes := some "2x2", hreflang := ["it", "en"] } := rfl

example : ∃ l, UncheckedLink.tryInto Demo.env
    { href := "/a", rel := some "icon", sizes := some "2x2", hreflang := ["it", "en"] } = .ok l ∧
    l.hreflang = some ["it", "en"] := ⟨_, rfl, rfl⟩

end Wot
