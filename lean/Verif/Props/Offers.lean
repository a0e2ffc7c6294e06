import Verif.Lemmas.Offers
import Verif.Props.Access
/-
C80: what a client can do with the forms of a Thing.

`Json.Offers` and `Thing.Offers` (Spec/Offers) say which operations the form in a place offers, according to a document and
according to a Thing: those that it names, or else the defaults of its place. They agree, but for forms with an empty list of
operations: those are written as `null`, so that the defaults apply.
-/
namespace Wot

variable {X : ExtTypes} {C : ExtCodecs X} {env : SerdeEnv} {F : Conform.Formats} {d v : Json} {t : Thing X}
  {title : String} {h : List (ThingOp X)} {b : ThingBuilder X} {p : Place} {o : FormOperation}

/-! ### Writing -/

/-- The document that is written for a Thing offers what the Thing offers and, for forms with an empty list of operations,
also the defaults of the place. -/
theorem C80_written_partial (hs : C.Separate) (ho : C.Own) (hm : t.Maps)
    (hn : ∀ kv ∈ t.securityDefinitions, kv.2.subtype.OwnNames) (hv : toValue C env t = some v) :
    v.Offers p o ↔ t.Offers p o ∨
      ∃ f, t.formAt p = some f ∧ f.op = .custom [] ∧ p.Default (t.readOnlyAt p) (t.writeOnlyAt p) o :=
  offers_shown (C52_value hs ho hm hn hv)

/-- Such forms are not built: the document of a built Thing offers exactly what the Thing offers. -/
theorem C80_built (hs : C.Separate) (ho : C.Own) (hr : Reachable X title h b) (hb : b.build env.toEnv = .ok t)
    (hn : ∀ kv ∈ t.securityDefinitions, kv.2.subtype.OwnNames) (hv : toValue C env t = some v) :
    v.Offers p o ↔ t.Offers p o := by
  rw [C80_written_partial hs ho (C49_built hr hb) hn hv]
  refine or_iff_left ?_
  rintro ⟨f, hf, e, hd⟩
  have hform := hasForm_of_formAt hf
  by_cases hc : p.context = .thing
  · cases p with
    | thing => exact hd
    | property | action | event => cases hc
  · rcases C05_affordance_form_operations hr hb hform hc with e' | ⟨l, e', hl, -⟩
    · rw [e] at e'
      cases e'
    · rw [e] at e'
      cases e'
      exact hl rfl

/-- The forms of a built Thing offer only operations for the place where they are. -/
theorem C80_kind {e : Env} (hr : Reachable X title h b) (hb : b.build e = .ok t) (ho : t.Offers p o) :
    Doc.opText o ∈ Conform.operations p.context := by
  obtain ⟨f, hf, ho⟩ := ho
  have hform := hasForm_of_formAt hf
  cases p with
  | thing i =>
    show _ ∈ Conform.operations .thing
    obtain ⟨fs, hfs, hf⟩ := Option.bind_eq_some_iff.1 hf
    obtain ⟨l, e, -, hl⟩ := C04_thing_form_operations hr hb hfs (List.mem_of_getElem? hf)
    rw [e] at ho
    have := hl o ho
    simp only [List.mem_cons, List.not_mem_nil, or_false] at this
    rcases this with rfl | rfl | rfl | rfl | rfl | rfl | rfl | rfl | rfl <;> decide
  | property n i =>
    show _ ∈ Conform.operations .property
    rcases C05_affordance_form_operations hr hb hform nofun with e | ⟨l, e, -, hl⟩
    · rw [e] at ho
      rcases ho with ⟨rfl, -⟩ | ⟨rfl, -⟩ <;> decide
    · rw [e] at ho
      have := hl o ho
      simp only [Place.context, List.mem_cons, List.not_mem_nil, or_false] at this
      rcases this with rfl | rfl | rfl | rfl <;> decide
  | action n i =>
    show _ ∈ Conform.operations .action
    rcases C05_affordance_form_operations hr hb hform nofun with e | ⟨l, e, -, hl⟩
    · rw [e] at ho
      cases ho
      decide
    · rw [e] at ho
      have := hl o ho
      simp only [Place.context, List.mem_cons, List.not_mem_nil, or_false] at this
      rcases this with rfl | rfl | rfl <;> decide
  | event n i =>
    show _ ∈ Conform.operations .event
    rcases C05_affordance_form_operations hr hb hform nofun with e | ⟨l, e, -, hl⟩
    · rw [e] at ho
      rcases ho with rfl | rfl <;> decide
    · rw [e] at ho
      have := hl o ho
      simp only [Place.context, List.mem_cons, List.not_mem_nil, or_false] at this
      rcases this with rfl | rfl <;> decide

/-! ### Reading -/

/-- A Thing that has been read from a document that conforms to the Recommendation offers what the document offers. -/
theorem C80_read (hd : d.NoDup) (hr : d.NumbersInRange) (hc : Conform.Thing F d) (h : fromText C env d = some t) :
    t.Offers p o ↔ d.Offers p o :=
  (Conform.offers_read ((C58_read hr).1 h) hc ⟨hd, hr⟩).symm

/-- If it is written again, the forms with an empty list of operations, which have offered nothing, offer the defaults;
nothing else changes. The full statement would have nothing change; it is false, see below. -/
theorem C80_rewritten_partial (hs : C.Separate) (ho : C.Own) (he : env.Stable) (hd : d.NoDup) (hr : d.NumbersInRange)
    (hc : Conform.Thing F d) (h : fromText C env d = some t) (hv : toValue C env t = some v) :
    v.Offers p o ↔ d.Offers p o ∨
      ∃ f, d.formAt p = some f ∧ f.member "op" = some (.arr []) ∧
        p.Default (d.flagAt "readOnly" p) (d.flagAt "writeOnly" p) o := by
  have hi := (C58_read hr).1 h
  rw [offers_shown (C52_read hs ho he h hv), C80_read hd hr hc h]
  obtain ⟨h1, h2⟩ := Conform.flags_read hi hc ⟨hd, hr⟩ (p := p)
  rw [h1, h2]
  have hf := Conform.forms_read hi hc ⟨hd, hr⟩ p
  generalize t.formAt p = x at hf
  generalize d.formAt p = y at hf
  refine or_congr_right ?_
  cases hf with
  | none => exact iff_of_false (by rintro ⟨_, e, _⟩; cases e) (by rintro ⟨_, e, _⟩; cases e)
  | @some f w r =>
    constructor
    · rintro ⟨_, e, e', hd⟩
      cases e
      exact ⟨w, rfl, (Conform.op_empty r.1 r.2.1).1 e', hd⟩
    · rintro ⟨_, e, e', hd⟩
      cases e
      exact ⟨f, rfl, (Conform.op_empty r.1 r.2.1).2 e', hd⟩

/-! ### Examples -/

/-- The form of the property in the example names operations, that of the action does not. -/
example : ∃ v, toValue .nil Demo.senv Demo.thing = some v ∧
    (∀ o, v.Offers (.property "temperature" 0) o ↔ o = .readProperty ∨ o = .observeProperty) ∧
    ∀ o, v.Offers (.action "set" 0) o ↔ o = .invokeAction := by
  have hn : ∀ kv ∈ Demo.thing.securityDefinitions, kv.2.subtype.OwnNames := by
    rintro ⟨n, s⟩ hs scheme m hm
    rcases Demo.securities_eq hs with e | e | e <;> rw [e] at hm <;> cases hm
  obtain ⟨v, hv⟩ : ∃ v, toValue .nil Demo.senv Demo.thing = some v := ⟨_, rfl⟩
  have key : ∀ p o, v.Offers p o ↔ Demo.thing.Offers p o := fun p o =>
    C80_built Demo.nil_separate Demo.nil_own Demo.reachable Demo.built hn hv
  refine ⟨v, hv, fun o => (key _ o).trans ?_, fun o => (key _ o).trans ?_⟩
  · constructor
    · rintro ⟨_, hf, h⟩
      cases hf
      have h : o ∈ [FormOperation.readProperty, .observeProperty] := h
      simpa using h
    · intro h
      refine ⟨_, rfl, ?_⟩
      show o ∈ [FormOperation.readProperty, .observeProperty]
      simpa using h
  · constructor
    · rintro ⟨_, hf, h⟩
      cases hf
      exact h
    · exact fun h => ⟨_, rfl, h⟩

/-- A document that conforms, with a form that offers nothing: read and written again, the form offers to subscribe and to
unsubscribe. -/
theorem C80_empty : ∃ d t v, d.NoDup ∧ Conform.Thing Demo.readable d ∧ fromText .nil Demo.senv d = some t ∧
    toValue .nil Demo.senv t = some v ∧ (∀ o, ¬ d.Offers (.event "hot" 0) o) ∧
    ∀ o, v.Offers (.event "hot" 0) o ↔ o = .subscribeEvent ∨ o = .unsubscribeEvent := by
  have hc := Demo.eventDocument_conform (Demo.opEvent_conform (ops := .arr [])
    (.inr ⟨_, rfl, fun w hw => absurd hw List.not_mem_nil⟩)) Demo.nosec_conform
  have hd := Demo.eventDocument_noDup (e := Demo.opEvent (.arr [])) (sec := Demo.definition "nosec" [])
    (by simp [Json.NoDup, Json.NoDupMembers, Json.NoDupList, Demo.opEvent])
    (by simp [Json.NoDup, Json.NoDupMembers, Demo.definition])
  have hno : ∀ o, ¬ (Demo.eventDocument (Demo.opEvent (.arr [])) (Demo.definition "nosec" [])).Offers (.event "hot" 0) o := by
    rintro o ⟨_, hf, ⟨_, l, ho, hl, hm⟩ | ⟨ho | ho, -⟩⟩ <;> cases hf <;> cases ho
    rw [lists_unique hl (.many (l := []))] at hm
    cases hm
  refine ⟨_, _, _, hd, hc, rfl, rfl, hno, fun o => ?_⟩
  refine (C80_rewritten_partial (C := .nil) Demo.nil_separate Demo.nil_own Demo.stable hd
    (numbersInRange_of (by decide)) hc rfl rfl).trans ?_
  constructor
  · rintro (h | ⟨_, -, -, h⟩)
    · exact absurd h (hno o)
    · exact h
  · exact fun h => .inr ⟨_, rfl, rfl, h⟩

end Wot
