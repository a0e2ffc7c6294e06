import Verif.Lemmas.SameCalls
import Verif.Lemmas.BuildableParts
/-
Whatever calls a program makes, one with other extensions can make, too.
-/
namespace Wot
namespace Blind

variable {X Y : ExtTypes} {e : ExtMap X Y}

/-! ### Data schemas -/

section Schemas
variable {D A O D' A' O' : Type} {f : D → D'} {g : A → A'} {h : O → O'}

theorem unchecked_made {s : UncheckedDataSchema D A O} (w : UncheckedMade s) : UncheckedMade (s.withExt f g h) := by
  constructor
  case toSchemaShape => exact shape_ext.2 w.toSchemaShape
  case attype => rw [ext_head]; exact w.attype
  case titles => rw [ext_head]; exact w.titles
  case descriptions => rw [ext_head]; exact w.descriptions
  case sorted =>
    intro o m ho hm
    obtain ⟨o, ho', rfl⟩ := object_ext.1 ho
    obtain ⟨m, hm', rfl⟩ := Option.map_eq_some_iff.1 hm
    exact sorted_ext.2 (w.sorted o m ho' hm')
  case unspecified =>
    intro ho
    have := w.unspecified (open_ext.1 ho)
    rw [ext_head]
    conv => lhs; rw [this]
    unfold UncheckedDataSchema.default
    rw [Reader.withExt_mk]
    rfl

theorem schemaBuilt_ext {s : UncheckedDataSchema D A O} (hs : SchemaBuilt s) : SchemaBuilt (s.withExt f g h) := by
  rw [schemaBuilt_iff] at hs ⊢
  intro x hx
  obtain ⟨y, hy, rfl⟩ := within_ext hx
  exact unchecked_made (hs y hy)

end Schemas

theorem partialBuilt_ext {p : PropertyBuilder X} (hp : PartialBuilt p.dataSchema) :
    PartialBuilt (propertySchemaWithExt e p.dataSchema) := by
  obtain ⟨h1, h2, h3⟩ := hp.children
  have hs : SchemaShape p.schema := by
    have w := hp.shape
    exact ⟨w.access, w.required, w.properties, w.oneOf, w.enumeration, w.constant, w.tuple⟩
  have hs' : SchemaShape (PropertyBuilder.withExt e p).schema := property_schema ▸ shape_ext.2 hs
  refine partialBuilt_of hs'.partial ?_ ?_ ?_ ?_ ?_
  · intro o m ho hm
    obtain ⟨st, hst, ho⟩ := Option.map_eq_some_iff.1 ho
    cases st <;> cases ho
    obtain ⟨m', hm', rfl⟩ := Option.map_eq_some_iff.1 hm
    exact (h3 _ _ hst hm').mapVals _
  · intro l hl c hc
    obtain ⟨l', hl', rfl⟩ := Option.map_eq_some_iff.1 hl
    obtain ⟨c, hc', rfl⟩ := List.mem_map.1 hc
    exact schemaBuilt_ext (h1 l' hl' c hc')
  · intro st hst c hc
    obtain ⟨st', hst', rfl⟩ := Option.map_eq_some_iff.1 hst
    rw [children_ext, children_map] at hc
    obtain ⟨c, hc', rfl⟩ := List.mem_map.1 hc
    exact schemaBuilt_ext (h2 st' hst' c hc')
  · intro st hst
    obtain ⟨st', hst', e'⟩ := Option.map_eq_some_iff.1 hst
    cases st' <;> cases e'
    exact hp.noString _ hst'
  · rintro ⟨a1, a2, a3, a4⟩
    have := hp.unspecified ⟨Option.map_eq_none_iff.1 a1, Option.map_eq_none_iff.1 a2, a3, a4⟩
    show propertySchemaWithExt e p.dataSchema = .emptyDefault (e.dataSchema p.dataSchema.other)
    conv => lhs; rw [this]
    rfl

/-! ### Forms -/

/-- A form under construction. -/
def formPart {H F F' : Type} (e : ExtMap X Y) (u : F → F') (x : FormBuilderF X H F) : FormBuilderF Y H F' where
  op := x.op
  href := x.href
  contentType := x.contentType
  contentCoding := x.contentCoding
  subprotocol := x.subprotocol
  security := x.security
  scopes := x.scopes
  response := x.response.map (ExpectedResponse.withExt e.response)
  additionalResponses := x.additionalResponses
  other := u x.other

/-- A call on a form builder. -/
def formOp (e : ExtMap X Y) : FormOp X → FormOp Y
  | .contentType v => .contentType v
  | .contentCoding v => .contentCoding v
  | .subprotocol v => .subprotocol v
  | .op o => .op o
  | .security v => .security v
  | .scope v => .scope v
  | .additionalResponse c => .additionalResponse c
  | .response ct o => .response ct (e.response o)

theorem formReach_ext {H F : Type} {x : FormBuilderF X H F} (hx : FormReach X x) :
    ∀ {F' : Type} (u : F → F'), FormReach Y (formPart e u x) := by
  induction hx with
  | new other => exact fun u => .new (u other)
  | href v _ ih => exact fun u => .href v (ih u)
  | call op _ ih =>
    intro F' u
    have := FormReach.call (formOp e op) (ih u)
    cases op <;> exact this
  | ext f _ ih => exact fun u => ih (u ∘ f)

/-! ### Affordances -/

/-- The interaction part of an affordance under construction. -/
def interactionPart {I I' : Type} (e : ExtMap X Y) (u : I → I') (i : PartialInteraction X I) : PartialInteraction Y I' where
  forms := i.forms.map (FormBuilder.withExt e)
  uriVariables := HMap.mapVals (UDS.withExt e) i.uriVariables
  other := u i.other

/-- A call on it. -/
def interactionOp (e : ExtMap X Y) : InteractionOp X → InteractionOp Y
  | .form x => .form (FormBuilder.withExt e x)
  | .uriVariable n s => .uriVariable n (UDS.withExt e s)

theorem interactionOp_built {op : InteractionOp X} (hb : op.Built) : (interactionOp e op).Built := by
  cases op with
  | form x => exact formReach_ext (x := x) hb e.form
  | uriVariable n s => exact schemaBuilt_ext (s := s) hb

theorem insert_ext {V W : Type} {u : V → W} {m : HMap V} {k : String} {v : V} :
    HMap.mapVals u (HMap.insert k v m) = HMap.insert k (u v) (HMap.mapVals u m) := by
  induction m with
  | nil => rfl
  | cons a m ih =>
    obtain ⟨k', v'⟩ := a
    show HMap.mapVals u (HMap.insert k v ((k', v') :: m)) = HMap.insert k (u v) ((k', u v') :: HMap.mapVals u m)
    unfold HMap.insert
    split
    · rfl
    · split
      · rfl
      · show (k', u v') :: HMap.mapVals u (HMap.insert k v m) = _
        rw [ih]

theorem interaction_apply {I I' : Type} {u : I → I'} {i : PartialInteraction X I} {op : InteractionOp X} :
    (interactionPart e u i).apply (interactionOp e op) = interactionPart e u (i.apply op) := by
  cases op with
  | form x =>
    show PartialInteraction.mk (_ ++ _) _ _ = PartialInteraction.mk (List.map _ (_ ++ _)) _ _
    rw [List.map_append]; rfl
  | uriVariable n s =>
    show PartialInteraction.mk _ (HMap.insert n _ _) _ = PartialInteraction.mk _ (HMap.mapVals _ (HMap.insert n s _)) _
    rw [insert_ext]; rfl

/-- A property under construction. -/
def propertyPart {D D' I I' O O' : Type} (e : ExtMap X Y) (d : D → D') (u : I → I') (w : O → O') (p : PropertyBuilderF X D I O) :
    PropertyBuilderF Y D' I' O' where
  interaction := interactionPart e u p.interaction
  info := p.info
  dataSchema := d p.dataSchema
  observable := p.observable
  other := w p.other

theorem propertyReach_ext {D I O : Type} {p : PropertyBuilderF X D I O} (hp : PropertyReach X p) :
    ∀ {D' I' O' : Type} (d : D → D') (u : I → I') (w : O → O'), PropertyReach Y (propertyPart e d u w p) := by
  induction hp with
  | empty i s o => exact fun d u w => .empty (u i) (d s) (w o)
  | call op hb _ ih =>
    intro D' I' O' d u w
    cases op with
    | interaction op =>
      have := PropertyReach.call (.interaction (interactionOp e op)) (interactionOp_built (e := e) hb) (ih d u w)
      unfold PropertyBuilderF.apply propertyPart at this
      dsimp only at this
      rw [interaction_apply] at this
      exact this
    | info op => exact .call (.info op) trivial (ih d u w)
    | observable v => exact .call (.observable v) trivial (ih d u w)
  | mapSchema f _ ih => exact fun d u w => ih (d ∘ f) u w
  | ext f g _ ih => exact fun d u w => ih d (u ∘ f) (w ∘ g)

/-- An action under construction. -/
def actionPart {I I' O O' : Type} (e : ExtMap X Y) (u : I → I') (w : O → O') (a : ActionBuilderF X I O) :
    ActionBuilderF Y I' O' where
  interaction := ⟨interactionPart e u a.interaction.part, a.interaction.info⟩
  input := a.input.map (UDS.withExt e)
  output := a.output.map (UDS.withExt e)
  safe := a.safe
  idempotent := a.idempotent
  synchronous := a.synchronous
  other := w a.other

theorem actionReach_ext {I O : Type} {p : ActionBuilderF X I O} (hp : ActionReach X p) :
    ∀ {I' O' : Type} (u : I → I') (w : O → O'), ActionReach Y (actionPart e u w p) := by
  induction hp with
  | empty i o => exact fun u w => .empty (u i) (w o)
  | call op hb _ ih =>
    intro I' O' u w
    cases op with
    | interaction op =>
      have := ActionReach.call (.interaction (interactionOp e op)) (interactionOp_built (e := e) hb) (ih u w)
      unfold ActionBuilderF.apply actionPart at this
      dsimp only at this
      rw [interaction_apply] at this
      exact this
    | info op => exact .call (.info op) trivial (ih u w)
    | input s => exact .call (.input (UDS.withExt e s)) (schemaBuilt_ext (s := s) hb) (ih u w)
    | output s => exact .call (.output (UDS.withExt e s)) (schemaBuilt_ext (s := s) hb) (ih u w)
    | safe => exact .call .safe trivial (ih u w)
    | idempotent => exact .call .idempotent trivial (ih u w)
    | synchronous v => exact .call (.synchronous v) trivial (ih u w)
  | ext f g _ ih => exact fun u w => ih (u ∘ f) (w ∘ g)

/-- An event under construction. -/
def eventPart {I I' O O' : Type} (e : ExtMap X Y) (u : I → I') (w : O → O') (a : EventBuilderF X I O) :
    EventBuilderF Y I' O' where
  interaction := ⟨interactionPart e u a.interaction.part, a.interaction.info⟩
  subscription := a.subscription.map (UDS.withExt e)
  data := a.data.map (UDS.withExt e)
  cancellation := a.cancellation.map (UDS.withExt e)
  dataResponse := a.dataResponse.map (UDS.withExt e)
  other := w a.other

theorem eventReach_ext {I O : Type} {p : EventBuilderF X I O} (hp : EventReach X p) :
    ∀ {I' O' : Type} (u : I → I') (w : O → O'), EventReach Y (eventPart e u w p) := by
  induction hp with
  | empty i o => exact fun u w => .empty (u i) (w o)
  | call op hb _ ih =>
    intro I' O' u w
    cases op with
    | interaction op =>
      have := EventReach.call (.interaction (interactionOp e op)) (interactionOp_built (e := e) hb) (ih u w)
      unfold EventBuilderF.apply eventPart at this
      dsimp only at this
      rw [interaction_apply] at this
      exact this
    | info op => exact .call (.info op) trivial (ih u w)
    | subscription s => exact .call (.subscription (UDS.withExt e s)) (schemaBuilt_ext (s := s) hb) (ih u w)
    | data s => exact .call (.data (UDS.withExt e s)) (schemaBuilt_ext (s := s) hb) (ih u w)
    | cancellation s => exact .call (.cancellation (UDS.withExt e s)) (schemaBuilt_ext (s := s) hb) (ih u w)
    | dataResponse s => exact .call (.dataResponse (UDS.withExt e s)) (schemaBuilt_ext (s := s) hb) (ih u w)
  | ext f g _ ih => exact fun u w => ih (u ∘ f) (w ∘ g)

/-! ### Things -/

theorem op_built {op : ThingOp X} {op' : ThingOp Y} (hb : op.Built) (ho : op.withExt e = some op') : op'.Built := by
  cases op <;> cases ho
  case common => exact hb
  case form x => exact formReach_ext (x := x) hb e.form
  case uriVariable n s => exact schemaBuilt_ext (s := s) hb
  case property n p => exact ⟨propertyReach_ext (PropertyBuilder.Built.reach hb) _ _ _, partialBuilt_ext (PropertyBuilder.Built.schema hb)⟩
  case action n a => exact actionReach_ext (p := a) hb _ _
  case event n a => exact eventReach_ext (p := a) hb _ _
  case schemaDefinition n s => exact schemaBuilt_ext (s := s) hb

theorem run_other {h : List (ThingOp X)} (b : ThingBuilder Y) : (b.run (History.withExt e h)).other = b.other := by
  induction h generalizing b with
  | nil => rfl
  | cons op h ih =>
    unfold History.withExt
    rw [List.filterMap_cons]
    cases op with
    | setOther o => exact ih b
    | common c => exact (ih _).trans (by cases c <;> (simp only [ThingBuilder.apply, ThingBuilder.applyCommon]; try split) <;> rfl)
    | _ => exact ih _

/-- The other program, with the extension value of the Thing chosen at the beginning. -/
theorem reachable_ext {title : String} {h : List (ThingOp X)} {b : ThingBuilder X} (hr : Reachable X title h b) :
    ∃ b', Reachable Y title (History.withExt e h) b' ∧ b'.other = e.thing b.other := by
  refine ⟨(ThingBuilder.new title (e.thing b.other)).finishExtend.run (History.withExt e h),
    ⟨Reach.extended (History.withExt e h) (.new title (e.thing b.other)), ?_⟩, run_other _⟩
  intro op' ho
  obtain ⟨op, h1, h2⟩ := List.mem_filterMap.1 ho
  exact op_built (hr.built op h1) h2

end Blind
end Wot
