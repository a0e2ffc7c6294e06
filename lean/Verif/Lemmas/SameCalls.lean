import Verif.Lemmas.Blind
import Verif.Lemmas.Valid
import Verif.Lemmas.FloatReread
import Verif.Spec.SameCalls
/-
What `build` does with calls depends on the extension values only in the extension values of the result.
-/
namespace Wot
namespace Blind

variable {X Y : ExtTypes} {L L' D A O D' A' O' : Type} {f : D → D'} {g : A → A'} {h : O → O'}

section Schemas
variable {s : Schema L D A O}

theorem badBounds_ext : BadBounds (s.withExt f g h) ↔ BadBounds s := by
  unfold BadBounds
  rw [ext_subtype]
  cases s.subtype with
  | none => simp
  | some st => cases st <;> simp [SubtypeF.map, SubtypeF.withExt, ArrayRule]

theorem nanBound_ext : NanBound (s.withExt f g h) ↔ NanBound s := by
  unfold NanBound
  rw [ext_subtype]
  cases s.subtype with
  | none => simp
  | some st => cases st <;> simp [SubtypeF.map, SubtypeF.withExt]

theorem badMultipleOf_ext : BadMultipleOf (s.withExt f g h) ↔ BadMultipleOf s := by
  unfold BadMultipleOf
  rw [ext_subtype]
  cases s.subtype with
  | none => simp
  | some st => cases st <;> simp [SubtypeF.map, SubtypeF.withExt]

theorem schemaViolation_ext {x : Error} : SchemaViolation (s.withExt f g h) x ↔ SchemaViolation s x := by
  unfold SchemaViolation
  rw [badBounds_ext, nanBound_ext, badMultipleOf_ext]

theorem violated_ext {x : Error} : (∃ y, Within y (s.withExt f g h) ∧ SchemaViolation y x) ↔
    ∃ y, Within y s ∧ SchemaViolation y x := by
  constructor
  · rintro ⟨y, hy, hv⟩
    obtain ⟨z, hz, rfl⟩ := within_ext hy
    exact ⟨z, hz, schemaViolation_ext.1 hv⟩
  · rintro ⟨y, hy, hv⟩
    exact ⟨_, within_ext_of hy, schemaViolation_ext.2 hv⟩

theorem schemaKey_ext {s : UncheckedDataSchema D A O} {k : String} : SchemaKey (s.withExt f g h) k ↔ SchemaKey s k := by
  unfold SchemaKey
  constructor
  · rintro ⟨y, hy, hv⟩
    obtain ⟨z, hz, rfl⟩ := within_ext hy
    rw [ext_head] at hv
    exact ⟨z, hz, hv⟩
  · rintro ⟨y, hy, hv⟩
    refine ⟨_, within_ext_of hy, ?_⟩
    rw [ext_head]
    exact hv

theorem sub_comm {S S' : Type} (G : S → S') (st : SubtypeF A O S) :
    (st.map G).withExt g h = (st.withExt g h).map G := by cases st <;> rfl

theorem mapLang_ext {l : L → L'} (s : Schema L D A O) : (s.withExt f g h).mapLang l = (s.mapLang l).withExt f g h := by
  induction s using Schema.ind with
  | h hd o st ih1 ih2 =>
    have e1 : (o.map (List.map (Schema.withExt f g h))).map (List.map (Schema.mapLang l)) =
        (o.map (List.map (Schema.mapLang l))).map (List.map (Schema.withExt f g h)) := by
      cases o with
      | none => rfl
      | some l' =>
        show some _ = some _
        rw [List.map_map, List.map_map]
        exact congrArg some (List.map_congr_left fun c hc => ih1 l' rfl c hc)
    have e2 : ((st.map (SubtypeF.map (Schema.withExt f g h))).map (SubtypeF.withExt g h)).map
        (SubtypeF.map (Schema.mapLang l)) = ((st.map (SubtypeF.map (Schema.mapLang l))).map
          (SubtypeF.map (Schema.withExt f g h))).map (SubtypeF.withExt g h) := by
      cases st with
      | none => rfl
      | some u =>
        have ih := ih2 u rfl
        rcases u with ⟨_ | (c | l), _, _, _⟩ | _ | _ | _ | ⟨_ | m, _, _⟩ | _ | _
        all_goals try rfl
        · simp [SubtypeF.map, SubtypeF.withExt, ElemOrVec.map]
          exact ih c (by simp [SubtypeF.children, ElemOrVec.toList])
        · simp [SubtypeF.map, SubtypeF.withExt, ElemOrVec.map]
          exact fun c hc => ih c (by simpa [SubtypeF.children, ElemOrVec.toList] using hc)
        · simp [SubtypeF.map, SubtypeF.withExt, HMap.mapVals]
          exact fun k c hc => ih c (by simp [SubtypeF.children, HMap.values]; exact ⟨k, hc⟩)
    rw [Reader.withExt_mk, mapLang_mk, mapLang_mk, Reader.withExt_mk, e1, e2]
    rfl

end Schemas

/-! ### Parts of builders -/

variable {e : ExtMap X Y} {env : Env} {x : Error}

theorem property_schema {p : PropertyBuilder X} : (PropertyBuilder.withExt e p).schema = UDS.withExt e p.schema := by
  unfold PropertyBuilderF.schema UDS.withExt
  rw [Reader.withExt_mk, Option.map_map]
  rfl

theorem uriVariables_ext {P : UDS X → Prop} {Q : UDS Y → Prop} (hq : ∀ s, Q (UDS.withExt e s) ↔ P s) {m : HMap (UDS X)} :
    (∃ kv ∈ HMap.mapVals (UDS.withExt e) m, Q kv.2) ↔ ∃ kv ∈ m, P kv.2 := by
  constructor
  · rintro ⟨⟨k, y⟩, hy, hv⟩
    obtain ⟨z, hz, rfl⟩ := mem_mapVals.1 hy
    exact ⟨(k, z), hz, (hq z).1 hv⟩
  · rintro ⟨⟨k, y⟩, hy, hv⟩
    exact ⟨_, mem hy, (hq y).2 hv⟩

theorem interactionFault_ext {h : List (ThingOp X)} {h' : List (ThingOp Y)} (hd : History.Defines h' = History.Defines h)
    {ty : AffordanceType} {i : PartialInteraction X X.interaction} :
    History.InteractionFault h' ty (interactionWithExt e i) x ↔ History.InteractionFault h ty i x := by
  unfold History.InteractionFault
  rw [hd]
  refine or_congr ?_ (and_congr ?_ Iff.rfl)
  · constructor
    · rintro ⟨y, hy, hv⟩
      obtain ⟨z, hz, rfl⟩ := List.mem_map.1 hy
      exact ⟨z, hz, hv⟩
    · rintro ⟨y, hy, hv⟩
      exact ⟨_, List.mem_map_of_mem hy, hv⟩
  · exact uriVariables_ext (Q := Schema.ArrayOrObject) fun _ => arrayOrObject_ext

theorem optSchema_ext {P : UDS X → Prop} {Q : UDS Y → Prop} (hq : ∀ s, Q (UDS.withExt e s) ↔ P s) {o : Option (UDS X)} :
    (∃ s, o.map (UDS.withExt e) = some s ∧ Q s) ↔ ∃ s, o = some s ∧ P s := by
  cases o with
  | none => simp
  | some s => simp [hq]

theorem interactionKey_ext {i : HumanReadableInfo} {p : PartialInteraction X X.interaction} {k : String} :
    InteractionKey i (interactionWithExt e p) k ↔ InteractionKey i p k :=
  or_congr Iff.rfl (or_congr Iff.rfl (uriVariables_ext (Q := (SchemaKey · k)) fun _ => schemaKey_ext))

theorem propertyKey_ext {p : PropertyBuilder X} : PropertyKey (PropertyBuilder.withExt e p) = PropertyKey p := by
  funext k
  unfold PropertyKey
  rw [property_schema]
  exact propext (or_congr schemaKey_ext (uriVariables_ext (Q := (SchemaKey · k)) fun _ => schemaKey_ext))

theorem ex_or {α : Sort _} {p q r : α → Prop} : (∃ a, (p a ∨ q a) ∧ r a) ↔ (∃ a, p a ∧ r a) ∨ ∃ a, q a ∧ r a := by
  simp only [or_and_right, exists_or]

theorem actionKey_ext {a : ActionBuilder X} : ActionKey (ActionBuilder.withExt e a) = ActionKey a := by
  funext k
  refine propext (or_congr interactionKey_ext ?_)
  rw [ex_or, ex_or]
  exact or_congr (optSchema_ext fun _ => schemaKey_ext) (optSchema_ext fun _ => schemaKey_ext)

theorem eventKey_ext {a : EventBuilder X} : EventKey (EventBuilder.withExt e a) = EventKey a := by
  funext k
  refine propext (or_congr interactionKey_ext ?_)
  rw [ex_or, ex_or, ex_or, ex_or, ex_or, ex_or]
  exact or_congr (optSchema_ext fun _ => schemaKey_ext) (or_congr (optSchema_ext fun _ => schemaKey_ext)
    (or_congr (optSchema_ext fun _ => schemaKey_ext) (optSchema_ext fun _ => schemaKey_ext)))

/-! ### Calls -/

section
variable {h : List (ThingOp X)}
open History

theorem filterMap_ext {α : Type} (F : {Z : ExtTypes} → ThingOp Z → Option α)
    (hF : ∀ op : ThingOp X, (op.withExt e).bind F = F op) : (withExt e h).filterMap F = h.filterMap F := by
  unfold withExt
  rw [List.filterMap_filterMap]
  exact congrArg (List.filterMap · h) (funext hF)

theorem filterMap_map {α β : Type} {F : ThingOp X → Option α} {G : ThingOp Y → Option β} {u : α → β}
    (hF : ∀ op : ThingOp X, (op.withExt e).bind G = (F op).map u) : (withExt e h).filterMap G = (h.filterMap F).map u := by
  unfold withExt
  rw [List.filterMap_filterMap, List.map_filterMap]
  exact congrArg (List.filterMap · h) (funext hF)

theorem securities_ext : securities (withExt e h) = securities h :=
  filterMap_ext (fun | .common (.security s) => some s | _ => none) fun op => by
    cases op with
    | common c => cases c <;> rfl
    | _ => rfl
theorem ids_ext : ids (withExt e h) = ids h :=
  filterMap_ext (fun | .common (.id v) => some v | _ => none) fun op => by
    cases op with
    | common c => cases c <;> rfl
    | _ => rfl
theorem descriptionTexts_ext : descriptionTexts (withExt e h) = descriptionTexts h :=
  filterMap_ext (fun | .common (.description v) => some v | _ => none) fun op => by
    cases op with
    | common c => cases c <;> rfl
    | _ => rfl
theorem versions_ext : versions (withExt e h) = versions h :=
  filterMap_ext (fun | .common (.version v) => some v | _ => none) fun op => by
    cases op with
    | common c => cases c <;> rfl
    | _ => rfl
theorem createds_ext : createds (withExt e h) = createds h :=
  filterMap_ext (fun | .common (.created v) => some v | _ => none) fun op => by
    cases op with
    | common c => cases c <;> rfl
    | _ => rfl
theorem modifieds_ext : modifieds (withExt e h) = modifieds h :=
  filterMap_ext (fun | .common (.modified v) => some v | _ => none) fun op => by
    cases op with
    | common c => cases c <;> rfl
    | _ => rfl
theorem supports_ext : supports (withExt e h) = supports h :=
  filterMap_ext (fun | .common (.support v) => some v | _ => none) fun op => by
    cases op with
    | common c => cases c <;> rfl
    | _ => rfl
theorem bases_ext : bases (withExt e h) = bases h :=
  filterMap_ext (fun | .common (.base v) => some v | _ => none) fun op => by
    cases op with
    | common c => cases c <;> rfl
    | _ => rfl
theorem attypes_ext : attypes (withExt e h) = attypes h :=
  filterMap_ext (fun | .common (.attype v) => some v | _ => none) fun op => by
    cases op with
    | common c => cases c <;> rfl
    | _ => rfl
theorem titles_ext : titles (withExt e h) = titles h :=
  filterMap_ext (fun | .common (.titles v) => some v | _ => none) fun op => by
    cases op with
    | common c => cases c <;> rfl
    | _ => rfl
theorem descriptions_ext : descriptions (withExt e h) = descriptions h :=
  filterMap_ext (fun | .common (.descriptions v) => some v | _ => none) fun op => by
    cases op with
    | common c => cases c <;> rfl
    | _ => rfl
theorem profiles_ext : profiles (withExt e h) = profiles h :=
  filterMap_ext (fun | .common (.profile v) => some v | _ => none) fun op => by
    cases op with
    | common c => cases c <;> rfl
    | _ => rfl
theorem contexts_ext : contexts (withExt e h) = contexts h :=
  filterMap_ext (α := Context) (fun
    | .common (.context v) => if v = tdContext11 then none else some (.simple v)
    | .common (.contextMap calls) => some (.map (HMap.collect calls))
    | _ => none) fun op => by
    cases op with
    | common c => cases c <;> rfl
    | _ => rfl
theorem links_ext : links (withExt e h) = links h :=
  filterMap_ext (α := UncheckedLink) (fun
    | .common (.link href) => some { href }
    | .common (.linkWith pre href post) => some (.ofCalls pre href post)
    | _ => none) fun op => by
    cases op with
    | common c => cases c <;> rfl
    | _ => rfl

theorem forms_ext : forms (withExt e h) = (forms h).map (FormBuilder.withExt e) :=
  filterMap_map fun op => by cases op <;> rfl
theorem uriVariableCalls_ext : uriVariables (withExt e h) = HMap.mapVals (UDS.withExt e) (uriVariables h) :=
  filterMap_map fun op => by cases op <;> rfl
theorem properties_ext : properties (withExt e h) = HMap.mapVals (PropertyBuilder.withExt e) (properties h) :=
  filterMap_map fun op => by cases op <;> rfl
theorem actions_ext : actions (withExt e h) = HMap.mapVals (ActionBuilder.withExt e) (actions h) :=
  filterMap_map fun op => by cases op <;> rfl
theorem events_ext : events (withExt e h) = HMap.mapVals (EventBuilder.withExt e) (events h) :=
  filterMap_map fun op => by cases op <;> rfl
theorem schemaDefinitions_ext : schemaDefinitions (withExt e h) = HMap.mapVals (UDS.withExt e) (schemaDefinitions h) :=
  filterMap_map fun op => by cases op <;> rfl

theorem defines_ext : Defines (withExt e h) = Defines h := by
  unfold Defines
  rw [securities_ext]

theorem keys_ext {V W : Type} {u : V → W} {m : HMap V} : (HMap.mapVals u m).map (·.1) = m.map (·.1) := by
  unfold HMap.mapVals
  rw [List.map_map]; rfl

theorem declares_calls : Declares (withExt e h) = Declares h := by
  funext n
  unfold Declares
  simp only [← mem_schemaDefinitions, schemaDefinitions_ext]
  refine propext ⟨?_, fun ⟨s, hs⟩ => ⟨_, mem hs⟩⟩
  rintro ⟨s, hs⟩
  obtain ⟨z, hz, -⟩ := mem_mapVals.1 hs
  exact ⟨z, hz⟩

theorem named_ext {V W : Type} {u : V → W} {m : List (String × V)} {n : String} :
    lastOf (named n (HMap.mapVals u m)) = (lastOf (named n m)).map u := by
  rw [← lastOf_map]
  congr 1
  unfold named HMap.mapVals
  rw [List.filterMap_map, List.map_filterMap]
  congr 1; funext kv
  show (if kv.1 = n then some (u kv.2) else none) = _
  split <;> rfl

theorem last_ext {n : String} {P : UDS X → Prop} {Q : UDS Y → Prop} (hq : ∀ s, Q (UDS.withExt e s) ↔ P s)
    {m : List (String × UDS X)} :
    (∃ s, lastOf (named n (HMap.mapVals (UDS.withExt e) m)) = some s ∧ Q s) ↔ ∃ s, lastOf (named n m) = some s ∧ P s := by
  rw [named_ext]
  exact optSchema_ext hq

theorem langKeys_ext {s : UDS X} : LangViolation env (SchemaKey (UDS.withExt e s)) x ↔ LangViolation env (SchemaKey s) x :=
  exists_congr fun _ => and_congr schemaKey_ext Iff.rfl

theorem calls_ext {V W : Type} {u : V → W} {m : List (String × V)} {P : V → Prop} {Q : W → Prop} (hq : ∀ s, Q (u s) ↔ P s) :
    (∃ n s, (n, s) ∈ HMap.mapVals u m ∧ Q s) ↔ ∃ n s, (n, s) ∈ m ∧ P s := by
  constructor
  · rintro ⟨n, s, hs, hv⟩
    obtain ⟨z, hz, rfl⟩ := mem_mapVals.1 hs
    exact ⟨n, z, hz, (hq z).1 hv⟩
  · rintro ⟨n, s, hs, hv⟩
    exact ⟨n, _, mem hs, (hq s).2 hv⟩

theorem hasSchema_definition {s : UDS X} : HasSchema h .schemaDefinition s ↔
    ∃ n, lastOf (named n (schemaDefinitions h)) = some s :=
  ⟨fun | .schemaDefinition h => ⟨_, h⟩, fun ⟨_, h⟩ => .schemaDefinition h⟩

/-- In each phase, the same is wrong. -/
theorem fault_ext {p : Phase} : Fault env (withExt e h) p x ↔ Fault env h p x := by
  cases p with
  | securityDefinitions => unfold Fault; rw [securities_ext]
  | comboReferences => unfold Fault; rw [securities_ext, defines_ext]
  | schemaDefinitions =>
    have H : ∀ {Z : ExtTypes} (h : List (ThingOp Z)), Fault env h .schemaDefinitions x ↔
        ∃ n s, lastOf (named n (schemaDefinitions h)) = some s ∧ LangViolation env (SchemaKey s) x := fun h =>
      ⟨fun ⟨s, h1, h2⟩ => have ⟨n, h3⟩ := hasSchema_definition.1 h1; ⟨n, s, h3, h2⟩,
        fun ⟨n, s, h1, h2⟩ => ⟨s, .schemaDefinition h1, h2⟩⟩
    rw [H, H, schemaDefinitions_ext]
    exact exists_congr fun n => last_ext (Q := fun s => LangViolation env (SchemaKey s) x) fun _ => langKeys_ext
  | thingForms =>
    unfold Fault
    simp only [← mem_forms, forms_ext, defines_ext, declares_calls]
    constructor
    · rintro ⟨y, hy, hv⟩
      obtain ⟨z, hz, rfl⟩ := List.mem_map.1 hy
      exact ⟨z, hz, hv⟩
    · rintro ⟨y, hy, hv⟩
      exact ⟨_, List.mem_map_of_mem hy, hv⟩
  | uriVariableTypes =>
    unfold Fault
    rw [uriVariableCalls_ext]
    exact and_congr Iff.rfl (exists_congr fun n => last_ext (Q := Schema.ArrayOrObject) fun _ => arrayOrObject_ext)
  | uriVariableLanguages =>
    unfold Fault
    rw [uriVariableCalls_ext]
    exact exists_congr fun n => last_ext (Q := fun s => LangViolation env (SchemaKey s) x) fun _ => langKeys_ext
  | properties =>
    unfold Fault
    simp only [← mem_properties, properties_ext, keys_ext]
    refine or_congr (calls_ext fun p => or_congr (interactionFault_ext defines_ext) (or_congr ?_ ?_)) Iff.rfl
    · rw [property_schema]; exact violated_ext
    · rw [propertyKey_ext]
  | actions =>
    unfold Fault
    simp only [← mem_actions, actions_ext, keys_ext]
    refine or_congr (calls_ext fun p => or_congr (interactionFault_ext defines_ext) (or_congr ?_ ?_)) Iff.rfl
    · simp only [exists_and_left]
      rw [ex_or, ex_or]
      exact or_congr (optSchema_ext fun _ => violated_ext) (optSchema_ext fun _ => violated_ext)
    · rw [actionKey_ext]
  | events =>
    unfold Fault
    simp only [← mem_events, events_ext, keys_ext]
    refine or_congr (calls_ext fun p => or_congr (interactionFault_ext defines_ext) (or_congr ?_ ?_)) Iff.rfl
    · simp only [exists_and_left]
      rw [ex_or, ex_or, ex_or, ex_or]
      exact or_congr (optSchema_ext fun _ => violated_ext) (or_congr (optSchema_ext fun _ => violated_ext)
        (optSchema_ext fun _ => violated_ext))
    · rw [eventKey_ext]
  | links => unfold Fault; rw [links_ext]
  | titles => unfold Fault; rw [titles_ext]
  | descriptions => unfold Fault; rw [descriptions_ext]

end

/-! ### Results -/

theorem lang_ext {l : MultiLanguageBuilder → MultiLanguage} (s : UDS X) :
    Schema.mapLang l (UDS.withExt e s) = DS.withExt e (s.mapLang l) := mapLang_ext s

theorem optLang_ext {l : MultiLanguageBuilder → MultiLanguage} (o : Option (UDS X)) :
    (o.map (UDS.withExt e)).map (Schema.mapLang l) = (o.map (Schema.mapLang l)).map (DS.withExt e) := by
  cases o with
  | none => rfl
  | some s => exact congrArg some (lang_ext s)

theorem mapVals_comm {A B C D : Type} {f : A → B} {g : B → D} {f' : A → C} {g' : C → D} (hc : ∀ a, g (f a) = g' (f' a))
    (m : HMap A) : HMap.mapVals g (HMap.mapVals f m) = HMap.mapVals g' (HMap.mapVals f' m) := by
  unfold HMap.mapVals
  rw [List.map_map, List.map_map]
  exact List.map_congr_left fun kv _ => by
    show (kv.1, g (f kv.2)) = (kv.1, g' (f' kv.2))
    rw [hc]

theorem langMap_ext {l : MultiLanguageBuilder → MultiLanguage} (m : HMap (UDS X)) :
    HMap.mapVals (Schema.mapLang l) (HMap.mapVals (UDS.withExt e) m) =
      HMap.mapVals (DS.withExt e) (HMap.mapVals (Schema.mapLang l) m) := mapVals_comm lang_ext m

theorem formResult_ext (x : FormBuilder X) : FormBuilder.result (FormBuilder.withExt e x) = (FormBuilder.result x).withExt e := rfl

theorem ifEmpty_ext {l : MultiLanguageBuilder → MultiLanguage} (m : HMap (UDS X)) :
    (if HMap.mapVals (UDS.withExt e) m = [] then none else
      some (HMap.mapVals (Schema.mapLang l) (HMap.mapVals (UDS.withExt e) m))) =
    (if m = [] then none else some (HMap.mapVals (Schema.mapLang l) m)).map (HMap.mapVals (DS.withExt e)) := by
  rw [langMap_ext]
  cases m <;> rfl

theorem interactionResult_ext (i : HumanReadableInfo) (p : PartialInteraction X X.interaction) :
    interactionResult env i (interactionWithExt e p) = (interactionResult env i p).withExt e := by
  unfold interactionResult interactionWithExt Interaction.withExt
  rw [ifEmpty_ext, List.map_map, List.map_map]
  rfl

theorem propertyResult_ext (p : PropertyBuilder X) :
    PropertyBuilder.result env (PropertyBuilder.withExt e p) = (PropertyBuilder.result env p).withExt e := by
  unfold PropertyBuilder.result PropertyAffordance.withExt
  rw [property_schema, lang_ext]
  show PropertyAffordance.mk (interactionResult env p.info (interactionWithExt e p.interaction)) _ _ _ = _
  rw [interactionResult_ext]
  rfl

theorem actionResult_ext (a : ActionBuilder X) :
    ActionBuilder.result env (ActionBuilder.withExt e a) = (ActionBuilder.result env a).withExt e := by
  unfold ActionBuilder.result ActionAffordance.withExt ActionBuilder.withExt
  dsimp only
  rw [interactionResult_ext, optLang_ext, optLang_ext]

theorem eventResult_ext (a : EventBuilder X) :
    EventBuilder.result env (EventBuilder.withExt e a) = (EventBuilder.result env a).withExt e := by
  unfold EventBuilder.result EventAffordance.withExt EventBuilder.withExt
  dsimp only
  rw [interactionResult_ext, optLang_ext, optLang_ext, optLang_ext, optLang_ext]

theorem mapResult_ext {A A' B B' : Type} {u : A → A'} {r : A → B} {r' : A' → B'} {w : B → B'} (hc : ∀ a, r' (u a) = w (r a))
    (m : List (String × A)) : mapResult r' (HMap.mapVals u m) = (mapResult r m).map (HMap.mapVals w) := by
  unfold mapResult
  cases m with
  | nil => rfl
  | cons a m =>
    rw [if_neg nofun, if_neg nofun]
    show some (HMap.collect (HMap.mapVals r' (HMap.mapVals u (a :: m)))) = some (HMap.mapVals w (HMap.collect (HMap.mapVals r (a :: m))))
    rw [mapVals_comm hc, collect_mapVals]

theorem someList_map {A B : Type} {u : A → B} (l : List A) : someList (l.map u) = (someList l).map (List.map u) := by
  cases l <;> rfl

open History in
/-- The Thing built from the calls of the other program is the Thing of the other program. -/
theorem result_ext {h : List (ThingOp X)} {title : String} {o : X.thing} :
    (supplied title (withExt e h) (e.thing o)).result env = ((supplied title h o).result env).withExt e := by
  unfold supplied ThingBuilder.result Thing.withExt
  dsimp only
  rw [contexts_ext, ids_ext, attypes_ext, titles_ext, descriptionTexts_ext, descriptions_ext, versions_ext, createds_ext,
    modifieds_ext, supports_ext, bases_ext, links_ext, securities_ext, profiles_ext, properties_ext, actions_ext, events_ext,
    forms_ext, uriVariableCalls_ext, schemaDefinitions_ext, collect_mapVals, ifEmpty_ext, mapResult_ext propertyResult_ext,
    mapResult_ext actionResult_ext, mapResult_ext eventResult_ext]
  have e1 : (someList ((forms h).map (FormBuilder.withExt e))).map (List.map FormBuilder.result) =
      ((someList (forms h)).map (List.map FormBuilder.result)).map (List.map (Form.withExt e)) := by
    rw [someList_map, Option.map_map, Option.map_map]
    congr 1; funext l
    show List.map _ (List.map _ _) = List.map _ (List.map _ _)
    rw [List.map_map, List.map_map]; rfl
  have e2 : ((someList (HMap.mapVals (UDS.withExt e) (uriVariables h))).map HMap.collect).map
        (HMap.mapVals (Schema.mapLang (langResult env))) =
      (((someList (uriVariables h)).map HMap.collect).map (HMap.mapVals (Schema.mapLang (langResult env)))).map
        (HMap.mapVals (DS.withExt e)) := by
    show ((someList (List.map _ _)).map _).map _ = _
    rw [someList_map, Option.map_map, Option.map_map, Option.map_map, Option.map_map]
    congr 1; funext l
    show HMap.mapVals _ (HMap.collect (HMap.mapVals _ l)) = HMap.mapVals _ (HMap.mapVals _ _)
    rw [collect_mapVals, langMap_ext]
  rw [e1, e2]

end Blind
end Wot
