import Verif.Lemmas.RenameResult
import Verif.Spec.Storable
import Verif.Spec.Unordered
import Verif.Lemmas.Equality
/-
Lemmas for C90: what the renamed Thing consists of.
-/
namespace Wot.Renamed

variable {X : ExtTypes} {t : Thing X} {r : Renaming} {V : Type} {f : String → String} {u : V → V}

theorem mem_keys (hf : ∀ m n, f m = f n → m = n) {m : HMap V} (hm : HMap.Sorted m) {k : String} {w : V} :
    (k, w) ∈ Renaming.keys f (HMap.mapVals u m) ↔ ∃ n v, (n, v) ∈ m ∧ k = f n ∧ w = u v := by
  have h2 : (((HMap.mapVals u m).map fun kv => (f kv.1, kv.2)).map (·.1)).Nodup := by
    rw [show ((HMap.mapVals u m).map fun kv => (f kv.1, kv.2)).map (·.1) = (m.map (·.1)).map f by
      unfold HMap.mapVals; rw [List.map_map, List.map_map, List.map_map]; rfl]
    exact List.Pairwise.map f (fun a b hab e => hab (hf a b e)) hm.nodup
  unfold Renaming.keys
  rw [← (perm_collect h2).mem_iff]
  unfold HMap.mapVals
  rw [List.map_map]
  constructor
  · intro h
    obtain ⟨⟨n, v⟩, h1, e⟩ := List.mem_map.1 h
    cases e
    exact ⟨n, v, h1, rfl, rfl⟩
  · rintro ⟨n, v, h1, rfl, rfl⟩
    exact List.mem_map.2 ⟨(n, v), h1, rfl⟩

theorem keys_sorted (m : HMap V) : (Renaming.keys f m).Sorted := HMap.collect_sorted _

theorem mem_maps (hf : ∀ m n, f m = f n → m = n) {o : Option (HMap V)} (ho : ∀ m, o = some m → HMap.Sorted m) {k : String} {w : V} :
    (∃ m, (o.map fun m => Renaming.keys f (HMap.mapVals u m)) = some m ∧ (k, w) ∈ m) ↔
      ∃ m n v, o = some m ∧ (n, v) ∈ m ∧ k = f n ∧ w = u v := by
  cases o with
  | none => simp
  | some m =>
    constructor
    · rintro ⟨m', h1, h2⟩
      cases h1
      obtain ⟨n, v, h3⟩ := (mem_keys hf (ho m rfl)).1 h2
      exact ⟨m, n, v, rfl, h3⟩
    · rintro ⟨m', n, v, h1, h2⟩
      cases h1
      exact ⟨_, rfl, (mem_keys hf (ho m rfl)).2 ⟨n, v, h2⟩⟩

theorem all_maps (hf : ∀ m n, f m = f n → m = n) {o : Option (HMap V)} (ho : ∀ m, o = some m → HMap.Sorted m) {P : V → Prop} :
    (∀ m, (o.map fun m => Renaming.keys f (HMap.mapVals u m)) = some m → ∀ kv ∈ m, P kv.2) ↔
      ∀ m, o = some m → ∀ kv ∈ m, P (u kv.2) := by
  constructor
  · rintro h m rfl ⟨n, v⟩ hv
    exact h _ rfl (f n, u v) ((mem_keys hf (ho m rfl)).2 ⟨n, v, hv, rfl, rfl⟩)
  · rintro h m hm ⟨k, w⟩ hw
    obtain ⟨m', n, v, h1, h2, rfl, rfl⟩ := (mem_maps hf ho).1 ⟨m, hm, hw⟩
    exact h m' h1 (n, v) h2

theorem mapVals_id (m : HMap V) : HMap.mapVals (fun v => v) m = m := by
  unfold HMap.mapVals
  exact List.map_id m

section
variable (hf : r.Faithful) (ht : t.Maps)
include hf ht

theorem mem_properties {k : String} {w : PropertyAffordance X} : (∃ m, (r.thing t).properties = some m ∧ (k, w) ∈ m) ↔
    ∃ m n v, t.properties = some m ∧ (n, v) ∈ m ∧ k = r.affordance .property n ∧ w = r.property v :=
  mem_maps (hf.affordance _) ht.properties
theorem mem_actions {k : String} {w : ActionAffordance X} : (∃ m, (r.thing t).actions = some m ∧ (k, w) ∈ m) ↔
    ∃ m n v, t.actions = some m ∧ (n, v) ∈ m ∧ k = r.affordance .action n ∧ w = r.action v :=
  mem_maps (hf.affordance _) ht.actions
theorem mem_events {k : String} {w : EventAffordance X} : (∃ m, (r.thing t).events = some m ∧ (k, w) ∈ m) ↔
    ∃ m n v, t.events = some m ∧ (n, v) ∈ m ∧ k = r.affordance .event n ∧ w = r.event v :=
  mem_maps (hf.affordance _) ht.events
theorem mem_schemas {k : String} {w : DS X} : (∃ m, (r.thing t).schemaDefinitions = some m ∧ (k, w) ∈ m) ↔
    ∃ m n, t.schemaDefinitions = some m ∧ (n, w) ∈ m ∧ k = r.schema n := by
  have e : (r.thing t).schemaDefinitions = t.schemaDefinitions.map fun m => Renaming.keys r.schema (HMap.mapVals (fun v => v) m) := by
    show t.schemaDefinitions.map _ = _
    congr 1
    funext m
    rw [mapVals_id]
  rw [e, mem_maps hf.schema ht.schemaDefinitions]
  constructor
  · rintro ⟨m, n, v, h1, h2, h3, rfl⟩
    exact ⟨m, n, h1, h2, h3⟩
  · rintro ⟨m, n, h1, h2, h3⟩
    exact ⟨m, n, w, h1, h2, h3, rfl⟩
theorem mem_security {k : String} {w : SecurityScheme} : (k, w) ∈ (r.thing t).securityDefinitions ↔
    ∃ n v, (n, v) ∈ t.securityDefinitions ∧ k = r.security n ∧ w = r.scheme v :=
  mem_keys hf.security ht.securityDefinitions

theorem hasInteraction {i : Interaction X} : (r.thing t).HasInteraction i ↔ ∃ j, t.HasInteraction j ∧ i = r.interaction j := by
  constructor
  · rintro (⟨h1, h2⟩ | ⟨h1, h2⟩ | ⟨h1, h2⟩)
    · obtain ⟨m, n, v, h3, h4, -, rfl⟩ := (mem_properties hf ht).1 ⟨_, h1, h2⟩
      exact ⟨_, .property h3 h4, rfl⟩
    · obtain ⟨m, n, v, h3, h4, -, rfl⟩ := (mem_actions hf ht).1 ⟨_, h1, h2⟩
      exact ⟨_, .action h3 h4, rfl⟩
    · obtain ⟨m, n, v, h3, h4, -, rfl⟩ := (mem_events hf ht).1 ⟨_, h1, h2⟩
      exact ⟨_, .event h3 h4, rfl⟩
  · rintro ⟨j, (⟨h1, h2⟩ | ⟨h1, h2⟩ | ⟨h1, h2⟩), rfl⟩
    · obtain ⟨m, h3, h4⟩ := (mem_properties hf ht).2 ⟨_, _, _, h1, h2, rfl, rfl⟩
      exact .property h3 h4
    · obtain ⟨m, h3, h4⟩ := (mem_actions hf ht).2 ⟨_, _, _, h1, h2, rfl, rfl⟩
      exact .action h3 h4
    · obtain ⟨m, h3, h4⟩ := (mem_events hf ht).2 ⟨_, _, _, h1, h2, rfl, rfl⟩
      exact .event h3 h4

theorem hasForm {c : FormContext} {x : Form X} : (r.thing t).HasForm c x ↔ ∃ y, t.HasForm c y ∧ x = r.form y := by
  constructor
  · rintro (⟨h1, h2⟩ | ⟨h1, h2, h5⟩ | ⟨h1, h2, h5⟩ | ⟨h1, h2, h5⟩)
    · obtain ⟨l, h3, rfl⟩ := Option.map_eq_some_iff.1 h1
      obtain ⟨y, h4, rfl⟩ := List.mem_map.1 h2
      exact ⟨y, .thing h3 h4, rfl⟩
    · obtain ⟨m, n, v, h3, h4, -, rfl⟩ := (mem_properties hf ht).1 ⟨_, h1, h2⟩
      obtain ⟨y, h6, rfl⟩ := List.mem_map.1 h5
      exact ⟨y, .property h3 h4 h6, rfl⟩
    · obtain ⟨m, n, v, h3, h4, -, rfl⟩ := (mem_actions hf ht).1 ⟨_, h1, h2⟩
      obtain ⟨y, h6, rfl⟩ := List.mem_map.1 h5
      exact ⟨y, .action h3 h4 h6, rfl⟩
    · obtain ⟨m, n, v, h3, h4, -, rfl⟩ := (mem_events hf ht).1 ⟨_, h1, h2⟩
      obtain ⟨y, h6, rfl⟩ := List.mem_map.1 h5
      exact ⟨y, .event h3 h4 h6, rfl⟩
  · rintro ⟨y, (⟨h1, h2⟩ | ⟨h1, h2, h5⟩ | ⟨h1, h2, h5⟩ | ⟨h1, h2, h5⟩), rfl⟩
    · exact .thing (fs := _) (show t.forms.map (List.map r.form) = _ by rw [h1]; rfl) (List.mem_map_of_mem h2)
    · obtain ⟨m, h3, h4⟩ := (mem_properties hf ht).2 ⟨_, _, _, h1, h2, rfl, rfl⟩
      exact .property h3 h4 (List.mem_map_of_mem h5)
    · obtain ⟨m, h3, h4⟩ := (mem_actions hf ht).2 ⟨_, _, _, h1, h2, rfl, rfl⟩
      exact .action h3 h4 (List.mem_map_of_mem h5)
    · obtain ⟨m, h3, h4⟩ := (mem_events hf ht).2 ⟨_, _, _, h1, h2, rfl, rfl⟩
      exact .event h3 h4 (List.mem_map_of_mem h5)

theorem hasSchema {p : Position} {s : DS X} : (r.thing t).HasSchema p s ↔ t.HasSchema p s := by
  constructor
  · intro h
    cases h with
    | property h1 h2 =>
      obtain ⟨m, n, v, h3, h4, -, rfl⟩ := (mem_properties hf ht).1 ⟨_, h1, h2⟩
      exact .property (p := v) h3 h4
    | input h1 h2 h5 =>
      obtain ⟨m, n, v, h3, h4, -, rfl⟩ := (mem_actions hf ht).1 ⟨_, h1, h2⟩
      exact .input h3 h4 h5
    | output h1 h2 h5 =>
      obtain ⟨m, n, v, h3, h4, -, rfl⟩ := (mem_actions hf ht).1 ⟨_, h1, h2⟩
      exact .output h3 h4 h5
    | subscription h1 h2 h5 =>
      obtain ⟨m, n, v, h3, h4, -, rfl⟩ := (mem_events hf ht).1 ⟨_, h1, h2⟩
      exact .subscription h3 h4 h5
    | data h1 h2 h5 =>
      obtain ⟨m, n, v, h3, h4, -, rfl⟩ := (mem_events hf ht).1 ⟨_, h1, h2⟩
      exact .data h3 h4 h5
    | cancellation h1 h2 h5 =>
      obtain ⟨m, n, v, h3, h4, -, rfl⟩ := (mem_events hf ht).1 ⟨_, h1, h2⟩
      exact .cancellation h3 h4 h5
    | dataResponse h1 h2 h5 =>
      obtain ⟨m, n, v, h3, h4, -, rfl⟩ := (mem_events hf ht).1 ⟨_, h1, h2⟩
      exact .dataResponse h3 h4 h5
    | uriVariable h1 h2 => exact .uriVariable h1 h2
    | propertyUriVariable h1 h2 h5 h6 =>
      obtain ⟨m, n, v, h3, h4, -, rfl⟩ := (mem_properties hf ht).1 ⟨_, h1, h2⟩
      exact .propertyUriVariable h3 h4 h5 h6
    | actionUriVariable h1 h2 h5 h6 =>
      obtain ⟨m, n, v, h3, h4, -, rfl⟩ := (mem_actions hf ht).1 ⟨_, h1, h2⟩
      exact .actionUriVariable h3 h4 h5 h6
    | eventUriVariable h1 h2 h5 h6 =>
      obtain ⟨m, n, v, h3, h4, -, rfl⟩ := (mem_events hf ht).1 ⟨_, h1, h2⟩
      exact .eventUriVariable h3 h4 h5 h6
    | schemaDefinition h1 h2 =>
      obtain ⟨m, n, h3, h4, -⟩ := (mem_schemas hf ht).1 ⟨_, h1, h2⟩
      exact .schemaDefinition h3 h4
  · intro h
    cases h with
    | @property _ _ p h1 h2 =>
      obtain ⟨m, h3, h4⟩ := (mem_properties hf ht).2 ⟨_, _, _, h1, h2, rfl, rfl⟩
      exact .property (p := r.property p) h3 h4
    | input h1 h2 h5 =>
      obtain ⟨m, h3, h4⟩ := (mem_actions hf ht).2 ⟨_, _, _, h1, h2, rfl, rfl⟩
      exact .input h3 h4 h5
    | output h1 h2 h5 =>
      obtain ⟨m, h3, h4⟩ := (mem_actions hf ht).2 ⟨_, _, _, h1, h2, rfl, rfl⟩
      exact .output h3 h4 h5
    | subscription h1 h2 h5 =>
      obtain ⟨m, h3, h4⟩ := (mem_events hf ht).2 ⟨_, _, _, h1, h2, rfl, rfl⟩
      exact .subscription h3 h4 h5
    | data h1 h2 h5 =>
      obtain ⟨m, h3, h4⟩ := (mem_events hf ht).2 ⟨_, _, _, h1, h2, rfl, rfl⟩
      exact .data h3 h4 h5
    | cancellation h1 h2 h5 =>
      obtain ⟨m, h3, h4⟩ := (mem_events hf ht).2 ⟨_, _, _, h1, h2, rfl, rfl⟩
      exact .cancellation h3 h4 h5
    | dataResponse h1 h2 h5 =>
      obtain ⟨m, h3, h4⟩ := (mem_events hf ht).2 ⟨_, _, _, h1, h2, rfl, rfl⟩
      exact .dataResponse h3 h4 h5
    | uriVariable h1 h2 => exact .uriVariable h1 h2
    | propertyUriVariable h1 h2 h5 h6 =>
      obtain ⟨m, h3, h4⟩ := (mem_properties hf ht).2 ⟨_, _, _, h1, h2, rfl, rfl⟩
      exact .propertyUriVariable h3 h4 h5 h6
    | actionUriVariable h1 h2 h5 h6 =>
      obtain ⟨m, h3, h4⟩ := (mem_actions hf ht).2 ⟨_, _, _, h1, h2, rfl, rfl⟩
      exact .actionUriVariable h3 h4 h5 h6
    | eventUriVariable h1 h2 h5 h6 =>
      obtain ⟨m, h3, h4⟩ := (mem_events hf ht).2 ⟨_, _, _, h1, h2, rfl, rfl⟩
      exact .eventUriVariable h3 h4 h5 h6
    | schemaDefinition h1 h2 =>
      obtain ⟨m, h3, h4⟩ := (mem_schemas hf ht).2 ⟨_, _, h1, h2, rfl⟩
      exact .schemaDefinition h3 h4

end

theorem unknown_eq {s : SchemeSubtype} {n : String} {data : Json} : r.subtype s = .unknown n data ↔ s = .unknown n data := by
  unfold Renaming.subtype
  split <;> simp

theorem subtype_kept {s : SchemeSubtype} : (r.subtype s).Kept ↔ s.Kept := by
  unfold Renaming.subtype
  split <;> simp [SchemeSubtype.Kept]

section
variable {env : SerdeEnv} {C : ExtCodecs X} (hf : r.Faithful) (ht : t.Maps)
include hf ht

theorem writable : Writable env C (r.thing t) ↔ Writable env C t := by
  constructor
  · intro h
    exact
    { created := h.created
      modified := h.modified
      security := fun n s scheme data h1 h2 =>
        h.security _ _ scheme data ((mem_security hf ht).2 ⟨n, s, h1, rfl, rfl⟩) (unknown_eq.2 h2)
      schemas := fun p s x h1 => h.schemas p s x ((hasSchema hf ht).2 h1)
      forms := fun c x h1 => h.forms c (r.form x) ((hasForm hf ht).2 ⟨x, h1, rfl⟩)
      interactions := fun i h1 => h.interactions (r.interaction i) ((hasInteraction hf ht).2 ⟨i, h1, rfl⟩)
      properties := (all_maps (u := r.property) (hf.affordance .property) ht.properties (P := fun v => ∃ m, C.property.ser v.other = some m)).1 h.properties
      actions := (all_maps (u := r.action) (hf.affordance .action) ht.actions (P := fun v => ∃ m, C.action.ser v.other = some m)).1 h.actions
      events := (all_maps (u := r.event) (hf.affordance .event) ht.events (P := fun v => ∃ m, C.event.ser v.other = some m)).1 h.events
      other := h.other }
  · intro h
    exact
    { created := h.created
      modified := h.modified
      security := fun k w scheme data h1 h2 => by
        obtain ⟨n, s, h3, rfl, rfl⟩ := (mem_security hf ht).1 h1
        exact h.security n s scheme data h3 (unknown_eq.1 h2)
      schemas := fun p s x h1 => h.schemas p s x ((hasSchema hf ht).1 h1)
      forms := fun c x h1 => by
        obtain ⟨y, h2, rfl⟩ := (hasForm hf ht).1 h1
        exact h.forms c y h2
      interactions := fun i h1 => by
        obtain ⟨j, h2, rfl⟩ := (hasInteraction hf ht).1 h1
        exact h.interactions j h2
      properties := (all_maps (u := r.property) (hf.affordance .property) ht.properties (P := fun v => ∃ m, C.property.ser v.other = some m)).2 h.properties
      actions := (all_maps (u := r.action) (hf.affordance .action) ht.actions (P := fun v => ∃ m, C.action.ser v.other = some m)).2 h.actions
      events := (all_maps (u := r.event) (hf.affordance .event) ht.events (P := fun v => ∃ m, C.event.ser v.other = some m)).2 h.events
      other := h.other }

end

theorem formKept {C : ExtCodecs X} {x : Form X} : FormKept C (r.form x) ↔ FormKept C x :=
  ⟨fun h => ⟨h.response, h.other⟩, fun h => ⟨h.response, h.other⟩⟩

variable {env : SerdeEnv} {C : ExtCodecs X}

theorem interactionKept {i : Interaction X} : InteractionKept env C (r.interaction i) ↔ InteractionKept env C i := by
  constructor
  · exact fun h => ⟨h.titles, h.descriptions, fun x hx => formKept.1 (h.forms _ (List.mem_map_of_mem hx)), h.uriVariables, h.other⟩
  · refine fun h => ⟨h.titles, h.descriptions, fun x hx => ?_, h.uriVariables, h.other⟩
    obtain ⟨y, hy, rfl⟩ := List.mem_map.1 hx
    exact formKept.2 (h.forms y hy)

theorem propertyKept {p : PropertyAffordance X} : PropertyKept env C (r.property p) ↔ PropertyKept env C p :=
  ⟨fun h => ⟨interactionKept.1 h.interaction, h.dataSchema, h.other⟩, fun h => ⟨interactionKept.2 h.interaction, h.dataSchema, h.other⟩⟩
theorem actionKept {p : ActionAffordance X} : ActionKept env C (r.action p) ↔ ActionKept env C p :=
  ⟨fun h => ⟨interactionKept.1 h.interaction, h.input, h.output, h.other⟩,
   fun h => ⟨interactionKept.2 h.interaction, h.input, h.output, h.other⟩⟩
theorem eventKept {p : EventAffordance X} : EventKept env C (r.event p) ↔ EventKept env C p :=
  ⟨fun h => ⟨interactionKept.1 h.interaction, h.subscription, h.data, h.dataResponse, h.cancellation, h.other⟩,
   fun h => ⟨interactionKept.2 h.interaction, h.subscription, h.data, h.dataResponse, h.cancellation, h.other⟩⟩
theorem schemeKept {s : SecurityScheme} : (r.scheme s).Kept env ↔ s.Kept env :=
  ⟨fun h => ⟨h.descriptions, subtype_kept.1 h.subtype⟩, fun h => ⟨h.descriptions, subtype_kept.2 h.subtype⟩⟩

theorem maps_sorted {o : Option (HMap V)} : ∀ m, (o.map fun m => Renaming.keys f (HMap.mapVals u m)) = some m → m.Sorted := by
  intro m hm
  obtain ⟨m', -, rfl⟩ := Option.map_eq_some_iff.1 hm
  exact keys_sorted _

theorem kept_maps (hf : ∀ m n, f m = f n → m = n) {o : Option (HMap V)} (ho : ∀ m, o = some m → HMap.Sorted m) {P : V → Prop}
    (hu : ∀ v, P (u v) ↔ P v) :
    (∀ m, (o.map fun m => Renaming.keys f (HMap.mapVals u m)) = some m → m.Sorted ∧ ∀ kv ∈ m, P kv.2) ↔
      ∀ m, o = some m → m.Sorted ∧ ∀ kv ∈ m, P kv.2 := by
  constructor
  · exact fun h m hm => ⟨ho m hm, fun kv hkv => (hu _).1 ((all_maps hf ho).1 (fun m hm => (h m hm).2) m hm kv hkv)⟩
  · exact fun h m hm => ⟨maps_sorted m hm, (all_maps hf ho (P := P)).2 (fun m hm kv hkv => (hu _).2 ((h m hm).2 kv hkv)) m hm⟩

theorem schemas_eq : (r.thing t).schemaDefinitions = t.schemaDefinitions.map fun m => Renaming.keys r.schema (HMap.mapVals (fun v => v) m) := by
  show t.schemaDefinitions.map _ = _
  congr 1
  funext m
  rw [mapVals_id]

theorem kept (hf : r.Faithful) (ht : t.Maps) : Kept env C (r.thing t) ↔ Kept env C t := by
  have hs : SchemasKept env C (r.thing t).schemaDefinitions ↔ SchemasKept env C t.schemaDefinitions := by
    unfold SchemasKept
    rw [schemas_eq]
    exact kept_maps hf.schema ht.schemaDefinitions fun _ => Iff.rfl
  constructor
  · intro h
    exact
    { context := h.context
      titles := h.titles
      descriptions := h.descriptions
      created := h.created
      modified := h.modified
      properties := (kept_maps (u := r.property) (hf.affordance .property) ht.properties (P := PropertyKept env C) fun _ => propertyKept).1 h.properties
      actions := (kept_maps (u := r.action) (hf.affordance .action) ht.actions (P := ActionKept env C) fun _ => actionKept).1 h.actions
      events := (kept_maps (u := r.event) (hf.affordance .event) ht.events (P := EventKept env C) fun _ => eventKept).1 h.events
      links := h.links
      forms := fun l hl x hx => formKept.1 (h.forms (l.map r.form)
        (show t.forms.map (List.map r.form) = _ by rw [hl]; rfl) _ (List.mem_map_of_mem hx))
      securityDefinitions := ht.securityDefinitions
      security := fun ⟨n, s⟩ h1 => schemeKept.1 (h.security (r.security n, r.scheme s) ((mem_security hf ht).2 ⟨n, s, h1, rfl, rfl⟩))
      uriVariables := h.uriVariables
      schemaDefinitions := hs.1 h.schemaDefinitions
      other := h.other }
  · intro h
    exact
    { context := h.context
      titles := h.titles
      descriptions := h.descriptions
      created := h.created
      modified := h.modified
      properties := (kept_maps (u := r.property) (hf.affordance .property) ht.properties (P := PropertyKept env C) fun _ => propertyKept).2 h.properties
      actions := (kept_maps (u := r.action) (hf.affordance .action) ht.actions (P := ActionKept env C) fun _ => actionKept).2 h.actions
      events := (kept_maps (u := r.event) (hf.affordance .event) ht.events (P := EventKept env C) fun _ => eventKept).2 h.events
      links := h.links
      forms := fun l hl x hx => by
        obtain ⟨l', h1, rfl⟩ := Option.map_eq_some_iff.1 hl
        obtain ⟨y, h2, rfl⟩ := List.mem_map.1 hx
        exact formKept.2 (h.forms l' h1 y h2)
      securityDefinitions := keys_sorted _
      security := fun ⟨k, w⟩ h1 => by
        obtain ⟨n, s, h2, rfl, rfl⟩ := (mem_security hf ht).1 h1
        exact schemeKept.2 (h.security (n, s) h2)
      uriVariables := h.uriVariables
      schemaDefinitions := hs.2 h.schemaDefinitions
      other := h.other }

/-! ### What is left -/

theorem mapVals_mapVals {A B D : Type} (a : A → B) (b : B → D) (m : HMap A) : HMap.mapVals b (HMap.mapVals a m) = HMap.mapVals (fun v => b (a v)) m := by
  unfold HMap.mapVals
  rw [List.map_map]; rfl

theorem interaction_stored (i : Interaction X) : (r.interaction i).stored = r.interaction i.stored := by
  unfold Renaming.interaction Interaction.stored
  simp only [List.map_map]
  congr 1

theorem subtype_stored (s : SchemeSubtype) : (r.subtype s).stored = r.subtype s.stored := by
  cases s with
  | known k => cases k with
    | combo c => cases c <;> rfl
    | _ => rfl
  | unknown n d => cases d <;> rfl

theorem maps_swap {w : V → V} (o : Option (HMap V)) (h : ∀ v, w (u v) = u (w v)) :
    (o.map fun m => Renaming.keys f (HMap.mapVals u m)).map (HMap.mapVals w) =
      (o.map (HMap.mapVals w)).map fun m => Renaming.keys f (HMap.mapVals u m) := by
  cases o with
  | none => rfl
  | some m =>
    show some _ = some _
    dsimp only
    rw [keys_mapVals, mapVals_mapVals, mapVals_mapVals]
    simp only [h]

theorem stored (t : Thing X) : (r.thing t).stored = r.thing t.stored := by
  have e1 := maps_swap (f := r.affordance .property) (u := r.property) (w := PropertyAffordance.stored) t.properties fun p => by
    have e : (r.property p).merged = r.property p.merged := rfl
    unfold PropertyAffordance.stored
    rw [e]
    exact congrArg (fun i : Interaction X => (⟨i, p.merged.dataSchema.stored, p.observable, p.other⟩ : PropertyAffordance X))
      (interaction_stored p.merged.interaction)
  have e2 := maps_swap (f := r.affordance .action) (u := r.action) (w := ActionAffordance.stored) t.actions fun p => by
    unfold ActionAffordance.stored Renaming.action
    congr 1
    exact interaction_stored _
  have e3 := maps_swap (f := r.affordance .event) (u := r.event) (w := EventAffordance.stored) t.events fun p => by
    unfold EventAffordance.stored Renaming.event
    congr 1
    exact interaction_stored _
  have e4 : HMap.mapVals SecurityScheme.stored (Renaming.keys r.security (HMap.mapVals r.scheme t.securityDefinitions)) =
      Renaming.keys r.security (HMap.mapVals r.scheme (HMap.mapVals SecurityScheme.stored t.securityDefinitions)) := by
    rw [keys_mapVals, mapVals_mapVals, mapVals_mapVals]
    congr 2
    funext s
    unfold SecurityScheme.stored Renaming.scheme
    congr 1
    exact subtype_stored _
  have e5 : (t.schemaDefinitions.map (Renaming.keys r.schema)).map (HMap.mapVals Schema.stored) =
      (t.schemaDefinitions.map (HMap.mapVals Schema.stored)).map (Renaming.keys r.schema) := by
    cases t.schemaDefinitions with
    | none => rfl
    | some m => exact congrArg some (keys_mapVals _ _)
  have e6 : (t.forms.map (List.map r.form)).map (List.map Form.stored) = (t.forms.map (List.map Form.stored)).map (List.map r.form) := by
    cases t.forms with
    | none => rfl
    | some l =>
      show some _ = some _
      rw [List.map_map, List.map_map]
      rfl
  unfold Thing.stored Renaming.thing
  simp only [e1, e2, e3, e4, e5, e6]

theorem lossless (hf : r.Faithful) (ht : t.Maps) : (r.thing t).Lossless ↔ t.Lossless := by
  constructor
  · intro h
    exact
    { schemas := fun p s x h1 => h.schemas p s x ((hasSchema hf ht).2 h1)
      forms := fun c x h1 => h.forms c (r.form x) ((hasForm hf ht).2 ⟨x, h1, rfl⟩)
      properties := fun m hm kv hkv =>
        have h1 := (all_maps (u := r.property) (hf.affordance .property) ht.properties (P := (·.Agrees))).1 h.properties m hm kv hkv
        ⟨h1.attype, h1.title, h1.titles, h1.description, h1.descriptions⟩
      security := fun ⟨n, s⟩ h1 scheme h2 =>
        h.security _ ((mem_security hf ht).2 ⟨n, s, h1, rfl, rfl⟩) scheme (unknown_eq.2 h2) }
  · intro h
    exact
    { schemas := fun p s x h1 => h.schemas p s x ((hasSchema hf ht).1 h1)
      forms := fun c x h1 => by
        obtain ⟨y, h2, rfl⟩ := (hasForm hf ht).1 h1
        exact h.forms c y h2
      properties := (all_maps (u := r.property) (hf.affordance .property) ht.properties (P := (·.Agrees))).2 fun m hm kv hkv =>
        have h1 := h.properties m hm kv hkv
        ⟨h1.attype, h1.title, h1.titles, h1.description, h1.descriptions⟩
      security := fun ⟨k, w⟩ h1 scheme h2 => by
        obtain ⟨n, s, h3, rfl, rfl⟩ := (mem_security hf ht).1 h1
        exact h.security (n, s) h3 scheme (unknown_eq.1 h2) }

theorem maps (hf : r.Faithful) (ht : t.Maps) : (r.thing t).Maps where
  translations m h := by
    refine ht.translations m ?_
    cases h with
    | titles h => exact .titles h
    | descriptions h => exact .descriptions h
    | interactionTitles h h1 =>
      obtain ⟨j, h2, rfl⟩ := (hasInteraction hf ht).1 h
      exact .interactionTitles h2 h1
    | interactionDescriptions h h1 =>
      obtain ⟨j, h2, rfl⟩ := (hasInteraction hf ht).1 h
      exact .interactionDescriptions h2 h1
    | security h h1 =>
      obtain ⟨n, s, h2, rfl, rfl⟩ := (mem_security hf ht).1 h
      exact .security h2 h1
    | schemaTitles h h1 h2 => exact .schemaTitles ((hasSchema hf ht).1 h) h1 h2
    | schemaDescriptions h h1 h2 => exact .schemaDescriptions ((hasSchema hf ht).1 h) h1 h2
  schemas p s x h := ht.schemas p s x ((hasSchema hf ht).1 h)
  interactions i h := by
    obtain ⟨j, h2, rfl⟩ := (hasInteraction hf ht).1 h
    exact ht.interactions j h2
  properties := maps_sorted (u := r.property)
  actions := maps_sorted (u := r.action)
  events := maps_sorted (u := r.event)
  securityDefinitions := keys_sorted _
  uriVariables := ht.uriVariables
  schemaDefinitions := by
    rw [schemas_eq]
    exact maps_sorted

/-! ### Equality -/

theorem noNaN (hf : r.Faithful) (ht : t.Maps) : (r.thing t).NoNaN ↔ t.NoNaN := by
  constructor
  · exact fun h => ⟨h.context, fun n s scheme d h1 h2 =>
      h.security _ _ scheme d ((mem_security hf ht).2 ⟨n, s, h1, rfl, rfl⟩) (unknown_eq.2 h2),
      fun p s x h1 => h.schemas p s x ((hasSchema hf ht).2 h1)⟩
  · refine fun h => ⟨h.context, fun k w scheme d h1 h2 => ?_, fun p s x h1 => h.schemas p s x ((hasSchema hf ht).1 h1)⟩
    obtain ⟨n, s, h3, rfl, rfl⟩ := (mem_security hf ht).1 h1
    exact h.security n s scheme d h3 (unknown_eq.1 h2)

theorem subtype_unsigned (s : SchemeSubtype) : (r.subtype s).unsigned = r.subtype s.unsigned := by
  cases s with
  | known k => cases k with
    | combo c => cases c <;> rfl
    | _ => rfl
  | unknown n d => rfl

theorem canonical (t : Thing X) : (r.thing t).canonical = r.thing t.canonical := by
  have e1 := maps_swap (f := r.affordance .property) (u := r.property) (w := PropertyAffordance.unsigned) t.properties fun _ => rfl
  have e2 := maps_swap (f := r.affordance .action) (u := r.action) (w := ActionAffordance.unsigned) t.actions fun _ => rfl
  have e3 := maps_swap (f := r.affordance .event) (u := r.event) (w := EventAffordance.unsigned) t.events fun _ => rfl
  have e4 : HMap.mapVals SecuritySchemeF.unsigned (Renaming.keys r.security (HMap.mapVals r.scheme t.securityDefinitions)) =
      Renaming.keys r.security (HMap.mapVals r.scheme (HMap.mapVals SecuritySchemeF.unsigned t.securityDefinitions)) := by
    rw [keys_mapVals, mapVals_mapVals, mapVals_mapVals]
    congr 2
    funext s
    unfold SecuritySchemeF.unsigned Renaming.scheme
    congr 1
    exact subtype_unsigned _
  have e5 : (t.schemaDefinitions.map (Renaming.keys r.schema)).map (HMap.mapVals Schema.unsigned) =
      (t.schemaDefinitions.map (HMap.mapVals Schema.unsigned)).map (Renaming.keys r.schema) := by
    cases t.schemaDefinitions with
    | none => rfl
    | some m => exact congrArg some (keys_mapVals _ _)
  unfold Thing.canonical Renaming.thing
  simp only [e1, e2, e3, e4, e5]

/-- A renaming that undoes a faithful one. -/
theorem exists_back (hf : r.Faithful) : ∃ r' : Renaming, (∀ n, r'.security (r.security n) = n) ∧
    (∀ n, r'.schema (r.schema n) = n) ∧ ∀ ty n, r'.affordance ty (r.affordance ty n) = n := by
  have h : ∀ g : String → String, (∀ m n, g m = g n → m = n) → ∃ g' : String → String, ∀ n, g' (g n) = n := by
    intro g hg
    classical
    refine ⟨fun s => if h : ∃ n, g n = s then h.choose else s, fun n => ?_⟩
    have h : ∃ m, g m = g n := ⟨n, rfl⟩
    show (if h : ∃ m, g m = g n then h.choose else g n) = n
    rw [dif_pos h]
    exact hg _ _ h.choose_spec
  obtain ⟨a, ha⟩ := h _ hf.security
  obtain ⟨b, hb⟩ := h _ hf.schema
  obtain ⟨c, hc⟩ := h _ (hf.affordance .property)
  obtain ⟨d, hd⟩ := h _ (hf.affordance .action)
  obtain ⟨e, he⟩ := h _ (hf.affordance .event)
  refine ⟨⟨fun ty => match ty with | .property => c | .action => d | .event => e, a, b⟩, ha, hb, fun ty => ?_⟩
  cases ty
  · exact hc
  · exact hd
  · exact he

theorem canonical_injective (hf : r.Faithful) {t u : Thing X} (ht : t.Maps) (hu : u.Maps) :
    r.thing t.canonical = r.thing u.canonical ↔ t.canonical = u.canonical := by
  refine ⟨fun h => ?_, fun h => by rw [h]⟩
  obtain ⟨r', h1, h2, h3⟩ := exists_back hf
  have hb : ∀ {t : Thing X}, t.Maps → r'.thing (r.thing t.canonical) = t.canonical := fun {t} ht => by
    refine thing_back h1 h2 h3 ?_ ?_ ?_ ?_ ?_
    · rintro m hm
      obtain ⟨m', h4, rfl⟩ := Option.map_eq_some_iff.1 hm
      exact (ht.properties _ h4).mapVals _
    · rintro m hm
      obtain ⟨m', h4, rfl⟩ := Option.map_eq_some_iff.1 hm
      exact (ht.actions _ h4).mapVals _
    · rintro m hm
      obtain ⟨m', h4, rfl⟩ := Option.map_eq_some_iff.1 hm
      exact (ht.events _ h4).mapVals _
    · exact ht.securityDefinitions.mapVals _
    · rintro m hm
      obtain ⟨m', h4, rfl⟩ := Option.map_eq_some_iff.1 hm
      exact (ht.schemaDefinitions _ h4).mapVals _
  rw [← hb ht, h, hb hu]

end Wot.Renamed
