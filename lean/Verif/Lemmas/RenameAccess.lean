import Verif.Lemmas.RenameResult
import Verif.Spec.RenameAccess
/-
What clients can do with a renamed Thing.
-/
namespace Wot
namespace Renamed

variable {X : ExtTypes} {r : Renaming} {t : Thing X}

/-! ### Forms -/

theorem get_map {V : Type} {f : String → String} (hf : ∀ m n, f m = f n → m = n) {u : V → V} {o : Option (HMap V)}
    (hm : ∀ m, o = some m → HMap.Sorted m) (n : String) :
    ((o.map fun m => Renaming.keys f (HMap.mapVals u m)).bind (HMap.get? · (f n))) = (o.bind (HMap.get? · n)).map u := by
  cases o with
  | none => rfl
  | some m =>
    show (Renaming.keys f (HMap.mapVals u m)).get? (f n) = (m.get? n).map u
    rw [keys_get hf ((hm m rfl).mapVals u), HMap.get?_mapVals]

theorem bind_forms {A : Type} (o : Option (HMap A)) (n : String) (g : A → Option (Form X)) :
    (o.bind fun m => (m.get? n).bind g) = (o.bind (HMap.get? · n)).bind g := by
  cases o <;> rfl

theorem formAt_property {n : String} {i : Nat} : t.formAt (.property n i) =
    (t.properties.bind (HMap.get? · n)).bind fun a => a.interaction.forms[i]? := bind_forms _ _ _
theorem formAt_action {n : String} {i : Nat} : t.formAt (.action n i) =
    (t.actions.bind (HMap.get? · n)).bind fun a => a.interaction.forms[i]? := bind_forms _ _ _
theorem formAt_event {n : String} {i : Nat} : t.formAt (.event n i) =
    (t.events.bind (HMap.get? · n)).bind fun a => a.interaction.forms[i]? := bind_forms _ _ _

theorem property_at (hf : r.Faithful) (h1 : ∀ m, t.properties = some m → HMap.Sorted m) (n : String) :
    (r.thing t).properties.bind (HMap.get? · (r.affordance .property n)) = (t.properties.bind (HMap.get? · n)).map r.property :=
  get_map (hf.affordance _) h1 n
theorem action_at (hf : r.Faithful) (h1 : ∀ m, t.actions = some m → HMap.Sorted m) (n : String) :
    (r.thing t).actions.bind (HMap.get? · (r.affordance .action n)) = (t.actions.bind (HMap.get? · n)).map r.action :=
  get_map (hf.affordance _) h1 n
theorem event_at (hf : r.Faithful) (h1 : ∀ m, t.events = some m → HMap.Sorted m) (n : String) :
    (r.thing t).events.bind (HMap.get? · (r.affordance .event n)) = (t.events.bind (HMap.get? · n)).map r.event :=
  get_map (hf.affordance _) h1 n

theorem formAt_eq (hf : r.Faithful) (h1 : ∀ m, t.properties = some m → HMap.Sorted m)
    (h2 : ∀ m, t.actions = some m → HMap.Sorted m) (h3 : ∀ m, t.events = some m → HMap.Sorted m) (p : Place) :
    (r.thing t).formAt (r.place p) = (t.formAt p).map r.form := by
  cases p with
  | thing i =>
    show (t.forms.map (List.map r.form)).bind (·[i]?) = (t.forms.bind (·[i]?)).map r.form
    cases t.forms with
    | none => rfl
    | some l => exact List.getElem?_map
  | property n i =>
    show (r.thing t).formAt (.property (r.affordance .property n) i) = _
    rw [formAt_property, formAt_property, property_at hf h1]
    cases t.properties.bind (HMap.get? · n) with
    | none => rfl
    | some a => exact List.getElem?_map
  | action n i =>
    show (r.thing t).formAt (.action (r.affordance .action n) i) = _
    rw [formAt_action, formAt_action, action_at hf h2]
    cases t.actions.bind (HMap.get? · n) with
    | none => rfl
    | some a => exact List.getElem?_map
  | event n i =>
    show (r.thing t).formAt (.event (r.affordance .event n) i) = _
    rw [formAt_event, formAt_event, event_at hf h3]
    cases t.events.bind (HMap.get? · n) with
    | none => rfl
    | some a => exact List.getElem?_map

theorem keys_none {V : Type} {f : String → String} {m : HMap V} {k : String} (hk : ∀ n, f n ≠ k) :
    (Renaming.keys f m).get? k = none := by
  unfold Renaming.keys
  rw [HMap.collect_get?, ← List.map_reverse, find_none hk]
  rfl

theorem name_of {V : Type} {f : String → String} {u : V → V} {o : Option (HMap V)} {k : String} {v : V}
    (hk : (o.map fun m => Renaming.keys f (HMap.mapVals u m)).bind (HMap.get? · k) = some v) : ∃ n, f n = k := by
  cases o with
  | none => cases hk
  | some m =>
    by_cases h : ∃ n, f n = k
    · exact h
    · have : (Renaming.keys f (HMap.mapVals u m)).get? k = some v := hk
      rw [keys_none fun n e => h ⟨n, e⟩] at this
      cases this

theorem place_of {q : Place} {f : Form X} (hq : (r.thing t).formAt q = some f) : ∃ p, q = r.place p := by
  cases q with
  | thing i => exact ⟨.thing i, rfl⟩
  | property n i =>
    rw [formAt_property] at hq
    obtain ⟨a, ha, -⟩ := Option.bind_eq_some_iff.1 hq
    obtain ⟨m, rfl⟩ := name_of ha
    exact ⟨.property m i, rfl⟩
  | action n i =>
    rw [formAt_action] at hq
    obtain ⟨a, ha, -⟩ := Option.bind_eq_some_iff.1 hq
    obtain ⟨m, rfl⟩ := name_of ha
    exact ⟨.action m i, rfl⟩
  | event n i =>
    rw [formAt_event] at hq
    obtain ⟨a, ha, -⟩ := Option.bind_eq_some_iff.1 hq
    obtain ⟨m, rfl⟩ := name_of ha
    exact ⟨.event m i, rfl⟩

/-! ### Demands -/

theorem asks_of {s : SchemeSubtype} {d : Demand} (hc : ∀ data, s ≠ .unknown "combo" data) (ha : s.Asks d) :
    (r.subtype s).Asks (r.demand d) := by
  cases ha with
  | nosec => exact .nosec
  | oneOf => exact .oneOf
  | allOf => exact .allOf
  | @credentials k h1 h2 =>
    cases k with
    | noSec => exact absurd rfl h1
    | combo c => exact absurd rfl (h2 c)
    | _ => exact .credentials nofun nofun
  | @custom name data d h1 =>
    refine .custom ?_
    cases h1 with
    | nothing h => exact .nothing h
    | any h => subst h; exact absurd rfl (hc data)
    | all h => subst h; exact absurd rfl (hc data)
    | credentials h h' => exact .credentials h h'

theorem of_asks {s : SchemeSubtype} {d' : Demand} (hc : ∀ data, s ≠ .unknown "combo" data) (ha : (r.subtype s).Asks d') :
    ∃ d, d' = r.demand d ∧ s.Asks d := by
  rcases s with (k | ⟨name, data⟩)
  · cases k with
    | noSec =>
      cases ha with
      | nosec => exact ⟨.nothing, rfl, .nosec⟩
      | credentials h1 => exact absurd rfl h1
    | combo c =>
      cases c with
      | oneOf l =>
        cases ha with
        | oneOf => exact ⟨.any l, rfl, .oneOf⟩
        | credentials h1 h2 => exact absurd rfl (h2 _)
      | allOf l =>
        cases ha with
        | allOf => exact ⟨.all l, rfl, .allOf⟩
        | credentials h1 h2 => exact absurd rfl (h2 _)
    | _ => cases ha; exact ⟨.credentials, rfl, .credentials nofun nofun⟩
  · cases ha with
    | custom h1 =>
      cases h1 with
      | nothing h => exact ⟨.nothing, rfl, .custom (.nothing h)⟩
      | any h => subst h; exact absurd rfl (hc data)
      | all h => subst h; exact absurd rfl (hc data)
      | credentials h h' => exact ⟨.credentials, rfl, .custom (.credentials h h')⟩

variable (hf : r.Faithful) (hs : HMap.Sorted t.securityDefinitions)
  (hc : ∀ kv ∈ t.securityDefinitions, ∀ data, kv.2.subtype ≠ .unknown "combo" data)
include hf hs hc

theorem demands_eq {n : String} {d' : Demand} :
    (r.thing t).Demands (r.security n) d' ↔ ∃ d, d' = r.demand d ∧ t.Demands n d := by
  unfold Thing.Demands
  show (∃ s, (Renaming.keys r.security (HMap.mapVals r.scheme t.securityDefinitions)).get? (r.security n) = some s ∧ _) ↔ _
  rw [keys_get hf.security (hs.mapVals _), HMap.get?_mapVals]
  constructor
  · rintro ⟨s, h1, h2⟩
    obtain ⟨s', h3, rfl⟩ := Option.map_eq_some_iff.1 h1
    obtain ⟨d, hd, h4⟩ := of_asks (hc _ (HMap.mem_of_get? h3)) h2
    exact ⟨d, hd, s', h3, h4⟩
  · rintro ⟨d, rfl, s, h1, h2⟩
    exact ⟨_, congrArg (Option.map _) h1, asks_of (hc _ (HMap.mem_of_get? h1)) h2⟩

variable {has has' : String → Prop} (hh : ∀ n, has' (r.security n) ↔ has n)
include hh

theorem met_eq {n : String} : Met (r.thing t).Demands has' (r.security n) ↔ Met t.Demands has n := by
  constructor
  · intro h
    generalize hn : r.security n = n' at h
    induction h generalizing n with
    | nothing h1 =>
      subst hn
      obtain ⟨d, hd, h2⟩ := (demands_eq hf hs hc).1 h1
      cases d <;> cases hd
      exact .nothing h2
    | credentials h1 h2 =>
      subst hn
      obtain ⟨d, hd, h3⟩ := (demands_eq hf hs hc).1 h1
      cases d <;> cases hd
      exact .credentials h3 ((hh n).1 h2)
    | any h1 h2 _ ih =>
      subst hn
      obtain ⟨d, hd, h3⟩ := (demands_eq hf hs hc).1 h1
      cases d <;> cases hd
      obtain ⟨m, hm, rfl⟩ := List.mem_map.1 h2
      exact .any h3 hm (ih rfl)
    | all h1 h2 ih =>
      subst hn
      obtain ⟨d, hd, h3⟩ := (demands_eq hf hs hc).1 h1
      cases d <;> cases hd
      exact .all h3 fun m hm => ih _ (List.mem_map_of_mem hm) rfl
  · intro h
    induction h with
    | nothing h1 => exact .nothing ((demands_eq hf hs hc).2 ⟨_, rfl, h1⟩)
    | credentials h1 h2 => exact .credentials ((demands_eq hf hs hc).2 ⟨_, rfl, h1⟩) ((hh _).2 h2)
    | any h1 h2 _ ih => exact .any ((demands_eq hf hs hc).2 ⟨_, rfl, h1⟩) (List.mem_map_of_mem h2) ih
    | all h1 _ ih =>
      refine .all ((demands_eq hf hs hc).2 ⟨_, rfl, h1⟩) fun m hm => ?_
      obtain ⟨m', hm', rfl⟩ := List.mem_map.1 hm
      exact ih m' hm'

end Renamed
end Wot
