import Verif.Lemmas.Rename
import Verif.Lemmas.SameCalls
import Verif.Lemmas.EditNorm
/-
The Thing built from renamed calls.
-/
namespace Wot
namespace Renamed

variable {X : ExtTypes} {r : Renaming} {h : List (ThingOp X)} {env : Env}
open History

/-! ### Maps -/

theorem find_map {V : Type} {f : String → String} (hf : ∀ m n, f m = f n → m = n) (l : List (String × V)) (k : String) :
    (l.map fun kv => (f kv.1, kv.2)).find? (·.1 == f k) = (l.find? (·.1 == k)).map fun kv => (f kv.1, kv.2) := by
  rw [List.find?_map]
  congr 2
  funext kv
  show (f kv.1 == f k) = (kv.1 == k)
  by_cases e : kv.1 = k
  · simp [e]
  · have : f kv.1 ≠ f k := fun e' => e (hf _ _ e')
    exact (beq_eq_false_iff_ne.2 this).trans (beq_eq_false_iff_ne.2 e).symm

theorem find_none {V : Type} {f : String → String} {k : String} (hk : ∀ m, f m ≠ k) (l : List (String × V)) :
    (l.map fun kv => (f kv.1, kv.2)).find? (·.1 == k) = none := by
  rw [List.find?_map, Option.map_eq_none_iff, List.find?_eq_none]
  intro kv _
  simpa using hk kv.1

theorem collect_keys {V : Type} {f : String → String} (hf : ∀ m n, f m = f n → m = n) (l : List (String × V)) :
    HMap.collect (l.map fun kv => (f kv.1, kv.2)) = Renaming.keys f (HMap.collect l) := by
  unfold Renaming.keys
  refine (HMap.collect_sorted _).ext (HMap.collect_sorted _) fun k => ?_
  rw [HMap.collect_get?, HMap.collect_get?, ← List.map_reverse, ← List.map_reverse]
  by_cases hk : ∃ m, f m = k
  · obtain ⟨m, rfl⟩ := hk
    have hs := HMap.collect_sorted l
    rw [find_map hf, find_map hf, Option.map_map, Option.map_map]
    have e := HMap.collect_get? (HMap.collect l) m
    rw [HMap.collect_of_sorted hs, HMap.collect_get?] at e
    exact e
  · have hk' : ∀ m, f m ≠ k := fun m e => hk ⟨m, e⟩
    rw [find_none hk', find_none hk']

theorem collect_both {V W : Type} {f : String → String} (hf : ∀ m n, f m = f n → m = n) (u : V → W) (l : List (String × V)) :
    HMap.collect (l.map fun kv => (f kv.1, u kv.2)) = Renaming.keys f (HMap.mapVals u (HMap.collect l)) := by
  rw [← collect_mapVals, ← collect_keys hf]
  unfold HMap.mapVals
  rw [List.map_map]; rfl

theorem mapResult_eq {A B : Type} {f : String → String} (hf : ∀ m n, f m = f n → m = n) {u : A → A} {w : B → B} {g : A → B}
    (hc : ∀ a, g (u a) = w (g a)) (l : List (String × A)) :
    mapResult g (l.map fun kv => (f kv.1, u kv.2)) = (mapResult g l).map fun m => Renaming.keys f (HMap.mapVals w m) := by
  unfold mapResult
  cases l with
  | nil => rfl
  | cons a l =>
    rw [if_neg nofun, if_neg nofun, Option.map_some, ← collect_both hf, List.map_map, List.map_map]
    refine congrArg some (congrArg HMap.collect (List.map_congr_left fun kv _ => ?_))
    show (f kv.1, g (u kv.2)) = (f kv.1, w (g kv.2))
    rw [hc]

/-! ### Parts -/

theorem formResult_eq (x : FormBuilder X) : FormBuilder.result (r.formCall x) = r.form (FormBuilder.result x) := by
  unfold FormBuilder.result Renaming.form Renaming.formCall
  dsimp only
  cases x.additionalResponses <;> rfl

theorem interactionResult_eq (i : HumanReadableInfo) (p : PartialInteraction X X.interaction) :
    interactionResult env i (r.interactionCall p) = r.interaction (interactionResult env i p) := by
  unfold interactionResult Renaming.interactionCall Renaming.interaction
  dsimp only
  rw [List.map_map, List.map_map]
  congr 1
  exact List.map_congr_left fun x _ => formResult_eq x

theorem propertyResult_eq (p : PropertyBuilder X) :
    PropertyBuilder.result env (r.propertyCall p) = r.property (PropertyBuilder.result env p) := by
  unfold PropertyBuilder.result Renaming.property
  show PropertyAffordance.mk (interactionResult env p.info (r.interactionCall p.interaction)) _ _ _ = _
  rw [interactionResult_eq]
  rfl

theorem actionResult_eq (a : ActionBuilder X) :
    ActionBuilder.result env (r.actionCall a) = r.action (ActionBuilder.result env a) := by
  unfold ActionBuilder.result Renaming.action Renaming.actionCall
  dsimp only
  rw [interactionResult_eq]

theorem eventResult_eq (a : EventBuilder X) :
    EventBuilder.result env (r.eventCall a) = r.event (EventBuilder.result env a) := by
  unfold EventBuilder.result Renaming.event Renaming.eventCall
  dsimp only
  rw [interactionResult_eq]

/-! ### Things -/

/-- The Thing built from the renamed calls is the renamed Thing. -/
theorem result_eq (hr : r.Faithful) {title : String} {o : X.thing} :
    (supplied title (r.calls h) o).result env = r.thing ((supplied title h o).result env) := by
  unfold supplied ThingBuilder.result Renaming.thing
  dsimp only
  rw [contexts_eq, ids_eq, attypes_eq, titles_eq, descriptionTexts_eq, descriptions_eq, versions_eq, createds_eq,
    modifieds_eq, supports_eq, bases_eq, links_eq, securities_eq, profiles_eq, properties_eq, actions_eq, events_eq,
    forms_eq, uriVariables_eq, schemaDefinitions_eq, mapResult_eq (hr.affordance _) propertyResult_eq,
    mapResult_eq (hr.affordance _) actionResult_eq, mapResult_eq (hr.affordance _) eventResult_eq]
  have e1 : (someList ((forms h).map r.formCall)).map (List.map FormBuilder.result) =
      ((someList (forms h)).map (List.map FormBuilder.result)).map (List.map r.form) := by
    rw [Blind.someList_map, Option.map_map, Option.map_map]
    congr 1; funext l
    show List.map _ (List.map _ _) = List.map _ (List.map _ _)
    rw [List.map_map, List.map_map]
    exact List.map_congr_left fun x _ => formResult_eq x
  have e2 : (((securities h).map r.securityCall).filter (·.required)).map securityName =
      (((securities h).filter (·.required)).map securityName).map r.security := by
    rw [List.filter_map, List.map_map, List.map_map]; rfl
  have e3 : HMap.collect ((((securities h).map r.securityCall).map fun s => (securityName s, s.scheme)).map
        fun kv => (kv.1, schemeResult env kv.2)) =
      Renaming.keys r.security (HMap.mapVals r.scheme (HMap.collect
        (((securities h).map fun s => (securityName s, s.scheme)).map fun kv => (kv.1, schemeResult env kv.2)))) := by
    rw [← collect_both hr.security]
    simp only [List.map_map]
    rfl
  have e4 : (if HMap.collect ((schemaDefinitions h).map fun kv => (r.schema kv.1, kv.2)) = [] then none else
        some (HMap.mapVals (Schema.mapLang (langResult env))
          (HMap.collect ((schemaDefinitions h).map fun kv => (r.schema kv.1, kv.2))))) =
      (if HMap.collect (schemaDefinitions h) = [] then none else
        some (HMap.mapVals (Schema.mapLang (langResult env)) (HMap.collect (schemaDefinitions h)))).map
          (Renaming.keys r.schema) := by
    by_cases hn : schemaDefinitions h = []
    · rw [hn]; rfl
    · have hn' : (schemaDefinitions h).map (fun kv => (r.schema kv.1, kv.2)) ≠ [] := fun e => hn (List.map_eq_nil_iff.1 e)
      rw [if_neg fun e => hn' (collect_eq_nil.1 e), if_neg fun e => hn (collect_eq_nil.1 e), Option.map_some,
        ← collect_mapVals, ← collect_mapVals, ← collect_keys hr.schema]
      unfold HMap.mapVals
      rw [List.map_map, List.map_map]; rfl
  rw [e1, e2, e3, e4]

/-! ### Back -/

theorem keys_get {V : Type} {f : String → String} (hf : ∀ m n, f m = f n → m = n) {m : HMap V} (hm : HMap.Sorted m)
    (n : String) : (Renaming.keys f m).get? (f n) = m.get? n := by
  unfold Renaming.keys
  rw [HMap.collect_get?, ← List.map_reverse, find_map hf, Option.map_map]
  have e := HMap.collect_get? m n
  rw [HMap.collect_of_sorted hm] at e
  exact e.symm

theorem keys_back {V : Type} {f g : String → String} (hg : ∀ n, g (f n) = n) {m : HMap V} (hm : HMap.Sorted m) :
    Renaming.keys g (Renaming.keys f m) = m := by
  have hf : ∀ a b, f a = f b → a = b := fun a b e => by rw [← hg a, e, hg]
  have h1 : (m.map fun kv => (g (f kv.1), kv.2)) = m := by
    conv => rhs; rw [← List.map_id m]
    exact List.map_congr_left fun kv _ => by rw [hg]; rfl
  have h2 : ((m.map fun kv => (f kv.1, kv.2)).map (·.1)).Nodup := by
    rw [show (m.map fun kv => (f kv.1, kv.2)).map (·.1) = (m.map (·.1)).map f by rw [List.map_map, List.map_map]; rfl]
    exact List.Pairwise.map f (fun a b hab e => hab (hf a b e)) hm.nodup
  have h3 := (perm_collect h2).map fun kv => (g kv.1, kv.2)
  rw [List.map_map] at h3
  change List.Perm (m.map fun kv => (g (f kv.1), kv.2)) _ at h3
  rw [h1] at h3
  unfold Renaming.keys
  rw [← HMap.collect_perm h3 hm.nodup, HMap.collect_of_sorted hm]

theorem keys_mapVals {V W : Type} {f : String → String} (u : V → W) (m : HMap V) :
    HMap.mapVals u (Renaming.keys f m) = Renaming.keys f (HMap.mapVals u m) := by
  unfold Renaming.keys
  rw [← collect_mapVals]
  unfold HMap.mapVals
  rw [List.map_map, List.map_map]; rfl

section
variable {r' : Renaming}

theorem list_back {A : Type} {u v : A → A} (hv : ∀ a, v (u a) = a) (l : List A) : (l.map u).map v = l := by
  rw [List.map_map]
  conv => rhs; rw [← List.map_id l]
  exact List.map_congr_left fun a _ => hv a

theorem opt_back {A : Type} {u v : A → A} {o : Option A} (hv : ∀ a, o = some a → v (u a) = a) : (o.map u).map v = o := by
  cases o with
  | none => rfl
  | some a => exact congrArg some (hv a rfl)

theorem map_back {V : Type} {f g : String → String} (hg : ∀ n, g (f n) = n) {u v : V → V} (hv : ∀ a, v (u a) = a) {m : HMap V}
    (hm : HMap.Sorted m) : Renaming.keys g (HMap.mapVals v (Renaming.keys f (HMap.mapVals u m))) = m := by
  rw [keys_mapVals, keys_back hg ((hm.mapVals u).mapVals v)]
  unfold HMap.mapVals
  exact list_back (u := fun kv => (kv.1, u kv.2)) (v := fun kv => (kv.1, v kv.2)) (fun kv => by rw [hv]) m

theorem maps_back {V : Type} {f g : String → String} (hg : ∀ n, g (f n) = n) {u v : V → V} (hv : ∀ a, v (u a) = a)
    {o : Option (HMap V)} (hm : ∀ m, o = some m → HMap.Sorted m) :
    ((o.map fun m => Renaming.keys f (HMap.mapVals u m)).map fun m => Renaming.keys g (HMap.mapVals v m)) = o := by
  cases o with
  | none => rfl
  | some m => exact congrArg some (map_back hg hv (hm m rfl))

theorem response_back (hd : ∀ n, r'.schema (r.schema n) = n) (a : AdditionalResponse) : r'.response (r.response a) = a := by
  unfold Renaming.response
  dsimp only
  rw [opt_back fun n _ => hd n]

theorem form_back (hs : ∀ n, r'.security (r.security n) = n) (hd : ∀ n, r'.schema (r.schema n) = n) (x : Form X) :
    r'.form (r.form x) = x := by
  unfold Renaming.form
  dsimp only
  rw [opt_back fun l _ => list_back hs l, opt_back fun l _ => list_back (response_back hd) l]

theorem interaction_back (hs : ∀ n, r'.security (r.security n) = n) (hd : ∀ n, r'.schema (r.schema n) = n) (x : Interaction X) :
    r'.interaction (r.interaction x) = x := by
  unfold Renaming.interaction
  dsimp only
  rw [list_back (form_back hs hd)]

theorem scheme_back (hs : ∀ n, r'.security (r.security n) = n) (s : SecurityScheme) : r'.scheme (r.scheme s) = s := by
  obtain ⟨a1, a2, a3, a4, st⟩ := s
  have e : r'.subtype (r.subtype st) = st := by
    rcases st with ((_ | _ | (l | l) | _ | _ | _ | _ | _ | _) | _) <;> try rfl
    · simp only [Renaming.subtype, list_back hs]
    · simp only [Renaming.subtype, list_back hs]
  unfold Renaming.scheme
  dsimp only
  rw [e]

theorem thing_back (hs : ∀ n, r'.security (r.security n) = n) (hd : ∀ n, r'.schema (r.schema n) = n)
    (ha : ∀ ty n, r'.affordance ty (r.affordance ty n) = n) {t : Thing X} (h1 : ∀ m, t.properties = some m → HMap.Sorted m)
    (h2 : ∀ m, t.actions = some m → HMap.Sorted m) (h3 : ∀ m, t.events = some m → HMap.Sorted m)
    (h4 : HMap.Sorted t.securityDefinitions) (h5 : ∀ m, t.schemaDefinitions = some m → HMap.Sorted m) :
    r'.thing (r.thing t) = t := by
  unfold Renaming.thing
  dsimp only
  rw [maps_back (ha _) (u := r.property) (v := r'.property)
        (fun p => by unfold Renaming.property; dsimp only; rw [interaction_back hs hd]) h1,
    maps_back (ha _) (u := r.action) (v := r'.action)
        (fun p => by unfold Renaming.action; dsimp only; rw [interaction_back hs hd]) h2,
    maps_back (ha _) (u := r.event) (v := r'.event)
        (fun p => by unfold Renaming.event; dsimp only; rw [interaction_back hs hd]) h3,
    opt_back fun l _ => list_back (form_back hs hd) l, list_back hs, map_back hs (scheme_back hs) h4,
    opt_back fun m hm => keys_back hd (h5 m hm)]

end

end Renamed
end Wot
