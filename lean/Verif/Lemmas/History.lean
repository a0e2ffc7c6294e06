import Verif.Spec.History
import Verif.Lemmas.Reach
/-
The builder state is what the history prescribes.
-/
namespace Wot

variable {X : ExtTypes}

theorem lastOf_append {α : Type} (l : List α) (a : α) : lastOf (l ++ [a]) = some a := by
  induction l with
  | nil => rfl
  | cons b l ih => cases l with
    | nil => rfl
    | cons c l => exact ih

theorem optPush_someList {α : Type} (l : List α) (a : α) :
    optPush (someList l) a = someList (l ++ [a]) := by
  cases l <;> simp [optPush, someList]

theorem collect_append {V : Type} (l : List (String × V)) (k : String) (v : V) :
    HMap.collect (l ++ [(k, v)]) = (HMap.collect l).insert k v := by
  simp [HMap.collect]

theorem insert_someList {V : Type} (l : List (String × V)) (k : String) (v : V) :
    some (HMap.insert k v (((someList l).map HMap.collect).getD [])) =
      (someList (l ++ [(k, v)])).map HMap.collect := by
  cases l <;> simp [someList, HMap.collect]

theorem securityName_eq (s : SecuritySchemeBuilder SchemeSubtype) : s.defName = securityName s := by
  unfold SecuritySchemeBuilder.defName securityName
  cases s.name with
  | some n => rfl
  | none =>
    show s.subtype.defaultName = schemeKeyword s.subtype
    rcases s.subtype with (_ | _ | _ | _ | _ | _ | _ | _ | _) | _ <;> rfl

theorem ofCalls_eq (c : List (String × String)) : MultiLanguageBuilder.ofCalls c = ⟨HMap.collect c⟩ := by
  have := ofCalls_values c
  generalize MultiLanguageBuilder.ofCalls c = x at this
  cases x
  exact congrArg _ this

namespace History

theorem supplied_nil (title : String) (o : X.thing) : supplied title [] o = .new title o := rfl

theorem supplied_common (title : String) (h : List (ThingOp X)) (o : X.thing) (op : CommonOp) :
    (supplied title h o).applyCommon op = supplied title (h ++ [.common op]) o := by
  cases op with
  | context v =>
    by_cases hv : v = tdContext11
    · subst hv
      simp [ThingBuilder.applyCommon, supplied, contexts, ids, descriptionTexts, versions, createds,
        modifieds, supports, bases, attypes, titles, descriptions, links, securities, profiles, forms,
        uriVariables, properties, actions, events, schemaDefinitions]
    · simp [ThingBuilder.applyCommon, supplied, contexts, ids, descriptionTexts, versions, createds,
        modifieds, supports, bases, attypes, titles, descriptions, links, securities, profiles, forms,
        uriVariables, properties, actions, events, schemaDefinitions, hv]
  | security s =>
    cases hr : s.required <;>
    simp [ThingBuilder.applyCommon, supplied, contexts, ids, descriptionTexts, versions, createds,
        modifieds, supports, bases, attypes, titles, descriptions, links, securities, profiles, forms,
        uriVariables, properties, actions, events, schemaDefinitions, securityName_eq, hr]
  | _ =>
    simp [ThingBuilder.applyCommon, supplied, contexts, ids, descriptionTexts, versions, createds,
        modifieds, supports, bases, attypes, titles, descriptions, links, securities, profiles, forms,
        uriVariables, properties, actions, events, schemaDefinitions, lastOf_append, optPush_someList,
        ofCalls_eq, contextMapOf, HMap.collect]

theorem supplied_apply (title : String) (h : List (ThingOp X)) (o : X.thing) (op : ThingOp X) :
    (supplied title h o).apply op =
      supplied title (h ++ [op]) (match op with | .setOther o' => o' | _ => o) := by
  cases op with
  | common op => exact supplied_common title h o op
  | _ =>
    simp [ThingBuilder.apply, supplied, contexts, ids, descriptionTexts, versions, createds,
        modifieds, supports, bases, attypes, titles, descriptions, links, securities, profiles, forms,
        uriVariables, properties, actions, events, schemaDefinitions, optPush_someList, collect_append,
        insert_someList]

theorem extPhase {title : String} {h : List CommonOp} {b : ThingBuilder X}
    (he : ExtPhase X title h b) : b = supplied title (h.map .common) b.other := by
  induction he with
  | new title other => rfl
  | call op _ ih =>
    rename_i h b _
    rw [List.map_append]
    conv => lhs; rw [ih]
    rw [supplied_common]
    cases op <;> simp only [ThingBuilder.applyCommon] <;> first | rfl | (split <;> rfl)
  | setOther o _ ih =>
    conv => lhs; rw [ih]
    rfl
  | ext f _ ih =>
    rename_i X Y title h b _
    conv => lhs; rw [ih]
    have e : ∀ {α : Type} (g : ThingOp X → Option α) (g' : ThingOp Y → Option α),
        (∀ c, g (.common c) = g' (.common c)) →
        (h.map ThingOp.common).filterMap g = (h.map ThingOp.common).filterMap g' := by
      intro α g g' hg
      rw [List.filterMap_map, List.filterMap_map]
      congr 1
      funext c
      exact hg c
    have n : ∀ {α : Type} (g : ThingOp Y → Option α), (∀ c, g (.common c) = none) →
        (h.map ThingOp.common).filterMap g = [] := by
      intro α g hg
      rw [List.filterMap_map, List.filterMap_eq_nil_iff]
      exact fun c _ => hg c
    have hs : securities (h.map .common : List (ThingOp X)) =
        securities (h.map .common : List (ThingOp Y)) := by
      unfold securities
      exact e _ _ fun c => by cases c <;> rfl
    unfold ThingBuilder.ext supplied
    congr 1
    · exact congrArg (List.cons _) (e _ _ fun c => by cases c <;> rfl)
    · exact congrArg lastOf (e _ _ fun c => by cases c <;> rfl)
    · exact congrArg someList (e _ _ fun c => by cases c <;> rfl)
    · exact congrArg (fun l => (lastOf l).map fun c => MultiLanguageBuilder.mk (HMap.collect c)) (e _ _ fun c => by cases c <;> rfl)
    · exact congrArg lastOf (e _ _ fun c => by cases c <;> rfl)
    · exact congrArg (fun l => (lastOf l).map fun c => MultiLanguageBuilder.mk (HMap.collect c)) (e _ _ fun c => by cases c <;> rfl)
    · exact congrArg lastOf (e _ _ fun c => by cases c <;> rfl)
    · exact congrArg lastOf (e _ _ fun c => by cases c <;> rfl)
    · exact congrArg lastOf (e _ _ fun c => by cases c <;> rfl)
    · exact congrArg lastOf (e _ _ fun c => by cases c <;> rfl)
    · exact congrArg lastOf (e _ _ fun c => by cases c <;> rfl)
    · exact (n _ fun c => rfl).symm
    · exact (n _ fun c => rfl).symm
    · exact (n _ fun c => rfl).symm
    · exact congrArg someList (e _ _ fun c => by cases c <;> rfl)
    · rw [forms, n _ fun c => rfl]; rfl
    · rw [uriVariables, n _ fun c => rfl]; rfl
    · rw [hs]
    · rw [hs]
    · unfold profiles; exact e _ _ fun c => by cases c <;> rfl
    · rw [schemaDefinitions, n _ fun c => rfl]; rfl

theorem run {title : String} (ops : List (ThingOp X)) : ∀ (h : List (ThingOp X)) (o : X.thing),
    ((supplied title h o).run ops) = supplied title (h ++ ops)
      ((supplied title h o).run ops).other := by
  induction ops with
  | nil => intro h o; simp [ThingBuilder.run, supplied]
  | cons op ops ih =>
    intro h o
    show ((supplied title h o).apply op).run ops = supplied title (h ++ op :: ops) (((supplied title h o).apply op).run ops).other
    rw [supplied_apply, ih, List.append_assoc]
    rfl

end History

theorem Reach.supplied {title : String} {h : List (ThingOp X)} {b : ThingBuilder X}
    (hr : Reach X title h b) : b = History.supplied title h b.other := by
  cases hr with
  | toExtend he => exact History.extPhase he
  | extended ops he =>
    rename_i h b0
    have h1 : b0.finishExtend = History.supplied title (h.map .common) b0.other := History.extPhase he
    rw [h1]
    exact History.run ops _ _

end Wot
