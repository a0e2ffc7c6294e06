import Verif.Spec.LeftOut
import Verif.Lemmas.Together
import Verif.Lemmas.RenameReach
/-
Lemmas for C91: histories with one call less.
-/
namespace Wot.LeftOut
open History

variable {X : ExtTypes} {h₁ h₂ h h' : List (ThingOp X)} {op : ThingOp X} {env : Env}

theorem drop {β : Type} {f : ThingOp X → Option β} (hf : f op = none) :
    (h₁ ++ op :: h₂).filterMap f = (h₁ ++ h₂).filterMap f := by
  rw [List.filterMap_append, List.filterMap_append, List.filterMap_cons_none hf]

theorem sublist : (h₁ ++ h₂).Sublist (h₁ ++ op :: h₂) := (List.Sublist.refl h₁).append (List.sublist_cons_self op h₂)

theorem mem_of {x : ThingOp X} (hx : x ∈ h₁ ++ op :: h₂) : x = op ∨ x ∈ h₁ ++ h₂ := by
  rcases List.mem_append.1 hx with hx | hx
  · exact .inr (List.mem_append_left _ hx)
  · rcases List.mem_cons.1 hx with rfl | hx
    · exact .inl rfl
    · exact .inr (List.mem_append_right _ hx)

theorem hasForm (hs : h'.Sublist h) {c : FormContext} {f : FormBuilder X} (hf : HasForm h' c f) : HasForm h c f := by
  cases hf with
  | thing h1 => exact .thing (hs.subset h1)
  | property h1 h2 => exact .property (hs.subset h1) h2
  | action h1 h2 => exact .action (hs.subset h1) h2
  | event h1 h2 => exact .event (hs.subset h1) h2

theorem hasInfo (hs : h'.Sublist h) {i : HumanReadableInfo} (hi : HasInfo h' i) : HasInfo h i := by
  cases hi with
  | property h1 => exact .property (hs.subset h1)
  | action h1 => exact .action (hs.subset h1)
  | event h1 => exact .event (hs.subset h1)

theorem hasSchema (hs : h'.Sublist h)
    (hu : ∀ n s, lastOf (named n (uriVariables h')) = some s → lastOf (named n (uriVariables h)) = some s)
    (hd : ∀ n s, lastOf (named n (schemaDefinitions h')) = some s → lastOf (named n (schemaDefinitions h)) = some s)
    {p : Position} {s : UDS X} (hp : HasSchema h' p s) : HasSchema h p s := by
  cases hp with
  | property h1 => exact .property (hs.subset h1)
  | input h1 h2 => exact .input (hs.subset h1) h2
  | output h1 h2 => exact .output (hs.subset h1) h2
  | subscription h1 h2 => exact .subscription (hs.subset h1) h2
  | data h1 h2 => exact .data (hs.subset h1) h2
  | cancellation h1 h2 => exact .cancellation (hs.subset h1) h2
  | dataResponse h1 h2 => exact .dataResponse (hs.subset h1) h2
  | uriVariable h1 => exact .uriVariable (hu _ _ h1)
  | propertyUriVariable h1 h2 => exact .propertyUriVariable (hs.subset h1) h2
  | actionUriVariable h1 h2 => exact .actionUriVariable (hs.subset h1) h2
  | eventUriVariable h1 h2 => exact .eventUriVariable (hs.subset h1) h2
  | schemaDefinition h1 => exact .schemaDefinition (hd _ _ h1)

theorem valid_of (hs : h'.Sublist h)
    (hu : ∀ n s, lastOf (named n (uriVariables h')) = some s → lastOf (named n (uriVariables h)) = some s)
    (ht : ∀ c, lastOf (titles h') = some c → lastOf (titles h) = some c)
    (hde : ∀ c, lastOf (descriptions h') = some c → lastOf (descriptions h) = some c)
    (hd : ∀ n s, lastOf (named n (schemaDefinitions h')) = some s → lastOf (named n (schemaDefinitions h)) = some s)
    (hv : Valid env h) (h1 : ∀ s ∈ securities h', ∀ n, s.subtype.References n → Defines h' n)
    (h2 : ∀ ctx f n, HasForm h' ctx f → f.UsesSecurity n → Defines h' n)
    (h3 : ∀ f n, .form f ∈ h' → f.UsesSchema n → Declares h' n) : Valid env h' where
  securityNames := hv.securityNames.sublist ((hs.filterMap _).map _)
  comboReferences := h1
  formSecurity := h2
  thingForms f hf := hv.thingForms f (hs.subset hf)
  operations c f o hf := hv.operations c f o (hasForm hs hf)
  responseSchemas := h3
  schemas p s hp hx := hv.schemas p s hp (hasSchema hs hu hd hx)
  uriVariables s hx := hv.uriVariables s (hasSchema hs hu hd hx)
  propertyNames := hv.propertyNames.sublist ((hs.filterMap _).map _)
  actionNames := hv.actionNames.sublist ((hs.filterMap _).map _)
  eventNames := hv.eventNames.sublist ((hs.filterMap _).map _)
  languages k hk := by
    refine hv.languages k ?_
    cases hk with
    | titles a b => exact .titles (ht _ a) b
    | descriptions a b => exact .descriptions (hde _ a) b
    | security a b => exact .security ((hs.filterMap _).subset a) b
    | infoTitles a b => exact .infoTitles (hasInfo hs a) b
    | infoDescriptions a b => exact .infoDescriptions (hasInfo hs a) b
    | schema a b => exact .schema (hasSchema hs hu hd a) b
    | hreflang a b => exact .hreflang ((hs.filterMap _).subset a) b
  linkSizes l hl := hv.linkSizes l ((hs.filterMap _).subset hl)

theorem valid (hs : h'.Sublist h) (hu : uriVariables h' = uriVariables h) (ht : titles h' = titles h)
    (hde : descriptions h' = descriptions h)
    (hd : ∀ n s, lastOf (named n (schemaDefinitions h')) = some s → lastOf (named n (schemaDefinitions h)) = some s)
    (hv : Valid env h) (h1 : ∀ s ∈ securities h', ∀ n, s.subtype.References n → Defines h' n)
    (h2 : ∀ ctx f n, HasForm h' ctx f → f.UsesSecurity n → Defines h' n)
    (h3 : ∀ f n, .form f ∈ h' → f.UsesSchema n → Declares h' n) : Valid env h' :=
  valid_of hs (fun _ _ h => hu ▸ h) (fun _ h => ht ▸ h) (fun _ h => hde ▸ h) hd hv h1 h2 h3

section
variable {s : SecuritySchemeBuilder SchemeSubtype}

theorem sec_eq : securities (h₁ ++ .common (.security s) :: h₂) = securities h₁ ++ s :: securities h₂ := by
  show List.filterMap _ _ = _
  rw [List.filterMap_append]
  rfl

theorem sec_not (hv : Valid env (h₁ ++ .common (.security s) :: h₂)) {c : SecuritySchemeBuilder SchemeSubtype}
    (hc : c ∈ securities (h₁ ++ h₂)) : securityName c ≠ securityName s := by
  have hn := hv.securityNames
  rw [sec_eq, List.map_append, List.map_cons, List.nodup_append, List.nodup_cons] at hn
  obtain ⟨-, ⟨hn, -⟩, hm⟩ := hn
  rw [securities_append, List.mem_append] at hc
  rcases hc with hc | hc
  · exact hm _ (List.mem_map_of_mem hc) _ List.mem_cons_self
  · exact fun e => hn (e ▸ List.mem_map_of_mem hc)

end

section
variable {n m : String} {s : UDS X}

theorem schemas_other (hm : m ≠ n) : named m (schemaDefinitions (h₁ ++ .schemaDefinition n s :: h₂)) =
    named m (schemaDefinitions (h₁ ++ h₂)) := by
  have e : schemaDefinitions (h₁ ++ .schemaDefinition n s :: h₂) = schemaDefinitions h₁ ++ (n, s) :: schemaDefinitions h₂ := by
    show List.filterMap _ _ = _
    rw [List.filterMap_append]
    rfl
  have e' : schemaDefinitions (h₁ ++ h₂) = schemaDefinitions h₁ ++ schemaDefinitions h₂ := List.filterMap_append ..
  rw [e, e', named_append, named_append]
  congr 1
  unfold named
  exact List.filterMap_cons_none (f := fun kv : String × UDS X => if kv.1 = m then some kv.2 else none)
    (if_neg fun e : n = m => hm e.symm)

theorem schemas_none (hu : ∀ s', .schemaDefinition n s' ∉ h) : lastOf (named n (schemaDefinitions h)) = none := by
  have e : named n (schemaDefinitions h) = [] := by
    unfold named
    refine List.filterMap_eq_nil_iff.2 fun kv hkv => ?_
    obtain ⟨k, v⟩ := kv
    refine if_neg fun e => ?_
    obtain ⟨op, ho, he⟩ := List.mem_filterMap.1 hkv
    split at he
    · cases he
      cases e
      exact hu _ ho
    · cases he
  rw [e]
  rfl

theorem uris_other (hm : m ≠ n) : named m (uriVariables (h₁ ++ .uriVariable n s :: h₂)) =
    named m (uriVariables (h₁ ++ h₂)) := by
  have e : uriVariables (h₁ ++ .uriVariable n s :: h₂) = uriVariables h₁ ++ (n, s) :: uriVariables h₂ := by
    show List.filterMap _ _ = _
    rw [List.filterMap_append]
    rfl
  have e' : uriVariables (h₁ ++ h₂) = uriVariables h₁ ++ uriVariables h₂ := List.filterMap_append ..
  rw [e, e', named_append, named_append]
  congr 1
  unfold named
  exact List.filterMap_cons_none (f := fun kv : String × UDS X => if kv.1 = m then some kv.2 else none)
    (if_neg fun e : n = m => hm e.symm)

theorem uris_none (hu : ∀ s', .uriVariable n s' ∉ h) : lastOf (named n (uriVariables h)) = none := by
  have e : named n (uriVariables h) = [] := by
    unfold named
    refine List.filterMap_eq_nil_iff.2 fun kv hkv => ?_
    obtain ⟨k, v⟩ := kv
    refine if_neg fun e => ?_
    obtain ⟨op, ho, he⟩ := List.mem_filterMap.1 hkv
    split at he
    · cases he
      cases e
      exact hu _ ho
    · cases he
  rw [e]
  rfl

end

/-! ### Reachable -/

/-- The extension value after a call. -/
def otherOf (o : X.thing) : ThingOp X → X.thing
  | .setOther v => v
  | _ => o

theorem run_other (b : ThingBuilder X) (h : List (ThingOp X)) : (b.run h).other = h.foldl otherOf b.other := by
  induction h generalizing b with
  | nil => rfl
  | cons op h ih =>
    refine (ih _).trans ?_
    rw [List.foldl_cons]
    congr 1
    cases op with
    | common c => exact Renamed.common_other _ _
    | _ => rfl

theorem commons_other (o : X.thing) (l : List CommonOp) : (l.map (ThingOp.common (X := X))).foldl otherOf o = o := by
  induction l with
  | nil => rfl
  | cons c l ih => exact ih

theorem reachable {title : String} {b : ThingBuilder X} (ho : ∀ v, op ≠ .setOther v)
    (hr : Reachable X title (h₁ ++ op :: h₂) b) : ∃ b', Reachable X title (h₁ ++ h₂) b' ∧ b'.other = b.other := by
  have hb : ∀ x ∈ h₁ ++ h₂, x.Built := fun x hx => hr.built x (sublist.subset hx)
  have key : ∀ o : X.thing, (h₁ ++ h₂).foldl otherOf o = (h₁ ++ op :: h₂).foldl otherOf o := fun o => by
    rw [List.foldl_append, List.foldl_append, List.foldl_cons]
    congr 1
    cases op with
    | setOther v => exact absurd rfl (ho v)
    | _ => rfl
  have fin : ∀ o : X.thing, (h₁ ++ op :: h₂).foldl otherOf o = b.other →
      ∃ b', Reachable X title (h₁ ++ h₂) b' ∧ b'.other = b.other := fun o e =>
    ⟨_, ⟨Reach.extended (h₁ ++ h₂) (.new title o), hb⟩, (run_other _ _).trans ((key o).trans e)⟩
  obtain ⟨hr, -⟩ := hr
  generalize hg : h₁ ++ op :: h₂ = g at hr fin
  cases hr with
  | @toExtend l _ h1 => exact fin b.other (commons_other _ _)
  | @extended l b0 ops h1 =>
    refine fin b0.other ?_
    rw [List.foldl_append, commons_other, run_other]
    rfl

end Wot.LeftOut
