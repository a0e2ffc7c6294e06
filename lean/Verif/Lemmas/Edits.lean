import Verif.Lemmas.Grammar
import Verif.Lemmas.Reading
import Verif.Lemmas.Built
import Verif.Spec.Edits
/-
Edits that do not matter: swaps, replacements and plain values.
-/
namespace Wot

variable {α β : Type} {k : String} {v v' : Json} {es es' : Members}

/-! ### Swapping two neighbours -/

theorem collect_swap {V : Type} {k k' : String} (hk : k ≠ k') (a b : List (String × V)) (v v' : V) :
    HMap.collect (a ++ (k, v) :: (k', v') :: b) = HMap.collect (a ++ (k', v') :: (k, v) :: b) := by
  apply HMap.Sorted.ext (HMap.collect_sorted _) (HMap.collect_sorted _)
  intro n
  rw [get?_collect, get?_collect]
  simp only [History.named, List.filterMap_append, List.filterMap_cons]
  by_cases h1 : k = n
  · have : k' ≠ n := fun h => hk (h1.trans h.symm)
    simp [h1, this]
  · simp [h1]

theorem occ_swap {k k' : String} (hk : k ≠ k') (a b : Members) (v v' : Json) (f : String) :
    occ f (a ++ (k, v) :: (k', v') :: b) = occ f (a ++ (k', v') :: (k, v) :: b) := by
  simp only [occ_append, occ_cons]
  by_cases h1 : k = f
  · have : k' ≠ f := fun h => hk (h1.trans h.symm)
    simp [h1, this]
  · simp [h1]

theorem mapOpt_append (f : α → Option β) (a b : List α) :
    mapOpt f (a ++ b) = (mapOpt f a).bind fun x => (mapOpt f b).map fun y => x ++ y := by
  induction a with
  | nil => simp [mapOpt]
  | cons x a ih =>
    simp only [List.cons_append, mapOpt, ih]
    cases f x with
    | none => rfl
    | some y =>
      cases mapOpt f a with
      | none => rfl
      | some ys =>
        cases mapOpt f b <;> rfl

theorem mapOpt_cons (f : α → Option β) (x : α) (l : List α) :
    mapOpt f (x :: l) = (f x).bind fun y => (mapOpt f l).map fun ys => y :: ys := by
  rw [mapOpt]
  cases f x with
  | none => rfl
  | some y => cases mapOpt f l <;> rfl

theorem mapOpt_replace {f : α → Option β} {x x' : α} (h : f x = f x') (a b : List α) :
    mapOpt f (a ++ x :: b) = mapOpt f (a ++ x' :: b) := by
  rw [mapOpt_append, mapOpt_append, mapOpt_cons, mapOpt_cons, h]

theorem mapOpt_swap {V : Type} {f : α → Option (String × V)} {x x' : α}
    (hk : ∀ y y', f x = some y → f x' = some y' → y.1 ≠ y'.1) (a b : List α) :
    (mapOpt f (a ++ x :: x' :: b)).map HMap.collect = (mapOpt f (a ++ x' :: x :: b)).map HMap.collect := by
  simp only [mapOpt_append, mapOpt_cons]
  cases mapOpt f a with
  | none => rfl
  | some la =>
    cases hx : f x with
    | none => cases f x' <;> rfl
    | some y =>
      cases hx' : f x' with
      | none => rfl
      | some y' =>
        cases mapOpt f b with
        | none => rfl
        | some lb =>
          obtain ⟨k, u⟩ := y
          obtain ⟨k', u'⟩ := y'
          simp only [Option.bind_some, Option.map_some]
          exact congrArg some (collect_swap (hk _ _ hx hx') la lb u u')

/-! ### Plain values -/

/-- Objects and arrays. -/
def Box (v : Json) : Prop := (∃ l, v = .arr l) ∨ ∃ m, v = .obj m

/-- Objects or arrays both of them. -/
def Solid (v v' : Json) : Prop := Box v ∧ Box v'

theorem Box.ne_null (h : Box v) : v ≠ .null := by
  rcases h with ⟨_, rfl⟩ | ⟨_, rfl⟩ <;> nofun

theorem Box.str (h : Box v) : deStr v = none := by
  rcases h with ⟨_, rfl⟩ | ⟨_, rfl⟩ <;> rfl

theorem Box.bool (h : Box v) : deBool v = none := by
  rcases h with ⟨_, rfl⟩ | ⟨_, rfl⟩ <;> rfl

theorem box_arr (l : List Json) : Box (.arr l) := .inl ⟨l, rfl⟩

theorem box_obj (m : Members) : Box (.obj m) := .inr ⟨m, rfl⟩

theorem Reordered.solid (h : Reordered v v') : Solid v v' := by
  cases h
  · exact ⟨box_obj _, box_obj _⟩
  · exact ⟨box_obj _, box_obj _⟩
  · exact ⟨box_arr _, box_arr _⟩

theorem Edit.solid {X : ExtTypes} {env : SerdeEnv} {C : ExtCodecs X} {p : Part} (h : Edit env C p v v') :
    Solid v v' := by
  induction h with
  | response _ ih => exact ih
  | item _ ih => exact ih
  | element _ _ => exact ⟨box_arr _, box_arr _⟩
  | _ => exact ⟨box_obj _, box_obj _⟩

theorem Edit.reordered {X : ExtTypes} {env : SerdeEnv} {C : ExtCodecs X} {p : Part} (h : Edit env C p v v')
    (hp : p = .value) : Reordered v v' := by
  induction h with
  | unknown h _ => subst hp; cases h
  | swap hk _ => exact .swap hk
  | member h _ ih => subst hp; cases h; exact .member (ih rfl)
  | element _ ih => subst hp; exact .element (ih rfl)
  | response _ _ => cases hp
  | item _ _ => cases hp

theorem option_congr {de : Json → Option α} (hs : Solid v v') (h : de v = de v') : deOption de v = deOption de v' := by
  have e : ∀ {v : Json}, v ≠ .null → deOption de v = (de v).map some := fun {v} hv => by
    cases v <;> first | rfl | exact absurd rfl hv
  rw [e hs.1.ne_null, e hs.2.ne_null, h]

theorem norm_replace (a b : Members) (h : v.norm = v'.norm) :
    (Json.obj (a ++ (k, v) :: b)).norm = (Json.obj (a ++ (k, v') :: b)).norm := by
  simp only [Json.norm, normMembers_eq, HMap.mapVals, List.map_append, List.map_cons, h]

theorem norm_swap {k k' : String} (hk : k ≠ k') (a b : Members) (v v' : Json) :
    (Json.obj (a ++ (k, v) :: (k', v') :: b)).norm = (Json.obj (a ++ (k', v') :: (k, v) :: b)).norm := by
  simp only [Json.norm, normMembers_eq, HMap.mapVals, List.map_append, List.map_cons]
  exact congrArg Json.obj (collect_swap hk _ _ _ _)

theorem Reordered.norm (h : Reordered v v') : v.norm = v'.norm := by
  induction h with
  | swap hk => exact norm_swap hk _ _ _ _
  | member _ ih => exact norm_replace _ _ ih
  | element _ ih => simp only [Json.norm, normList_eq, List.map_append, List.map_cons, ih]

/-- Readers of plain values: they do not look into objects, but for the only member of one. -/
structure Flat (de : Json → Option α) : Prop where
  arr : ∀ l, de (.arr l) = none
  obj : ∀ es v, es ≠ [] → v ≠ .null → v ≠ .obj [] → ∀ k a b, es = a ++ (k, v) :: b → de (.obj es) = none
  two : ∀ a b : Members, ∀ x y, de (.obj (a ++ x :: y :: b)) = none

theorem Reordered.ne_empty (h : Reordered v v') : v ≠ .obj [] ∧ v' ≠ .obj [] := by
  cases h <;> simp

theorem Flat.congr {de : Json → Option α} (hf : Flat de) (h : Reordered v v') : de v = de v' := by
  cases h with
  | swap _ => rw [hf.two, hf.two]
  | member h =>
    rw [hf.obj _ _ (by simp) h.solid.1.ne_null h.ne_empty.1 _ _ _ rfl,
      hf.obj _ _ (by simp) h.solid.2.ne_null h.ne_empty.2 _ _ _ rfl]
  | element _ => rw [hf.arr, hf.arr]

theorem Flat.none {de : Json → Option α} (hf : Flat de) (h : Reordered v v') : de v = none ∧ de v' = none := by
  cases h with
  | swap _ => exact ⟨hf.two _ _ _ _, hf.two _ _ _ _⟩
  | member h =>
    exact ⟨hf.obj _ _ (by simp) h.solid.1.ne_null h.ne_empty.1 _ _ _ rfl,
      hf.obj _ _ (by simp) h.solid.2.ne_null h.ne_empty.2 _ _ _ rfl⟩
  | element _ => exact ⟨hf.arr _, hf.arr _⟩

theorem vec_congr {de : Json → Option α} (hf : ∀ {v v'}, Reordered v v' → de v = de v') (h : Reordered v v') :
    deVec de v = deVec de v' := by
  cases h with
  | swap _ => rfl
  | member _ => rfl
  | element h => exact mapOpt_replace (hf h) _ _

theorem Flat.many {de : Json → Option α} (hf : Flat de) (h : Reordered v v') :
    deOneOrMany de v = deOneOrMany de v' := by
  simp only [deOneOrMany, hf.congr h, vec_congr (fun h => hf.congr h) h]

theorem flat_str : Flat deStr := ⟨fun _ => rfl, fun _ _ _ _ _ _ _ _ _ => rfl, fun _ _ _ _ => rfl⟩
theorem flat_bool : Flat deBool := ⟨fun _ => rfl, fun _ _ _ _ _ _ _ _ _ => rfl, fun _ _ _ _ => rfl⟩
theorem flat_u32 : Flat deU32 := ⟨fun _ => rfl, fun _ _ _ _ _ _ _ _ _ => rfl, fun _ _ _ _ => rfl⟩
theorem flat_nonZero : Flat deNonZeroU64 := ⟨fun _ => rfl, fun _ _ _ _ _ _ _ _ _ => rfl, fun _ _ _ _ => rfl⟩
theorem flat_i64 : Flat deI64 := ⟨fun _ => rfl, fun _ _ _ _ _ _ _ _ _ => rfl, fun _ _ _ _ => rfl⟩
theorem flat_f64 : Flat deF64 := ⟨fun _ => rfl, fun _ _ _ _ _ _ _ _ _ => rfl, fun _ _ _ _ => rfl⟩
theorem flat_time (env : SerdeEnv) : Flat (deTime env) :=
  ⟨fun _ => rfl, fun _ _ _ _ _ _ _ _ _ => rfl, fun _ _ _ _ => rfl⟩
theorem flat_tagText (env : SerdeEnv) : Flat (deTagText env) :=
  ⟨fun _ => rfl, fun _ _ _ _ _ _ _ _ _ => rfl, fun _ _ _ _ => rfl⟩
theorem flat_tag (table : List (String × α)) : Flat (deTag table) :=
  ⟨fun _ => rfl, fun _ _ _ _ _ _ _ _ _ => rfl, fun _ _ _ _ => rfl⟩
theorem flat_enum (table : List (String × α)) : Flat (deEnum table) := by
  refine ⟨fun _ => rfl, fun es v _ hv _ k a b e => ?_, fun a b x y => ?_⟩
  · subst e
    match a, b with
    | [], [] => cases v <;> first | rfl | exact absurd rfl hv
    | [], _ :: _ => simp [deEnum]
    | _ :: a, b =>
      cases a <;> simp [deEnum]
  · match a with
    | [] => simp [deEnum]
    | [_] => simp [deEnum]
    | _ :: _ :: _ => simp [deEnum]
theorem flat_buffered (table : List (String × α)) : Flat (deEnumBuffered table) := by
  refine ⟨fun _ => rfl, fun es v _ hv hv' k a b e => ?_, fun a b x y => ?_⟩
  · subst e
    match a, b with
    | [], [] =>
      cases v with
      | obj m => cases m <;> first | rfl | exact absurd rfl hv'
      | _ => first | rfl | exact absurd rfl hv
    | [], _ :: _ => simp [deEnumBuffered]
    | _ :: a, b =>
      cases a <;> simp [deEnumBuffered]
  · match a with
    | [] => simp [deEnumBuffered]
    | [_] => simp [deEnumBuffered]
    | _ :: _ :: _ => simp [deEnumBuffered]

theorem flat_location : Flat deLocation := flat_buffered _
theorem flat_qop : Flat deQoP := flat_buffered _
theorem flat_operation : Flat deOperation := flat_enum _

theorem ops_congr (h : Reordered v v') : deOps v = deOps v' := by
  have : deOperations v = deOperations v' := by
    simp only [deOperations, flat_operation.congr h, vec_congr (fun h => (flat_buffered operationTable).congr h) h]
  simp only [deOps, option_congr h.solid this]

theorem value_congr (h : Reordered v v') : deValue v = deValue v' := by
  simp only [deValue, h.norm]

/-! ### Fields -/

theorem Replaced.req (h : Replaced k v v' es es') {f : String} {de : Json → Option α} (he : k = f → de v = de v') :
    Wot.required f de es = Wot.required f de es' := by
  by_cases e : k = f
  · subst e; exact h.required (he rfl)
  · exact h.required_ne f de (Ne.symm e)

theorem Replaced.dflt (h : Replaced k v v' es es') {f : String} {d : α} {de : Json → Option α}
    (he : k = f → de v = de v') : Wot.defaulted f d de es = Wot.defaulted f d de es' := by
  by_cases e : k = f
  · subst e; exact h.defaulted d (he rfl)
  · exact h.defaulted_ne f d de (Ne.symm e)

theorem Replaced.opt (h : Replaced k v v' es es') (hs : Solid v v') {f : String} {de : Json → Option α}
    (he : k = f → de v = de v') : optional f de es = optional f de es' :=
  h.dflt fun e => option_congr hs (he e)

theorem Replaced.rest_cases (h : Replaced k v v' es es') (K : List String) :
    Wot.rest K es = Wot.rest K es' ∨ (k ∉ K ∧ Replaced k v v' (Wot.rest K es) (Wot.rest K es')) := by
  by_cases hk : k ∈ K
  · exact .inl (h.rest_eq hk)
  · exact .inr ⟨hk, h.rest hk⟩

/-- A member of an extension is reordered, or the member is not one of the extension. -/
theorem Replaced.ext {A : Type} {c : ExtCodec A} (h : Replaced k v v' es es') (loc : c.Local) (ord : c.Orderless)
    (K : List String) (hv : k ∉ K → k ∉ c.keys ∨ Reordered v v') : c.de (Wot.rest K es) = c.de (Wot.rest K es') := by
  rcases h.rest_cases K with e | ⟨hk, h'⟩
  · rw [e]
  · rcases hv hk with hk | hr
    · exact loc _ _ fun f hf => h'.occ_ne f fun e => hk (e ▸ hf)
    · obtain ⟨a, b, e1, e2⟩ := h'
      rw [e1, e2]
      exact ord _ _ (.member hr)

theorem Replaced.ext' {A : Type} {c : ExtCodec A} (h : Replaced k v v' es es') (loc : c.Local) (ord : c.Orderless)
    (hv : k ∉ c.keys ∨ Reordered v v') : c.de es = c.de es' := by
  have := h.ext loc ord [] fun _ => hv
  have e : ∀ es : Members, Wot.rest [] es = es := fun es => by simp [Wot.rest]
  rwa [e, e] at this

end Wot
