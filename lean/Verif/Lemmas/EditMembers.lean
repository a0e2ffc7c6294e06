import Verif.Lemmas.EditParts
/-
A part of a document is edited: what is read around it.
-/
namespace Wot

variable {X : ExtTypes} {C : ExtCodecs X} {env : SerdeEnv} {es es' : Members} {k : String} {v v' : Json}

theorem Replaced.flatEnum {A B : Type} {table : List (String × (A → B))} {de : Json → Option A}
    (h : Replaced k v v' es es') (he : k ∈ table.map (·.1) → de v = de v') :
    deFlatEnum table de es = deFlatEnum table de es' := by
  obtain ⟨a, b, rfl, rfl⟩ := h
  simp only [deFlatEnum, List.find?_append, List.find?_cons]
  cases a.find? (fun kv => (table.map (·.1)).contains kv.1) with
  | some x => rfl
  | none =>
    by_cases hk : k ∈ table.map (·.1)
    · have : (table.map (·.1)).contains k = true := by simpa using hk
      simp only [this, Option.none_or, Option.bind_some, he hk]
    · have : (table.map (·.1)).contains k = false := by simpa using hk
      simp only [this, Option.none_or]

section Schema
variable {DSx AS OS S : Type} {c : ExtCodec DSx} {CA : ExtCodec AS} {CO : ExtCodec OS}

/-- The members of a data schema whose values are not looked into. -/
def Names.plainSchema : List String :=
  ["@type", "title", "description", "const", "default", "unit", "enum", "readOnly", "writeOnly", "format", "type",
   "min_items", "max_items", "required", "maximum", "exclusiveMaximum", "minimum", "exclusiveMinimum", "multipleOf",
   "minLength", "maxLength", "pattern", "contentEncoding", "contentMediaType"]

theorem Replaced.subtype (h : Replaced k v v' es es') (hs : Solid v v') (la : CA.Local) (oa : CA.Orderless)
    (lo : CO.Local) (oo : CO.Orderless) {sub : Json → Option S}
    (items : k = "items" → deItems sub v = deItems sub v')
    (properties : k = "properties" → deMap sub v = deMap sub v')
    (plain : k ∈ Names.plainSchema → Reordered v v')
    (xa : k ∉ CA.keys ∨ Reordered v v') (xo : k ∉ CO.keys ∨ Reordered v v') :
    deSchemaSubtype CA CO sub es = deSchemaSubtype CA CO sub es' := by
  have pl : ∀ {f : String}, f ∈ Names.plainSchema → k = f → Reordered v v' := fun hf e => plain (e ▸ hf)
  have e0 := h.req (f := "type") (de := deTag schemaTable) fun e => (flat_tag _).congr (pl (by decide) e)
  rcases h.rest_cases ["type"] with e | ⟨_, h⟩
  · simp only [deSchemaSubtype, e0, e]
  · have e1 : deArray CA sub (Wot.rest ["type"] es) = deArray CA sub (Wot.rest ["type"] es') := by
      simp only [deArray, h.opt hs items, h.opt hs (f := "min_items") fun e => flat_u32.congr (pl (by decide) e),
        h.opt hs (f := "max_items") fun e => flat_u32.congr (pl (by decide) e), h.ext la oa _ fun _ => xa]
    have e2 : deObject CO sub (Wot.rest ["type"] es) = deObject CO sub (Wot.rest ["type"] es') := by
      simp only [deObject, h.opt hs properties,
        h.opt hs (f := "required") fun e => vec_congr (fun h => flat_str.congr h) (pl (by decide) e),
        h.ext lo oo _ fun _ => xo]
    have e3 : deString (Wot.rest ["type"] es) = deString (Wot.rest ["type"] es') := by
      simp only [deString, h.opt hs (f := "minLength") fun e => flat_u32.congr (pl (by decide) e),
        h.opt hs (f := "maxLength") fun e => flat_u32.congr (pl (by decide) e),
        h.opt hs (f := "pattern") fun e => flat_str.congr (pl (by decide) e),
        h.opt hs (f := "contentEncoding") fun e => flat_str.congr (pl (by decide) e),
        h.opt hs (f := "contentMediaType") fun e => flat_str.congr (pl (by decide) e)]
    have hmax : ∀ {T : Type} {de : Json → Option T}, Flat de → ∀ K : List String,
        deMaximum de (Wot.rest K (Wot.rest ["type"] es)) = deMaximum de (Wot.rest K (Wot.rest ["type"] es')) := by
      intro T de hf K
      rcases h.rest_cases K with e | ⟨_, h⟩
      · rw [e]
      · refine h.flatEnum fun hk => hf.congr (plain ?_)
        simp only [List.map_cons, List.map_nil, List.mem_cons, List.not_mem_nil, or_false] at hk
        rcases hk with rfl | rfl <;> decide
    have hmin : ∀ {T : Type} {de : Json → Option T}, Flat de → ∀ K : List String,
        deMinimum de (Wot.rest K (Wot.rest ["type"] es)) = deMinimum de (Wot.rest K (Wot.rest ["type"] es')) := by
      intro T de hf K
      rcases h.rest_cases K with e | ⟨_, h⟩
      · rw [e]
      · refine h.flatEnum fun hk => hf.congr (plain ?_)
        simp only [List.map_cons, List.map_nil, List.mem_cons, List.not_mem_nil, or_false] at hk
        rcases hk with rfl | rfl <;> decide
    have e4 : deNumber (Wot.rest ["type"] es) = deNumber (Wot.rest ["type"] es') := by
      simp only [deNumber, h.opt hs (f := "multipleOf") fun e => (flat_f64).congr (pl (by decide) e),
        hmax (flat_f64), hmin (flat_f64)]
    have e5 : deInteger (Wot.rest ["type"] es) = deInteger (Wot.rest ["type"] es') := by
      simp only [deInteger, h.opt hs (f := "multipleOf") fun e => flat_nonZero.congr (pl (by decide) e),
        hmax flat_i64, hmin flat_i64]
    simp only [deSchemaSubtype, e0, e1, e2, e3, e4, e5]

theorem Replaced.schemaMembers (h : Replaced k v v' es es') (hs : Solid v v') (l : c.Local) (o : c.Orderless)
    (la : CA.Local) (oa : CA.Orderless) (lo : CO.Local) (oo : CO.Orderless)
    {sub : Json → Option (DataSchema DSx AS OS)}
    (lang : k ∈ ["titles", "descriptions"] → deLang env v = deLang env v')
    (oneOf : k = "oneOf" → deVec sub v = deVec sub v')
    (items : k = "items" → deItems sub v = deItems sub v')
    (properties : k = "properties" → deMap sub v = deMap sub v')
    (plain : k ∈ Names.plainSchema → Reordered v v')
    (x : k ∉ c.keys ∨ Reordered v v') (xa : k ∉ CA.keys ∨ Reordered v v') (xo : k ∉ CO.keys ∨ Reordered v v') :
    deSchemaMembers c CA CO env sub es = deSchemaMembers c CA CO env sub es' := by
  have pl : ∀ {f : String}, f ∈ Names.plainSchema → k = f → Reordered v v' := fun hf e => plain (e ▸ hf)
  have e1 : deSchemaSubtype CA CO sub (Wot.rest schemaKeys es) =
      deSchemaSubtype CA CO sub (Wot.rest schemaKeys es') := by
    rcases h.rest_cases schemaKeys with e | ⟨_, h⟩
    · rw [e]
    · exact h.subtype hs la oa lo oo items properties plain xa xo
  simp only [deSchemaMembers,
    h.opt hs (f := "@type") fun e => flat_str.many (pl (by decide) e),
    h.opt hs (f := "title") fun e => flat_str.congr (pl (by decide) e),
    h.opt hs (f := "titles") fun e => lang (by simp [e]),
    h.opt hs (f := "description") fun e => flat_str.congr (pl (by decide) e),
    h.opt hs (f := "descriptions") fun e => lang (by simp [e]),
    h.opt hs (f := "const") fun e => value_congr (pl (by decide) e),
    h.opt hs (f := "default") fun e => value_congr (pl (by decide) e),
    h.opt hs (f := "unit") fun e => flat_str.congr (pl (by decide) e),
    h.opt hs oneOf,
    h.opt hs (f := "enum") fun e => vec_congr (fun h => value_congr h) (pl (by decide) e),
    h.dflt (f := "readOnly") (d := false) fun e => flat_bool.congr (pl (by decide) e),
    h.dflt (f := "writeOnly") (d := false) fun e => flat_bool.congr (pl (by decide) e),
    h.opt hs (f := "format") fun e => flat_str.congr (pl (by decide) e),
    h.ext l o _ fun _ => x, e1, deStrings]

end Schema

theorem Replaced.interaction (h : Replaced k v v' es es') (hs : Solid v v') (l : C.interaction.Local)
    (o : C.interaction.Orderless)
    (lang : k ∈ ["titles", "descriptions"] → deLang env v = deLang env v')
    (forms : k = "forms" → deVec (deForm C) v = deVec (deForm C) v')
    (uris : k = "uriVariables" → deMap (deDS C env) v = deMap (deDS C env) v')
    (plain : k ∈ ["@type", "title", "description"] → Reordered v v')
    (x : k ∉ C.interaction.keys ∨ Reordered v v') :
    deInteraction C env es = deInteraction C env es' := by
  have pl : ∀ {f : String}, f ∈ ["@type", "title", "description"] → k = f → Reordered v v' := fun hf e => plain (e ▸ hf)
  simp only [deInteraction, deStrings,
    h.opt hs (f := "@type") fun e => flat_str.many (pl (by decide) e),
    h.opt hs (f := "title") fun e => flat_str.congr (pl (by decide) e),
    h.opt hs (f := "titles") fun e => lang (by simp [e]),
    h.opt hs (f := "description") fun e => flat_str.congr (pl (by decide) e),
    h.opt hs (f := "descriptions") fun e => lang (by simp [e]),
    h.req forms, h.opt hs uris, h.ext l o _ fun _ => x]

/-! ### Security schemes -/

theorem Replaced.combo (h : Replaced k v v' es es') (hr : Reordered v v') : deCombo es = deCombo es' := by
  obtain ⟨a, b, rfl, rfl⟩ := h
  match a, b with
  | [], [] => simp only [List.nil_append, deCombo, deStrings, flat_str.many hr]
  | _ :: _, _ => simp [deCombo]
  | [], _ :: _ => simp [deCombo]

theorem Replaced.known (h : Replaced k v v' es es') (hr : Reordered v v') : deKnown es = deKnown es' := by
  have hs := hr.solid
  have e0 := h.req (f := "scheme") (de := deTag schemeTable) fun _ => (flat_tag _).congr hr
  rcases h.rest_cases ["scheme"] with e | ⟨_, h⟩
  · simp only [deKnown, e0, e]
  · have o1 : ∀ f : String, optional f deStr (Wot.rest ["scheme"] es) = optional f deStr (Wot.rest ["scheme"] es') :=
      fun f => h.opt hs fun _ => flat_str.congr hr
    have o2 : ∀ d : SecLocation, Wot.defaulted "in" d deLocation (Wot.rest ["scheme"] es) =
      Wot.defaulted "in" d deLocation (Wot.rest ["scheme"] es') := fun d => h.dflt fun _ => flat_location.congr hr
    have o3 : ∀ (f : String) d, Wot.defaulted f d deStr (Wot.rest ["scheme"] es) =
      Wot.defaulted f d deStr (Wot.rest ["scheme"] es') := fun f d => h.dflt fun _ => flat_str.congr hr
    simp only [deKnown, e0, h.combo hr, deBasic, deDigest, deBearer, dePsk, deOAuth2, deApiKey, o1, o2, o3,
      h.req (f := "qop") (fun _ => flat_qop.congr hr), h.req (f := "flow") (fun _ => flat_str.congr hr),
      h.opt hs (f := "scopes") (de := deStrings) (fun _ => flat_str.many hr)]

theorem Replaced.schemeSubtype (h : Replaced k v v' es es') (hr : Reordered v v') : deSubtype es = deSubtype es' := by
  have e : deUnknown es = deUnknown es' := by
    simp only [deUnknown, h.req (f := "scheme") (fun _ => flat_str.congr hr)]
    rcases h.rest_cases ["scheme"] with e | ⟨_, a, b, e1, e2⟩
    · rw [e]
    · rw [e1, e2, norm_replace a b hr.norm]
  simp only [deSubtype, h.known hr, e]

theorem swap_rest {k k' : String} (a b : Members) (K : List String) :
    rest K (a ++ (k, v) :: (k', v') :: b) = rest K (a ++ (k', v') :: (k, v) :: b) ∨
    ∃ a' b', rest K (a ++ (k, v) :: (k', v') :: b) = a' ++ (k, v) :: (k', v') :: b' ∧
      rest K (a ++ (k', v') :: (k, v) :: b) = a' ++ (k', v') :: (k, v) :: b' := by
  by_cases h1 : k ∈ K <;> by_cases h2 : k' ∈ K
  · left; simp [rest, h1, h2]
  · left; simp [rest, h1, h2]
  · left; simp [rest, h1, h2]
  · right; exact ⟨rest K a, rest K b, by simp [rest, h1, h2], by simp [rest, h1, h2]⟩

theorem combo_swap {k k' : String} (a b : Members) :
    deCombo (a ++ (k, v) :: (k', v') :: b) = deCombo (a ++ (k', v') :: (k, v) :: b) := by
  cases a <;> simp [deCombo]

theorem security_swap {k k' : String} (hk : k ≠ k') (a b : Members) :
    deSecurity env (.obj (a ++ (k, v) :: (k', v') :: b)) = deSecurity env (.obj (a ++ (k', v') :: (k, v) :: b)) := by
  have key : ∀ a b : Members, deSubtype (a ++ (k, v) :: (k', v') :: b) = deSubtype (a ++ (k', v') :: (k, v) :: b) := by
    intro a b
    have ho := occ_swap hk a b v v'
    have h1 : deKnown (a ++ (k, v) :: (k', v') :: b) = deKnown (a ++ (k', v') :: (k, v) :: b) := by
      rcases swap_rest (v := v) (v' := v') (k := k) (k' := k') a b ["scheme"] with e | ⟨a', b', e1, e2⟩
      · simp only [deKnown, required, ho, e]
      · have ho' := occ_swap hk a' b' v v'
        simp only [deKnown, required, ho, e1, e2, combo_swap a' b', deBasic, deDigest, deBearer, dePsk, deOAuth2,
          deApiKey, optional, defaulted, ho']
    have h2 : deUnknown (a ++ (k, v) :: (k', v') :: b) = deUnknown (a ++ (k', v') :: (k, v) :: b) := by
      rcases swap_rest (v := v) (v' := v') (k := k) (k' := k') a b ["scheme"] with e | ⟨a', b', e1, e2⟩
      · simp only [deUnknown, required, ho, e]
      · simp only [deUnknown, required, ho, e1, e2, norm_swap hk a' b' v v']
    simp only [deSubtype, h1, h2]
  have ho := occ_swap hk a b v v'
  rcases swap_rest (v := v) (v' := v') (k := k) (k' := k') a b securityKeys with e | ⟨a', b', e1, e2⟩
  · simp only [deSecurity, optional, defaulted, ho, e]
  · simp only [deSecurity, optional, defaulted, ho, e1, e2, key a' b']

end Wot
