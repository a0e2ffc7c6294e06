import Verif.Lemmas.CodecSecurity
/-
Data schemas are read back from what they are written as.
-/
namespace Wot

/-! ### The depth bound does not matter -/

theorem depth_pos (j : Json) : 0 < j.depth := by cases j <;> simp [Json.depth]

theorem depthList_mem {l : List Json} {j : Json} (h : j ∈ l) : j.depth ≤ Json.depthList l := by
  induction l with
  | nil => cases h
  | cons a l ih =>
    simp only [Json.depthList]
    rcases List.mem_cons.1 h with rfl | h
    · exact Nat.le_max_left _ _
    · exact Nat.le_trans (ih h) (Nat.le_max_right _ _)

theorem depthMembers_mem {m : Members} {kv : String × Json} (h : kv ∈ m) :
    kv.2.depth ≤ Json.depthMembers m := by
  induction m with
  | nil => cases h
  | cons a m ih =>
    obtain ⟨k, j⟩ := a
    simp only [Json.depthMembers]
    rcases List.mem_cons.1 h with rfl | h
    · exact Nat.le_max_left _ _
    · exact Nat.le_trans (ih h) (Nat.le_max_right _ _)

section Congr
variable {α S : Type}

theorem defaulted_congr {k : String} {d : α} {de de' : Json → Option α} {es : Members}
    (h : ∀ kv ∈ es, de kv.2 = de' kv.2) : defaulted k d de es = defaulted k d de' es := by
  unfold defaulted
  cases e : occ k es with
  | nil => rfl
  | cons v l =>
    cases l with
    | nil => exact h (k, v) (mem_occ.1 (by simp [e]))
    | cons _ _ => rfl

theorem deOption_congr {de de' : Json → Option α} {j : Json} (h : de j = de' j) :
    deOption de j = deOption de' j := by
  cases j <;> simp [deOption, h]

theorem optional_congr {k : String} {de de' : Json → Option α} {es : Members}
    (h : ∀ kv ∈ es, de kv.2 = de' kv.2) : optional k de es = optional k de' es :=
  defaulted_congr fun kv hkv => deOption_congr (h kv hkv)

theorem deVec_congr {de de' : Json → Option α} {D : Nat} (h : ∀ j, j.depth ≤ D → de j = de' j)
    {j : Json} (hj : j.depth ≤ D) : deVec de j = deVec de' j := by
  cases j with
  | arr l =>
    refine mapOpt_congr fun a ha => h a ?_
    have := depthList_mem ha
    simp only [Json.depth] at hj
    omega
  | _ => rfl

theorem deMap_congr {de de' : Json → Option α} {D : Nat} (h : ∀ j, j.depth ≤ D → de j = de' j)
    {j : Json} (hj : j.depth ≤ D) : deMap de j = deMap de' j := by
  cases j with
  | obj m =>
    unfold deMap mapOptVals
    simp only
    rw [mapOpt_congr fun a ha => ?_]
    have := depthMembers_mem ha
    simp only [Json.depth] at hj
    rw [h a.2 (by omega)]
  | _ => rfl

end Congr

section Schema
variable {DSx AS OS S : Type} {C : ExtCodec DSx} {CA : ExtCodec AS} {CO : ExtCodec OS}
  {env : SerdeEnv}

theorem mem_rest_sub {K : List String} {es : Members} {kv : String × Json} (h : kv ∈ rest K es) :
    kv ∈ es := (mem_rest.1 h).1

theorem deItems_congr {sub sub' : Json → Option S} {D : Nat}
    (h : ∀ j, j.depth ≤ D → sub j = sub' j) {j : Json} (hj : j.depth ≤ D) :
    deItems sub j = deItems sub' j := by
  unfold deItems
  rw [h j hj, deVec_congr h hj]

theorem deSchemaSubtype_congr {sub sub' : Json → Option S} {D : Nat}
    (h : ∀ j, j.depth ≤ D → sub j = sub' j) {es : Members} (hes : ∀ kv ∈ es, kv.2.depth ≤ D) :
    deSchemaSubtype CA CO sub es = deSchemaSubtype CA CO sub' es := by
  have h1 : deArray CA sub (rest ["type"] es) = deArray CA sub' (rest ["type"] es) := by
    unfold deArray
    rw [optional_congr fun kv hkv => deItems_congr h (hes kv (mem_rest_sub hkv))]
  have h2 : deObject CO sub (rest ["type"] es) = deObject CO sub' (rest ["type"] es) := by
    unfold deObject
    rw [optional_congr fun kv hkv => deMap_congr h (hes kv (mem_rest_sub hkv))]
  unfold deSchemaSubtype
  simp only [h1, h2]

theorem deSchemaMembers_congr {sub sub' : Json → Option (DataSchema DSx AS OS)} {D : Nat}
    (h : ∀ j, j.depth ≤ D → sub j = sub' j) {es : Members} (hes : ∀ kv ∈ es, kv.2.depth ≤ D) :
    deSchemaMembers C CA CO env sub es = deSchemaMembers C CA CO env sub' es := by
  unfold deSchemaMembers
  rw [optional_congr (de := deVec sub) fun kv hkv => deVec_congr h (hes kv hkv),
    deSchemaSubtype_congr h fun kv hkv => hes kv (mem_rest_sub hkv)]

theorem deSchemaN_stable (n : Nat) : ∀ (m : Nat) (j : Json), j.depth ≤ n → j.depth ≤ m →
    deSchemaN C CA CO env n j = deSchemaN C CA CO env m j := by
  induction n with
  | zero => intro m j h; have := depth_pos j; omega
  | succ n ih =>
    intro m j h1 h2
    cases m with
    | zero => have := depth_pos j; omega
    | succ m =>
      cases j with
      | obj es =>
        simp only [Json.depth] at h1 h2
        exact deSchemaMembers_congr (D := Json.depthMembers es)
          (fun j hj => ih m j (by omega) (by omega)) fun kv hkv => depthMembers_mem hkv
      | _ => rfl

/-- The reader of schemas is recursive without a bound on the depth. -/
theorem deSchema_obj (es : Members) :
    deSchema C CA CO env (.obj es) = deSchemaMembers C CA CO env (deSchema C CA CO env) es := by
  unfold deSchema
  show deSchemaMembers C CA CO env (deSchemaN C CA CO env (Json.depthMembers es)) es = _
  exact deSchemaMembers_congr (D := Json.depthMembers es)
    (fun j hj => deSchemaN_stable _ _ j hj (Nat.le_refl _)) fun kv hkv => depthMembers_mem hkv

theorem deSchema_other {j : Json} (h : ∀ es, j ≠ .obj es) : deSchema C CA CO env j = none := by
  cases j with
  | obj es => exact absurd rfl (h es)
  | _ => rfl

/-! ### Bounds -/

theorem find_names {K : List String} {es : Members} {k : String} {v : Json} (hk : k ∈ K)
    (h1 : occ k es = [v]) (h0 : ∀ k' ∈ K, k' ≠ k → occ k' es = []) :
    es.find? (fun kv => K.contains kv.1) = some (k, v) := by
  induction es with
  | nil => cases h1
  | cons e es ih =>
    obtain ⟨k', v'⟩ := e
    rw [List.find?_cons]
    rw [occ_cons] at h1
    by_cases hkk : k' = k
    · subst hkk
      rw [if_pos rfl] at h1
      injection h1 with h1 _
      subst h1
      simp [hk]
    · rw [if_neg hkk] at h1
      by_cases hm : k' ∈ K
      · have := h0 k' hm hkk
        rw [occ_cons, if_pos rfl] at this
        cases this
      · simp only [List.contains_eq_mem, hm, decide_false]
        rw [← ih h1 fun k2 h2 h3 => by
          have := h0 k2 h2 h3
          rw [occ_cons] at this
          by_cases h4 : k' = k2
          · subst h4; exact absurd h2 hm
          · rwa [if_neg h4] at this]
        simp only [List.contains_eq_mem]

theorem find_names_none {K : List String} {es : Members} (h0 : ∀ k' ∈ K, occ k' es = []) :
    es.find? (fun kv => K.contains kv.1) = none := by
  rw [List.find?_eq_none]
  rintro ⟨k, v⟩ hkv h
  have hk : k ∈ K := by simpa using h
  have : v ∈ occ k es := mem_occ.2 hkv
  rw [h0 k hk] at this
  cases this

/-- `Maximum.bound` on its two forms, without a case distinction when the form is not known. -/
theorem Maximum.bound_eq {T : Type} : (∀ a : T, Maximum.bound (.inclusive a) = a) ∧
    ∀ a : T, Maximum.bound (.exclusive a) = a := ⟨fun _ => rfl, fun _ => rfl⟩

theorem Minimum.bound_eq {T : Type} : (∀ a : T, Minimum.bound (.inclusive a) = a) ∧
    ∀ a : T, Minimum.bound (.exclusive a) = a := ⟨fun _ => rfl, fun _ => rfl⟩

section Bounds
variable {T : Type} {f : T → Json} {de : Json → Option T} {es m : Members}

/-- The members a maximum is written as. -/
def maxField (f : T → Json) : Option (Maximum T) → Option Json
  | some (.inclusive a) => some (f a)
  | _ => none
def exMaxField (f : T → Json) : Option (Maximum T) → Option Json
  | some (.exclusive a) => some (f a)
  | _ => none
def minField (f : T → Json) : Option (Minimum T) → Option Json
  | some (.inclusive a) => some (f a)
  | _ => none
def exMinField (f : T → Json) : Option (Minimum T) → Option Json
  | some (.exclusive a) => some (f a)
  | _ => none

theorem deMaximum_rt {keep : T → Bool} {o : Option (Maximum T)} (h1 : Carries es m "maximum")
    (h2 : Carries es m "exclusiveMaximum") (e1 : lastOf (occ "maximum" m) = maxField f o)
    (e2 : lastOf (occ "exclusiveMaximum" m) = exMaxField f o)
    (hr : ∀ b, o = some b → keep b.bound = true → RT (f b.bound) de b.bound)
    (hr' : ∀ b, o = some b → keep b.bound = false → ∀ d, Represents d (f b.bound) → de d = none) :
    deMaximum de es = o.filter fun b => keep b.bound := by
  unfold deMaximum deFlatEnum
  simp only [List.map_cons, List.map_nil]
  match o with
  | none =>
    rw [find_names_none fun k hk => ?_]
    · rfl
    · rcases List.mem_cons.1 hk with rfl | hk
      · exact h1.absent e1
      · rw [List.mem_singleton.1 hk]; exact h2.absent e2
  | some (.inclusive a) =>
    obtain ⟨v, h3, h4⟩ := h1.present e1
    rw [find_names (k := "maximum") (by simp) h3 fun k hk hne => ?_]
    · have : nameOf? [("maximum", Maximum.inclusive), ("exclusiveMaximum", Maximum.exclusive)]
        "maximum" = some (Maximum.inclusive (T := T)) := by simp [nameOf?]
      cases hk : keep a with
      | true => simp [this, hr _ rfl hk v h4, Option.filter, Maximum.bound_eq, hk]
      | false => simp [this, hr' _ rfl hk v h4, Option.filter, Maximum.bound_eq, hk]
    · rcases List.mem_cons.1 hk with rfl | hk
      · exact absurd rfl hne
      · rw [List.mem_singleton.1 hk]; exact h2.absent e2
  | some (.exclusive a) =>
    obtain ⟨v, h3, h4⟩ := h2.present e2
    rw [find_names (k := "exclusiveMaximum") (by simp) h3 fun k hk hne => ?_]
    · have : nameOf? [("maximum", Maximum.inclusive), ("exclusiveMaximum", Maximum.exclusive)]
        "exclusiveMaximum" = some (Maximum.exclusive (T := T)) := by simp [nameOf?]
      cases hk : keep a with
      | true => simp [this, hr _ rfl hk v h4, Option.filter, Maximum.bound_eq, hk]
      | false => simp [this, hr' _ rfl hk v h4, Option.filter, Maximum.bound_eq, hk]
    · rcases List.mem_cons.1 hk with rfl | hk
      · exact h1.absent e1
      · exact absurd (List.mem_singleton.1 hk) hne

theorem deMinimum_rt {keep : T → Bool} {o : Option (Minimum T)} (h1 : Carries es m "minimum")
    (h2 : Carries es m "exclusiveMinimum") (e1 : lastOf (occ "minimum" m) = minField f o)
    (e2 : lastOf (occ "exclusiveMinimum" m) = exMinField f o)
    (hr : ∀ b, o = some b → keep b.bound = true → RT (f b.bound) de b.bound)
    (hr' : ∀ b, o = some b → keep b.bound = false → ∀ d, Represents d (f b.bound) → de d = none) :
    deMinimum de es = o.filter fun b => keep b.bound := by
  unfold deMinimum deFlatEnum
  simp only [List.map_cons, List.map_nil]
  match o with
  | none =>
    rw [find_names_none fun k hk => ?_]
    · rfl
    · rcases List.mem_cons.1 hk with rfl | hk
      · exact h1.absent e1
      · rw [List.mem_singleton.1 hk]; exact h2.absent e2
  | some (.inclusive a) =>
    obtain ⟨v, h3, h4⟩ := h1.present e1
    rw [find_names (k := "minimum") (by simp) h3 fun k hk hne => ?_]
    · have : nameOf? [("minimum", Minimum.inclusive), ("exclusiveMinimum", Minimum.exclusive)]
        "minimum" = some (Minimum.inclusive (T := T)) := by simp [nameOf?]
      cases hk : keep a with
      | true => simp [this, hr _ rfl hk v h4, Option.filter, Minimum.bound_eq, hk]
      | false => simp [this, hr' _ rfl hk v h4, Option.filter, Minimum.bound_eq, hk]
    · rcases List.mem_cons.1 hk with rfl | hk
      · exact absurd rfl hne
      · rw [List.mem_singleton.1 hk]; exact h2.absent e2
  | some (.exclusive a) =>
    obtain ⟨v, h3, h4⟩ := h2.present e2
    rw [find_names (k := "exclusiveMinimum") (by simp) h3 fun k hk hne => ?_]
    · have : nameOf? [("minimum", Minimum.inclusive), ("exclusiveMinimum", Minimum.exclusive)]
        "exclusiveMinimum" = some (Minimum.exclusive (T := T)) := by simp [nameOf?]
      cases hk : keep a with
      | true => simp [this, hr _ rfl hk v h4, Option.filter, Minimum.bound_eq, hk]
      | false => simp [this, hr' _ rfl hk v h4, Option.filter, Minimum.bound_eq, hk]
    · rcases List.mem_cons.1 hk with rfl | hk
      · exact h1.absent e1
      · exact absurd (List.mem_singleton.1 hk) hne

end Bounds

/-! ### Subtypes -/

theorem serSchema_eq (s : DataSchema DSx AS OS) :
    serSchema C CA CO env.toEnv s = (serSchemaMembers C CA CO env.toEnv s).map .obj := by
  obtain ⟨h, o, st⟩ := s
  rw [serSchema, Schema.fold_mk]
  rfl

theorem serSchema_is_obj {s : DataSchema DSx AS OS} {j : Json}
    (h : serSchema C CA CO env.toEnv s = some j) : j ≠ .null := by
  rw [serSchema_eq] at h
  obtain ⟨m, _, rfl⟩ := Option.map_eq_some_iff.1 h
  nofun

theorem mapOpt_id_map {α : Type} {f : α → Option Json} {l : List α} {js : List Json}
    (h : mapOpt id (l.map f) = some js) : Pointwise (fun j a => f a = some j) js l := by
  rw [mapOpt_map, mapOpt_eq_some] at h
  induction h with
  | nil => exact .nil
  | cons h _ ih => exact .cons h ih

theorem items_rt {ser : S → Option Json} {r : S → S} {sub : Json → Option S}
    (harr : ∀ l, sub (.arr l) = none) {i : ElemOrVec S} {j : Json}
    (hr : ∀ c ∈ i.toList, ∀ j, ser c = some j → j ≠ .null ∧ RT j sub (r c))
    (hw : serItems (i.map ser) = some j) : j ≠ .null ∧ RT j (deItems sub) (i.map r) := by
  cases i with
  | elem c =>
    have hw' : ser c = some j := hw
    obtain ⟨h1, h2⟩ := hr c (by simp [ElemOrVec.toList]) j hw'
    refine ⟨h1, fun d hd => ?_⟩
    unfold deItems
    rw [h2 d hd]
    rfl
  | vec l =>
    obtain ⟨js, h1, rfl⟩ := Option.map_eq_some_iff.1 hw
    refine ⟨nofun, fun d hd => ?_⟩
    have h2 : deVec sub d = some (l.map r) := by
      refine vec_rt ?_ d hd
      exact pointwise_map_right.2 <| (mapOpt_id_map h1).imp_mem fun j _ c hc h => (hr c hc j h).2
    obtain ⟨l', rfl, _⟩ := hd.arr
    unfold deItems
    rw [harr, h2]
    rfl

theorem array_members {items : Option Json} {a : ArrayF AS S} {t : Json} :
    ("type", t) :: members [("items", items), ("min_items", a.minItems.map fun n => serNat n.1),
    ("max_items", a.maxItems.map fun n => serNat n.1)] =
    members [("type", some t), ("items", items), ("min_items", a.minItems.map fun n => serNat n.1),
    ("max_items", a.maxItems.map fun n => serNat n.1)] := rfl

theorem u32_field {x : Option U32} :
    ∀ a, x = some a → serNat a.1 ≠ .null ∧ RT (serNat a.1) deU32 a := fun a _ => ⟨nofun, u32_rt a⟩

/-- A number that is not finite is not read back. -/
theorem f64_lost {f : F64} (h : f.isFinite = false) : serF64 f = .null := by
  unfold serF64
  rw [if_neg (by simp [h])]

theorem f64_lost_de {f : F64} (h : f.isFinite = false) (d : Json) (hd : Represents d (serF64 f)) :
    deF64 d = none := by
  rw [f64_lost h] at hd
  rw [hd.null]
  rfl

/-- An optional member that is dropped when it is written as `null`. -/
theorem optional_filter {α : Type} {es m : Members} {k : String} {de : Json → Option α} {f : α → Json}
    {keep : α → Bool} {x : Option α} (h : Carries es m k) (hj : lastOf (occ k m) = x.map f)
    (hr : ∀ a, x = some a → keep a = true → f a ≠ .null ∧ RT (f a) de a)
    (hr' : ∀ a, x = some a → keep a = false → f a = .null) :
    optional k de es = some (x.filter keep) := by
  cases x with
  | none => exact defaulted_absent h hj
  | some a =>
    cases hk : keep a with
    | true =>
      obtain ⟨h1, h2⟩ := hr a rfl hk
      have := defaulted_rt (d := none) h hj (deOption_rt h1 h2)
      simpa [hk, optional, Option.filter] using this
    | false =>
      have hn : RT (f a) (deOption de) none := by
        rw [hr' a rfl hk]
        intro d hd
        rw [hd.null]
        rfl
      have := defaulted_rt (d := none) h hj hn
      simpa [hk, optional, Option.filter] using this

theorem filter_true {α : Type} (x : Option α) : x.filter (fun _ => true) = x := by cases x <;> rfl

theorem schemaSubtype_rt {ser : S → Option Json} {r : S → S} {sub : Json → Option S}
    (harr : ∀ l, sub (.arr l) = none) {st : SubtypeF AS OS S} {m es : Members}
    (hr : ∀ c ∈ st.children, ∀ j, ser c = some j → j ≠ .null ∧ RT j sub (r c))
    (hprops : ∀ o m, st = .object o → o.properties = some m → HMap.Sorted m)
    (hA : ∀ a, st = .array a → CA.Reads a.other) (hO : ∀ o, st = .object o → CO.Reads o.other)
    (apA : Apart CA.keys Names.schemaType) (apO : Apart CO.keys Names.schemaType)
    (hw : serSchemaSubtype CA CO env.toEnv (st.map ser) = some m)
    (hc : ∀ k ∈ Names.schemaType ++ (CA.keys ++ CO.keys), Carries es m k) :
    deSchemaSubtype CA CO sub es = some (st.map r).stored := by
  have hc' : ∀ k ∈ Names.schemaType, Carries es m k := fun k hk =>
    hc k (List.mem_append_left _ hk)
  cases st with
  | boolean =>
    cases hw
    have ht : required "type" (deTag schemaTable) es = some .boolean :=
      required_rt (hc' "type" (by decide)) rfl (tag_rt (s := "boolean") (by rfl))
    simp only [deSchemaSubtype, ht, bind, Option.bind_some, pure, SubtypeF.map, SubtypeF.stored]
  | null =>
    cases hw
    have ht : required "type" (deTag schemaTable) es = some .null :=
      required_rt (hc' "type" (by decide)) rfl (tag_rt (s := "null") (by rfl))
    simp only [deSchemaSubtype, ht, bind, Option.bind_some, pure, SubtypeF.map, SubtypeF.stored]
  | string s =>
    cases hw
    have hm : ("type", Json.str "string") :: serString s =
        members [("type", some (.str "string")), ("minLength", s.minLength.map fun n => serNat n.1),
          ("maxLength", s.maxLength.map fun n => serNat n.1), ("pattern", s.pattern.map .str),
          ("contentEncoding", s.contentEncoding.map .str),
          ("contentMediaType", s.contentMediaType.map .str)] := rfl
    simp only [hm] at hc'
    have hf : ∀ {k : String} {v : Option Json}, k ∈ Names.schemaType → fieldOf k _ = v → _ ∧ _ :=
      fun {k v} h1 h2 => And.intro (hc' k h1) ((hc' k h1).field (by names) h2)
    have h0 := hf (k := "type") (by decide) (by simp [fieldOf]; rfl)
    have ht : required "type" (deTag schemaTable) es = some .string :=
      required_rt h0.1 h0.2 (tag_rt (s := "string") (by rfl))
    have h1 := hf (k := "minLength") (by decide) (by simp [fieldOf]; rfl)
    have h2 := hf (k := "maxLength") (by decide) (by simp [fieldOf]; rfl)
    have h3 := hf (k := "pattern") (by decide) (by simp [fieldOf]; rfl)
    have h4 := hf (k := "contentEncoding") (by decide) (by simp [fieldOf]; rfl)
    have h5 := hf (k := "contentMediaType") (by decide) (by simp [fieldOf]; rfl)
    have g1 := optional_field (h1.1.rest (known := ["type"]) (by decide)) h1.2 u32_field
    have g2 := optional_field (h2.1.rest (known := ["type"]) (by decide)) h2.2 u32_field
    have g3 := optional_field (h3.1.rest (known := ["type"]) (by decide)) h3.2 Option.map_str_rt
    have g4 := optional_field (h4.1.rest (known := ["type"]) (by decide)) h4.2 Option.map_str_rt
    have g5 := optional_field (h5.1.rest (known := ["type"]) (by decide)) h5.2 Option.map_str_rt
    simp only [deSchemaSubtype, ht, bind, Option.bind_some, pure, deString, g1, g2, g3, g4, g5,
      Option.map_some, SubtypeF.map, SubtypeF.stored]
  | number n =>
    cases hw
    have hm : ("type", Json.str "number") :: serNumber n =
        members [("type", some (.str "number")), ("maximum", maxField serF64 n.maximum),
          ("exclusiveMaximum", exMaxField serF64 n.maximum), ("minimum", minField serF64 n.minimum),
          ("exclusiveMinimum", exMinField serF64 n.minimum),
          ("multipleOf", n.multipleOf.map serF64)] := by
      obtain ⟨a, b, c⟩ := n
      rcases a with _ | (_ | _) <;> rcases b with _ | (_ | _) <;> rfl
    simp only [hm] at hc'
    have hf : ∀ {k : String} {v : Option Json}, k ∈ Names.schemaType → fieldOf k _ = v → _ ∧ _ :=
      fun {k v} h1 h2 => And.intro (hc' k h1) ((hc' k h1).field (by names) h2)
    have h0 := hf (k := "type") (by decide) (by simp [fieldOf]; rfl)
    have ht : required "type" (deTag schemaTable) es = some .number :=
      required_rt h0.1 h0.2 (tag_rt (s := "number") (by rfl))
    have h1 := hf (k := "maximum") (by decide) (by simp [fieldOf]; rfl)
    have h2 := hf (k := "exclusiveMaximum") (by decide) (by simp [fieldOf]; rfl)
    have h3 := hf (k := "minimum") (by decide) (by simp [fieldOf]; rfl)
    have h4 := hf (k := "exclusiveMinimum") (by decide) (by simp [fieldOf]; rfl)
    have h5 := hf (k := "multipleOf") (by decide) (by simp [fieldOf]; rfl)
    have g5 := optional_filter (keep := F64.isFinite) (h5.1.rest (known := ["type"]) (by decide)) h5.2
      (fun f _ hf => ⟨serF64_ne_null hf, f64_rt hf⟩) fun f _ hf => f64_lost hf
    have g1 := deMaximum_rt (de := deF64)
      ((h1.1.rest (known := ["type"]) (by decide)).rest (known := ["multipleOf"]) (by decide))
      ((h2.1.rest (known := ["type"]) (by decide)).rest (known := ["multipleOf"]) (by decide))
      h1.2 h2.2 (keep := F64.isFinite) (fun b _ hb => f64_rt hb) fun b _ hb => f64_lost_de hb
    have g2 := deMinimum_rt (de := deF64)
      ((h3.1.rest (known := ["type"]) (by decide)).rest (known := ["multipleOf"]) (by decide))
      ((h4.1.rest (known := ["type"]) (by decide)).rest (known := ["multipleOf"]) (by decide))
      h3.2 h4.2 (keep := F64.isFinite) (fun b _ hb => f64_rt hb) fun b _ hb => f64_lost_de hb
    simp only [deSchemaSubtype, ht, bind, Option.bind_some, pure, deNumber, g1, g2, g5,
      Option.map_some, SubtypeF.map, SubtypeF.stored, NumberSchema.stored]
  | integer n =>
    cases hw
    have hm : ("type", Json.str "integer") :: serInteger n =
        members [("type", some (.str "integer")), ("maximum", maxField serI64 n.maximum),
          ("exclusiveMaximum", exMaxField serI64 n.maximum), ("minimum", minField serI64 n.minimum),
          ("exclusiveMinimum", exMinField serI64 n.minimum),
          ("multipleOf", n.multipleOf.map fun m => serNat m.1)] := by
      obtain ⟨a, b, c⟩ := n
      rcases a with _ | (_ | _) <;> rcases b with _ | (_ | _) <;> rfl
    simp only [hm] at hc'
    have hf : ∀ {k : String} {v : Option Json}, k ∈ Names.schemaType → fieldOf k _ = v → _ ∧ _ :=
      fun {k v} h1 h2 => And.intro (hc' k h1) ((hc' k h1).field (by names) h2)
    have h0 := hf (k := "type") (by decide) (by simp [fieldOf]; rfl)
    have ht : required "type" (deTag schemaTable) es = some .integer :=
      required_rt h0.1 h0.2 (tag_rt (s := "integer") (by rfl))
    have h1 := hf (k := "maximum") (by decide) (by simp [fieldOf]; rfl)
    have h2 := hf (k := "exclusiveMaximum") (by decide) (by simp [fieldOf]; rfl)
    have h3 := hf (k := "minimum") (by decide) (by simp [fieldOf]; rfl)
    have h4 := hf (k := "exclusiveMinimum") (by decide) (by simp [fieldOf]; rfl)
    have h5 := hf (k := "multipleOf") (by decide) (by simp [fieldOf]; rfl)
    have g5 := optional_field (h5.1.rest (known := ["type"]) (by decide)) h5.2
      fun f _ => ⟨nofun, nonZero_rt f⟩
    have g1 := deMaximum_rt (de := deI64)
      ((h1.1.rest (known := ["type"]) (by decide)).rest (known := ["multipleOf"]) (by decide))
      ((h2.1.rest (known := ["type"]) (by decide)).rest (known := ["multipleOf"]) (by decide))
      h1.2 h2.2 (keep := fun _ => true) (fun b _ _ => i64_rt b.bound) (fun _ _ h => Bool.noConfusion h)
    rw [filter_true] at g1
    have g2 := deMinimum_rt (de := deI64)
      ((h3.1.rest (known := ["type"]) (by decide)).rest (known := ["multipleOf"]) (by decide))
      ((h4.1.rest (known := ["type"]) (by decide)).rest (known := ["multipleOf"]) (by decide))
      h3.2 h4.2 (keep := fun _ => true) (fun b _ _ => i64_rt b.bound) (fun _ _ h => Bool.noConfusion h)
    rw [filter_true] at g2
    simp only [deSchemaSubtype, ht, bind, Option.bind_some, pure, deInteger, g1, g2, g5,
      Option.map_some, SubtypeF.map, SubtypeF.stored]
  | array a =>
    obtain ⟨m1, h1, rfl⟩ := Option.map_eq_some_iff.1 hw
    simp only [serArray, bind, pure, Option.bind_eq_some_iff] at h1
    obtain ⟨items, hi, other, ho, h1⟩ := h1
    injection h1 with h1
    subst h1
    have own := (hA a rfl).own _ ho
    have habs : ∀ k ∈ Names.schemaType, occ k other = [] := fun k hk => occ_eq_nil.2 fun h => by
      obtain ⟨kv, hkv, rfl⟩ := List.mem_map.1 h
      exact apA _ (own kv hkv) hk
    have hf : ∀ {k : String} {v : Option Json}, k ∈ Names.schemaType →
        fieldOf k [("type", some (.str "array")), ("items", items),
          ("min_items", a.minItems.map fun n => serNat n.1),
          ("max_items", a.maxItems.map fun n => serNat n.1)] = v → _ ∧ _ := fun {k v} h1 h2 =>
      have : Carries es (members _) k := Carries.left (a := members _) (hc' k h1) (habs k h1)
      And.intro this (this.field (by names) h2)
    have h0 := hf (k := "type") (by decide) (by simp [fieldOf]; rfl)
    have ht : required "type" (deTag schemaTable) es = some .array :=
      required_rt h0.1 h0.2 (tag_rt (s := "array") (by rfl))
    have h1 := hf (k := "items") (by decide) (by simp [fieldOf]; rfl)
    have h2 := hf (k := "min_items") (by decide) (by simp [fieldOf]; rfl)
    have h3 := hf (k := "max_items") (by decide) (by simp [fieldOf]; rfl)
    have hi' : OptRel (fun i j => serItems (i.map ser) = some j) a.items items := by
      have := optOpt_eq_some.1 hi
      cases e : a.items with
      | none => rw [e] at this; cases this; exact .none
      | some i => rw [e] at this; cases this with | some h => exact .some h
    have g1 := optional_map (r := ElemOrVec.map r) (de := deItems sub) (h1.1.rest (known := ["type"]) (by decide)) hi' h1.2
      fun i j e hj => items_rt harr (fun c hcc j hcj =>
        hr c (by simp only [SubtypeF.children, e, Option.map_some, Option.getD_some]; exact hcc) j hcj) hj
    have g2 := optional_field (h2.1.rest (known := ["type"]) (by decide)) h2.2 u32_field
    have g3 := optional_field (h3.1.rest (known := ["type"]) (by decide)) h3.2 u32_field
    have g4 : CA.de (rest ["items", "min_items", "max_items"] (rest ["type"] es)) = some a.other := by
      refine (hA a rfl).read _ _ ho fun k hk => ?_
      have hk' := apA k hk
      have h4 := hc k (by simp [hk])
      refine Carries.rest (Carries.rest (Carries.right (a := members [("type", some (.str "array")), ("items", items),
          ("min_items", a.minItems.map fun n => serNat n.1),
          ("max_items", a.maxItems.map fun n => serNat n.1)]) h4 ?_) ?_) ?_
      · refine occ_none_of_keys (K := Names.schemaType) (fun kv hkv => ?_) hk'
        have := mem_members hkv
        simp only [List.map_cons, List.map_nil] at this
        revert this
        generalize kv.1 = x
        simp only [List.mem_cons, List.not_mem_nil, or_false]
        rintro (rfl | rfl | rfl | rfl) <;> decide
      · intro h
        exact hk' (by rw [List.mem_singleton.1 h]; decide)
      · intro h
        refine hk' ?_
        simp only [List.mem_cons, List.not_mem_nil, or_false] at h
        rcases h with rfl | rfl | rfl <;> decide
    simp only [deSchemaSubtype, ht, bind, Option.bind_some, pure, deArray, g1, g2, g3, g4,
      Option.map_some, SubtypeF.map, SubtypeF.stored]
  | object o =>
    obtain ⟨m1, h1, rfl⟩ := Option.map_eq_some_iff.1 hw
    simp only [serObject, bind, pure, Option.bind_eq_some_iff] at h1
    obtain ⟨props, hi, other, ho, h1⟩ := h1
    injection h1 with h1
    subst h1
    have own := (hO o rfl).own _ ho
    have habs : ∀ k ∈ Names.schemaType, occ k other = [] := fun k hk => occ_eq_nil.2 fun h => by
      obtain ⟨kv, hkv, rfl⟩ := List.mem_map.1 h
      exact apO _ (own kv hkv) hk
    have hf : ∀ {k : String} {v : Option Json}, k ∈ Names.schemaType →
        fieldOf k [("type", some (.str "object")), ("properties", props),
          ("required", o.required.map fun l => .arr (l.map .str))] = v → _ ∧ _ := fun {k v} h1 h2 =>
      have : Carries es (members _) k := Carries.left (a := members _) (hc' k h1) (habs k h1)
      And.intro this (this.field (by names) h2)
    have h0 := hf (k := "type") (by decide) (by simp [fieldOf]; rfl)
    have ht : required "type" (deTag schemaTable) es = some .object :=
      required_rt h0.1 h0.2 (tag_rt (s := "object") (by rfl))
    have h1 := hf (k := "properties") (by decide) (by simp [fieldOf]; rfl)
    have h2 := hf (k := "required") (by decide) (by simp [fieldOf]; rfl)
    have hi' : OptRel (fun i j => serMap env.toEnv id (HMap.mapVals ser i) = some j)
        o.properties props := by
      have := optOpt_eq_some.1 hi
      cases e : o.properties with
      | none => rw [e] at this; cases this; exact .none
      | some i => rw [e] at this; cases this with | some h => exact .some h
    have g1 := optional_map (r := HMap.mapVals r) (de := deMap sub) (h1.1.rest (known := ["type"]) (by decide)) hi' h1.2
      fun i j e hj => ⟨serMap_ne_null hj, serMap_mapVals_rt (hprops o i rfl e) hj fun kv hkv j hcj =>
        (hr kv.2 (by
          simp only [SubtypeF.children, e, Option.map_some, Option.getD_some]
          exact List.mem_map.2 ⟨kv, hkv, rfl⟩) j hcj).2⟩
    have g2 := optional_field (de := deVec deStr) (h2.1.rest (known := ["type"]) (by decide)) h2.2
      fun l _ => ⟨nofun, vec_rt (pointwise_map_self fun a _ => str_rt a)⟩
    have g4 : CO.de (rest ["properties", "required"] (rest ["type"] es)) = some o.other := by
      refine (hO o rfl).read _ _ ho fun k hk => ?_
      have hk' := apO k hk
      have h4 := hc k (by simp [hk])
      refine Carries.rest (Carries.rest (Carries.right (a := members [("type", some (.str "object")), ("properties", props),
          ("required", o.required.map fun l => .arr (l.map .str))]) h4 ?_) ?_) ?_
      · refine occ_none_of_keys (K := Names.schemaType) (fun kv hkv => ?_) hk'
        have := mem_members hkv
        simp only [List.map_cons, List.map_nil] at this
        revert this
        generalize kv.1 = x
        simp only [List.mem_cons, List.not_mem_nil, or_false]
        rintro (rfl | rfl | rfl) <;> decide
      · intro h
        exact hk' (by rw [List.mem_singleton.1 h]; decide)
      · intro h
        refine hk' ?_
        simp only [List.mem_cons, List.not_mem_nil, or_false] at h
        rcases h with rfl | rfl <;> decide
    simp only [deSchemaSubtype, ht, bind, Option.bind_some, pure, deObject, g1, g2, g4,
      Option.map_some, SubtypeF.map, SubtypeF.stored]

theorem serSchemaSubtype_keys {st : SubtypeF AS OS (Option Json)} {m : Members}
    (hA : ∀ a o, st = .array a → CA.ser a.other = some o → ∀ kv ∈ o, kv.1 ∈ CA.keys)
    (hO : ∀ a o, st = .object a → CO.ser a.other = some o → ∀ kv ∈ o, kv.1 ∈ CO.keys)
    (hw : serSchemaSubtype CA CO env.toEnv st = some m) :
    ∀ kv ∈ m, kv.1 ∈ Names.schemaType ++ (CA.keys ++ CO.keys) := by
  have hmem : ∀ (L : List (String × Option Json)), (∀ k ∈ L.map (·.1), k ∈ Names.schemaType) →
      ∀ kv ∈ members L, kv.1 ∈ Names.schemaType ++ (CA.keys ++ CO.keys) :=
    fun L h kv hkv => List.mem_append_left _ (h _ (mem_members hkv))
  cases st with
  | boolean => cases hw; exact hmem [("type", some (.str "boolean"))] (by simp only [List.map_cons, List.map_nil]; decide)
  | null => cases hw; exact hmem [("type", some (.str "null"))] (by simp only [List.map_cons, List.map_nil]; decide)
  | string s =>
    cases hw
    exact hmem [("type", some (.str "string")), ("minLength", s.minLength.map fun n => serNat n.1),
          ("maxLength", s.maxLength.map fun n => serNat n.1), ("pattern", s.pattern.map .str),
          ("contentEncoding", s.contentEncoding.map .str),
          ("contentMediaType", s.contentMediaType.map .str)]
      (by simp only [List.map_cons, List.map_nil]; decide)
  | number n =>
    cases hw
    have hm : ("type", Json.str "number") :: serNumber n =
        members [("type", some (.str "number")), ("maximum", maxField serF64 n.maximum),
          ("exclusiveMaximum", exMaxField serF64 n.maximum), ("minimum", minField serF64 n.minimum),
          ("exclusiveMinimum", exMinField serF64 n.minimum),
          ("multipleOf", n.multipleOf.map serF64)] := by
      obtain ⟨a, b, c⟩ := n
      rcases a with _ | (_ | _) <;> rcases b with _ | (_ | _) <;> rfl
    rw [hm]
    exact hmem _ (by simp only [List.map_cons, List.map_nil]; decide)
  | integer n =>
    cases hw
    have hm : ("type", Json.str "integer") :: serInteger n =
        members [("type", some (.str "integer")), ("maximum", maxField serI64 n.maximum),
          ("exclusiveMaximum", exMaxField serI64 n.maximum), ("minimum", minField serI64 n.minimum),
          ("exclusiveMinimum", exMinField serI64 n.minimum),
          ("multipleOf", n.multipleOf.map fun m => serNat m.1)] := by
      obtain ⟨a, b, c⟩ := n
      rcases a with _ | (_ | _) <;> rcases b with _ | (_ | _) <;> rfl
    rw [hm]
    exact hmem _ (by simp only [List.map_cons, List.map_nil]; decide)
  | array a =>
    obtain ⟨m1, h1, rfl⟩ := Option.map_eq_some_iff.1 hw
    simp only [serArray, bind, pure, Option.bind_eq_some_iff] at h1
    obtain ⟨items, hi, other, ho, h1⟩ := h1
    injection h1 with h1
    subst h1
    intro kv hkv
    rcases List.mem_append.1 (show kv ∈ members [("type", some (.str "array")), ("items", items),
        ("min_items", a.minItems.map fun n => serNat n.1),
        ("max_items", a.maxItems.map fun n => serNat n.1)] ++ other from hkv) with h | h
    · exact hmem _ (by simp only [List.map_cons, List.map_nil]; decide) kv h
    · simp [hA a other rfl ho kv h]
  | object o =>
    obtain ⟨m1, h1, rfl⟩ := Option.map_eq_some_iff.1 hw
    simp only [serObject, bind, pure, Option.bind_eq_some_iff] at h1
    obtain ⟨props, hi, other, ho, h1⟩ := h1
    injection h1 with h1
    subst h1
    intro kv hkv
    rcases List.mem_append.1 (show kv ∈ members [("type", some (.str "object")),
        ("properties", props), ("required", o.required.map fun l => .arr (l.map .str))] ++ other
        from hkv) with h | h
    · exact hmem _ (by simp only [List.map_cons, List.map_nil]; decide) kv h
    · simp [hO o other rfl ho kv h]

/-- What is known of the members a schema is written as. -/
structure SchemaParts (C : ExtCodec DSx) (CA : ExtCodec AS) (CO : ExtCodec OS) (env : SerdeEnv)
    (s : DataSchema DSx AS OS) (m : Members) where
  oneOf : Option Json
  hoo : OptRel (fun l j => (mapOpt (serSchema C CA CO env.toEnv) l).map Json.arr = some j) s.oneOf oneOf
  st : Option Members
  hst : OptRel (fun st m => serSchemaSubtype CA CO env.toEnv
    (SubtypeF.map (serSchema C CA CO env.toEnv) st) = some m) s.subtype st
  other : Members
  hother : C.ser s.head.other = some other
  eq : m = members [("@type", s.head.attype.map serStrings), ("title", s.head.title.map .str),
      ("titles", s.head.titles.map (serLang env.toEnv)), ("description", s.head.description.map .str),
      ("descriptions", s.head.descriptions.map (serLang env.toEnv)), ("const", s.head.constant),
      ("default", s.head.default), ("unit", s.head.unit.map .str), ("oneOf", oneOf),
      ("enum", s.head.enumeration.map .arr), ("readOnly", some (.bool s.head.readOnly)),
      ("writeOnly", some (.bool s.head.writeOnly)), ("format", s.head.format.map .str)] ++
    st.getD [] ++ other

theorem SchemaParts.of {s : DataSchema DSx AS OS} {m : Members}
    (hw : serSchemaMembers C CA CO env.toEnv s = some m) : Nonempty (SchemaParts C CA CO env s m) := by
  simp only [serSchemaMembers, serSchemaStep, bind, pure, Option.bind_eq_some_iff] at hw
  obtain ⟨oneOf, h1, st, h2, other, h3, h4⟩ := hw
  injection h4 with h4
  refine ⟨⟨oneOf, ?_, st, ?_, other, h3, h4.symm⟩⟩
  · have := optOpt_eq_some.1 h1
    cases e : s.oneOf with
    | none => rw [e] at this; cases this; exact .none
    | some l =>
      rw [e] at this
      cases this with
      | some h =>
        refine .some ?_
        rw [mapOpt_map] at h
        exact h
  · have := optOpt_eq_some.1 h2
    cases e : s.subtype with
    | none => rw [e] at this; cases this; exact .none
    | some l => rw [e] at this; cases this with | some h => exact .some h

theorem SchemaParts.st_keys' {s : DataSchema DSx AS OS} {m : Members} (p : SchemaParts C CA CO env s m)
    (ha : ∀ a, s.subtype = some (.array a) → ∀ m, CA.ser a.other = some m → ∀ kv ∈ m, kv.1 ∈ CA.keys)
    (hb : ∀ a, s.subtype = some (.object a) → ∀ m, CO.ser a.other = some m → ∀ kv ∈ m, kv.1 ∈ CO.keys) :
    ∀ kv ∈ p.st.getD [], kv.1 ∈ Names.schemaType ++ (CA.keys ++ CO.keys) := by
  have := p.hst
  cases e : s.subtype with
  | none =>
    rw [e] at this
    generalize p.st = x at this
    cases this
    nofun
  | some st =>
    rw [e] at this
    generalize p.st = x at this
    cases this with
    | some h =>
      refine serSchemaSubtype_keys (fun a o h1 h2 => ?_) (fun a o h1 h2 => ?_) h
      · cases st <;> cases h1
        exact ha _ e _ h2
      · cases st <;> cases h1
        exact hb _ e _ h2

theorem SchemaParts.st_keys {s : DataSchema DSx AS OS} {m : Members} (p : SchemaParts C CA CO env s m)
    (hn : SchemaNodeKept env C CA CO s) :
    ∀ kv ∈ p.st.getD [], kv.1 ∈ Names.schemaType ++ (CA.keys ++ CO.keys) :=
  p.st_keys' (fun a h => (hn.otherArray a h).own) fun a h => (hn.otherObject a h).own

theorem schema_type_head : ∀ k ∈ Names.schemaType, k ∉ Names.schemaHead := by decide

theorem enum_field {x : Option (List Json)} (h : ∀ l, x = some l → ∀ v ∈ l, v.IsValue) :
    ∀ a, x = some a → Json.arr a ≠ .null ∧ RT (.arr a) (deVec deValue) a := fun a ha =>
  ⟨nofun, vec_rt (pointwise_self fun v hv => value_rt (h a ha v hv))⟩

theorem dropNull_eq (x : Option Json) : dropNull x = x.filter fun v => !v matches .null := by
  rcases x with _ | (_ | _) <;> rfl

theorem optional_value {es m : Members} {k : String} {x : Option Json} (h : Carries es m k)
    (hj : lastOf (occ k m) = x.map id) (hv : ∀ v, x = some v → v.IsValue) :
    optional k deValue es = some (dropNull x) := by
  rw [dropNull_eq]
  refine optional_filter h hj (fun v e hk => ⟨?_, value_rt (hv v e)⟩) fun v _ hk => ?_
  · rintro rfl
    simp at hk
  · cases v <;> simp at hk ⊢

theorem stored_eq {L : Type} (s : Schema L DSx AS OS) : s.stored = .mk
    { s.head with constant := dropNull s.head.constant, default := dropNull s.head.default }
    (s.oneOf.map (List.map Schema.stored))
    ((s.subtype.map (SubtypeF.map Schema.stored)).map SubtypeF.stored) := by
  obtain ⟨h, o, st⟩ := s
  rw [Schema.stored, Schema.fold_mk]
  rfl

/-- A schema is read back from members that carry what it is written as. -/
theorem schemaMembers_rt {s : DataSchema DSx AS OS} {m es : Members}
    (ap : SchemaApart C.keys CA.keys CO.keys) (hn : SchemaNodeKept env C CA CO s)
    (ho : ∀ l, s.oneOf = some l → ∀ c ∈ l, ∀ j, serSchema C CA CO env.toEnv c = some j →
      RT j (deSchema C CA CO env) c.stored)
    (hs : ∀ st, s.subtype = some st → ∀ c ∈ st.children, ∀ j, serSchema C CA CO env.toEnv c = some j →
      RT j (deSchema C CA CO env) c.stored)
    (hw : serSchemaMembers C CA CO env.toEnv s = some m)
    (hc : ∀ k ∈ Names.schema ++ (C.keys ++ (CA.keys ++ CO.keys)), Carries es m k) :
    deSchemaMembers C CA CO env (deSchema C CA CO env) es = some s.stored := by
  obtain ⟨p⟩ := SchemaParts.of hw
  have hstk := p.st_keys hn
  have hok := hn.other.own _ p.hother
  have hmH : ∀ k ∈ Names.schemaHead, k ∈ Names.schema := fun k hk => List.mem_append_left _ hk
  have hmT : ∀ k ∈ Names.schemaType, k ∈ Names.schema := fun k hk => List.mem_append_right _ hk
  have head_st : ∀ k ∈ Names.schemaHead, occ k (p.st.getD []) = [] := fun k hk =>
    occ_none_of_keys hstk fun h => by
      rcases List.mem_append.1 h with h | h
      · exact schema_type_head k h hk
      · rcases List.mem_append.1 h with h | h
        · exact ap.array k h (List.mem_append_left _ (hmH k hk))
        · exact ap.object k h (List.mem_append_left _ (hmH k hk))
  have names_other : ∀ k ∈ Names.schema, occ k p.other = [] := fun k hk =>
    occ_none_of_keys hok fun h => ap.schema k h hk
  have hsplit := p.eq
  rw [List.append_assoc] at hsplit
  rw [hsplit] at hc
  have hf : ∀ {k : String} {v : Option Json}, k ∈ Names.schemaHead → fieldOf k _ = v → _ ∧ _ :=
    fun {k v} h1 h2 =>
    have := (hc k (List.mem_append_left _ (hmH k h1))).left
      (by rw [occ_append, head_st k h1, names_other k (hmH k h1)]; rfl)
    And.intro this (this.field (by names) h2)
  have h1 := hf (k := "@type") (by decide) (by simp [fieldOf]; rfl)
  have h2 := hf (k := "title") (by decide) (by simp [fieldOf]; rfl)
  have h3 := hf (k := "titles") (by decide) (by simp [fieldOf]; rfl)
  have h4 := hf (k := "description") (by decide) (by simp [fieldOf]; rfl)
  have h5 := hf (k := "descriptions") (by decide) (by simp [fieldOf]; rfl)
  have h6 := hf (k := "const") (v := s.head.constant.map id) (by decide) (by simp [fieldOf])
  have h7 := hf (k := "default") (v := s.head.default.map id) (by decide) (by simp [fieldOf])
  have h8 := hf (k := "unit") (by decide) (by simp [fieldOf]; rfl)
  have h9 := hf (k := "oneOf") (by decide) (by simp [fieldOf]; rfl)
  have h10 := hf (k := "enum") (by decide) (by simp [fieldOf]; rfl)
  have h11 := hf (k := "readOnly") (by decide) (by simp [fieldOf]; rfl)
  have h12 := hf (k := "writeOnly") (by decide) (by simp [fieldOf]; rfl)
  have h13 := hf (k := "format") (by decide) (by simp [fieldOf]; rfl)
  have g1 := optional_field h1.1 h1.2 strings_field
  have g2 := optional_field h2.1 h2.2 Option.map_str_rt
  have g3 := optional_field h3.1 h3.2 (lang_field hn.titles)
  have g4 := optional_field h4.1 h4.2 Option.map_str_rt
  have g5 := optional_field h5.1 h5.2 (lang_field hn.descriptions)
  have g6 := optional_value h6.1 h6.2 hn.constant
  have g7 := optional_value h7.1 h7.2 hn.default
  have g8 := optional_field h8.1 h8.2 Option.map_str_rt
  have g9 := optional_map (r := List.map Schema.stored) (de := deVec (deSchema C CA CO env)) h9.1 p.hoo h9.2 fun l j e hj => by
    obtain ⟨js, hjs, rfl⟩ := Option.map_eq_some_iff.1 hj
    refine ⟨nofun, vec_rt ?_⟩
    rw [← List.map_id l, mapOpt_map] at hjs
    exact pointwise_map_right.2 <| (mapOpt_id_map (f := serSchema C CA CO env.toEnv) (l := l)
      (by rw [mapOpt_map]; exact hjs)).imp_mem fun j _ c hcl h => ho l e c hcl j h
  have g10 := optional_field h10.1 h10.2 (enum_field hn.enumeration)
  have g11 := defaulted_rt (d := false) h11.1 h11.2 (bool_rt s.head.readOnly)
  have g12 := defaulted_rt (d := false) h12.1 h12.2 (bool_rt s.head.writeOnly)
  have g13 := optional_field h13.1 h13.2 Option.map_str_rt
  have hHk : ∀ k, k ∉ Names.schemaHead → occ k (members [("@type", s.head.attype.map serStrings),
      ("title", s.head.title.map .str),
      ("titles", s.head.titles.map (serLang env.toEnv)), ("description", s.head.description.map .str),
      ("descriptions", s.head.descriptions.map (serLang env.toEnv)), ("const", s.head.constant),
      ("default", s.head.default), ("unit", s.head.unit.map .str), ("oneOf", p.oneOf),
      ("enum", s.head.enumeration.map .arr), ("readOnly", some (.bool s.head.readOnly)),
      ("writeOnly", some (.bool s.head.writeOnly)), ("format", s.head.format.map .str)]) = [] :=
    fun k hk => occ_none_of_keys (members_keys rfl) hk
  have g14 : C.de (rest schemaKeys es) = some s.head.other := by
    refine hn.other.read _ _ p.hother fun k hk => ?_
    have hk' := ap.schema k hk
    have hk2 : k ∉ Names.schemaHead := fun h => hk' (hmH k h)
    refine Carries.rest (((hc k (List.mem_append_right _ (List.mem_append_left _ hk))).right
      (hHk k hk2)).right ?_) hk2
    refine occ_none_of_keys hstk fun h => ?_
    rcases List.mem_append.1 h with h | h
    · exact hk' (hmT k h)
    · rcases List.mem_append.1 h with h | h
      · exact ap.array k h (List.mem_append_right _ hk)
      · exact ap.object k h (List.mem_append_right _ hk)
  have hcS : ∀ k ∈ Names.schemaType ++ (CA.keys ++ CO.keys),
      Carries (rest schemaKeys es) (p.st.getD []) k := by
    intro k hk
    have hk1 : k ∉ Names.schemaHead ∧ k ∉ C.keys ∧
        k ∈ Names.schema ++ (C.keys ++ (CA.keys ++ CO.keys)) := by
      rcases List.mem_append.1 hk with h | h
      · exact ⟨schema_type_head k h, fun h' => ap.schema k h' (hmT k h),
          List.mem_append_left _ (hmT k h)⟩
      · have hmem : k ∈ Names.schema ++ (C.keys ++ (CA.keys ++ CO.keys)) :=
          List.mem_append_right _ (List.mem_append_right _ h)
        rcases List.mem_append.1 h with h | h
        · exact ⟨fun h' => ap.array k h (List.mem_append_left _ (hmH k h')),
            fun h' => ap.array k h (List.mem_append_right _ h'), hmem⟩
        · exact ⟨fun h' => ap.object k h (List.mem_append_left _ (hmH k h')),
            fun h' => ap.object k h (List.mem_append_right _ h'), hmem⟩
    exact Carries.rest (((hc k hk1.2.2).right (hHk k hk1.1)).left
      (occ_none_of_keys hok hk1.2.1)) hk1.1
  have g15 : deSchemaSubtype CA CO (deSchema C CA CO env) (rest schemaKeys es) =
      (s.subtype.map (SubtypeF.map Schema.stored)).map SubtypeF.stored := by
    have := p.hst
    cases e : s.subtype with
    | none =>
      rw [e] at this
      generalize p.st = x at this hcS
      cases this
      have := (hcS "type" (List.mem_append_left _ (by decide))).absent rfl
      simp only [deSchemaSubtype, required, this, bind, Option.bind_none, Option.map_none]
    | some st =>
      rw [e] at this
      generalize p.st = x at this hcS
      cases this with
      | some h =>
        refine schemaSubtype_rt (fun l => rfl)
          (fun c hcc j hcj => ⟨serSchema_is_obj hcj, hs st e c hcc j hcj⟩) ?_ ?_ ?_ ?_ ?_ h hcS
        · rintro n b rfl; exact hn.properties n b e
        · rintro n rfl; exact hn.otherArray n e
        · rintro n rfl; exact hn.otherObject n e
        · exact fun k hk h => ap.array k hk (List.mem_append_left _ (hmT k h))
        · exact fun k hk h => ap.object k hk (List.mem_append_left _ (hmT k h))
  simp only [deSchemaMembers, bind, Option.bind_some, pure, g1, g2, g3, g4, g5, g6, g7, g8, g9, g10,
    g11, g12, g13, g14, g15]
  rw [stored_eq]

theorem within_child {c x : DataSchema DSx AS OS} {st : SubtypeF AS OS (DataSchema DSx AS OS)}
    (e : x.subtype = some st) (h : c ∈ st.children) {y : DataSchema DSx AS OS} (hy : Within y c) :
    Within y x := by
  cases st with
  | array a =>
    simp only [SubtypeF.children] at h
    cases ei : a.items with
    | none => rw [ei] at h; cases h
    | some i =>
      rw [ei] at h
      cases i with
      | elem c' =>
        simp only [Option.map_some, Option.getD_some, ElemOrVec.toList, List.mem_singleton] at h
        subst h
        exact .item e ei hy
      | vec l => exact .items e ei h hy
  | object o =>
    simp only [SubtypeF.children] at h
    cases ei : o.properties with
    | none => rw [ei] at h; cases h
    | some m =>
      rw [ei] at h
      simp only [Option.map_some, Option.getD_some, HMap.values, List.mem_map] at h
      obtain ⟨⟨k, c'⟩, hm, rfl⟩ := h
      exact .property e ei hm hy
  | _ => cases h

/-- A data schema is read back from what it is written as, whatever its depth. -/
theorem schema_rt (ap : SchemaApart C.keys CA.keys CO.keys) (s : DataSchema DSx AS OS) :
    SchemaKept env C CA CO s → ∀ j, serSchema C CA CO env.toEnv s = some j →
      RT j (deSchema C CA CO env) s.stored := by
  induction s using Schema.ind with
  | h hd o st ih1 ih2 =>
    intro hst j hj d hd'
    rw [serSchema_eq] at hj
    obtain ⟨m, hm, rfl⟩ := Option.map_eq_some_iff.1 hj
    obtain ⟨es, rfl, _, hc⟩ := hd'.obj
    rw [deSchema_obj]
    refine schemaMembers_rt ap (hst _ (.self _)) ?_ ?_ hm fun k _ => hc k
    · intro l e c hcl j hcj
      exact ih1 l e c hcl (fun x hx => hst x (.oneOf e hcl hx)) j hcj
    · intro t e c hcl j hcj
      exact ih2 t e c hcl (fun x hx => hst x (within_child e hcl hx)) j hcj

end Schema
end Wot
