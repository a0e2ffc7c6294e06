import Verif.Lemmas.Edits
/-
What is read depends on the members with known names only, and on their order only within the two names of a bound.
-/
namespace Wot

variable {X : ExtTypes} {C : ExtCodecs X} {env : SerdeEnv} {es es' : Members}

/-- Both lists have the same members of these names. -/
def SameOn (K : List String) (es es' : Members) : Prop := ∀ f ∈ K, occ f es = occ f es'

/-- The first member with one of these names. -/
def first (K : List String) (es : Members) : Option (String × Json) := es.find? fun kv => K.contains kv.1

theorem SameOn.mono {K K' : List String} (h : SameOn K es es') (hs : ∀ f ∈ K', f ∈ K) : SameOn K' es es' :=
  fun f hf => h f (hs f hf)

theorem SameOn.rest {K : List String} (h : SameOn K es es') (K' : List String) :
    SameOn K (rest K' es) (rest K' es') := fun f hf => by rw [occ_rest, occ_rest, h f hf]

theorem first_rest {K K' : List String} (h : ∀ f ∈ K, f ∉ K') (es : Members) : first K (rest K' es) = first K es := by
  simp only [first, rest, List.find?_filter]
  congr 1
  funext kv
  by_cases h1 : kv.1 ∈ K
  · simp [h1, h _ h1]
  · simp [h1]

theorem SameOn.ext {A : Type} {c : ExtCodec A} (h : SameOn c.keys es es') (loc : c.Local) (K : List String) :
    c.de (Wot.rest K es) = c.de (Wot.rest K es') := loc _ _ (h.rest K)

theorem flatEnum_congr {A B : Type} {table : List (String × (A → B))} (de : Json → Option A)
    (h : first (table.map (·.1)) es = first (table.map (·.1)) es') :
    deFlatEnum table de es = deFlatEnum table de es' := by
  simp only [deFlatEnum]
  exact congrArg (Option.bind · _) h

theorem maximum_congr {T : Type} (de : Json → Option T)
    (h : first ["maximum", "exclusiveMaximum"] es = first ["maximum", "exclusiveMaximum"] es') :
    deMaximum de es = deMaximum de es' :=
  flatEnum_congr (table := [("maximum", Maximum.inclusive), ("exclusiveMaximum", Maximum.exclusive)]) de h

theorem minimum_congr {T : Type} (de : Json → Option T)
    (h : first ["minimum", "exclusiveMinimum"] es = first ["minimum", "exclusiveMinimum"] es') :
    deMinimum de es = deMinimum de es' :=
  flatEnum_congr (table := [("minimum", Minimum.inclusive), ("exclusiveMinimum", Minimum.exclusive)]) de h

/-- The names of all bounds. -/
def boundNames : List String := ["maximum", "exclusiveMaximum", "minimum", "exclusiveMinimum"]

section Schema
variable {DSx AS OS S : Type} {c : ExtCodec DSx} {CA : ExtCodec AS} {CO : ExtCodec OS}

/-- The members that matter to a data schema are the same. -/
structure SameSchema (ds as os : List String) (es es' : Members) : Prop where
  names : SameOn (Names.schema.filter (· ∉ boundNames)) es es'
  ds : SameOn ds es es'
  as : SameOn as es es'
  os : SameOn os es es'
  maximum : first ["maximum", "exclusiveMaximum"] es = first ["maximum", "exclusiveMaximum"] es'
  minimum : first ["minimum", "exclusiveMinimum"] es = first ["minimum", "exclusiveMinimum"] es'

theorem SameSchema.rest {ds as os : List String} (h : SameSchema ds as os es es') (K : List String)
    (hK : ∀ f ∈ boundNames, f ∉ K) : SameSchema ds as os (rest K es) (rest K es') := by
  have h1 : ∀ f ∈ ["maximum", "exclusiveMaximum"], f ∉ K := fun f hf => hK f (by revert f; decide)
  have h2 : ∀ f ∈ ["minimum", "exclusiveMinimum"], f ∉ K := fun f hf => hK f (by revert f; decide)
  exact ⟨h.names.rest K, h.ds.rest K, h.as.rest K, h.os.rest K, by rw [first_rest h1, first_rest h1, h.maximum],
    by rw [first_rest h2, first_rest h2, h.minimum]⟩

theorem SameSchema.subtype (h : SameSchema c.keys CA.keys CO.keys es es') (la : CA.Local) (lo : CO.Local)
    (sub : Json → Option S) : deSchemaSubtype CA CO sub es = deSchemaSubtype CA CO sub es' := by
  have hn := (h.rest ["type"] (by decide)).names
  have h0 := h.names
  unfold SameOn at hn h0
  have e1 : deArray CA sub (Wot.rest ["type"] es) = deArray CA sub (Wot.rest ["type"] es') := by
    simp (disch := decide) only [deArray, optional, defaulted, hn, (h.as.rest ["type"]).ext la]
  have e2 : deObject CO sub (Wot.rest ["type"] es) = deObject CO sub (Wot.rest ["type"] es') := by
    simp (disch := decide) only [deObject, optional, defaulted, hn, (h.os.rest ["type"]).ext lo]
  have e3 : deString (Wot.rest ["type"] es) = deString (Wot.rest ["type"] es') := by
    simp (disch := decide) only [deString, optional, defaulted, hn]
  have m1 := ((h.rest ["type"] (by decide)).rest ["multipleOf"] (by decide)).maximum
  have m2 := ((h.rest ["type"] (by decide)).rest ["multipleOf"] (by decide)).minimum
  have e4 : deNumber (Wot.rest ["type"] es) = deNumber (Wot.rest ["type"] es') := by
    simp (disch := decide) only [deNumber, optional, defaulted, hn, maximum_congr _ m1, minimum_congr _ m2]
  have e5 : deInteger (Wot.rest ["type"] es) = deInteger (Wot.rest ["type"] es') := by
    simp (disch := decide) only [deInteger, optional, defaulted, hn, maximum_congr _ m1, minimum_congr _ m2]
  simp (disch := decide) only [deSchemaSubtype, required, h0, e1, e2, e3, e4, e5]

theorem SameSchema.members (h : SameSchema c.keys CA.keys CO.keys es es') (l : c.Local) (la : CA.Local) (lo : CO.Local)
    (sub : Json → Option (DataSchema DSx AS OS)) :
    deSchemaMembers c CA CO env sub es = deSchemaMembers c CA CO env sub es' := by
  have h0 := h.names
  unfold SameOn at h0
  simp (disch := decide) only [deSchemaMembers, optional, defaulted, h0, h.ds.ext l schemaKeys,
    (h.rest schemaKeys (by decide)).subtype la lo]

end Schema

theorem SameSchema.schema (loc : C.Local)
    (h : SameSchema C.dataSchema.keys C.arraySchema.keys C.objectSchema.keys es es') :
    deDS C env (.obj es) = deDS C env (.obj es') := by
  rw [deDS, deSchema_obj, deSchema_obj]
  exact h.members loc.dataSchema loc.arraySchema loc.objectSchema _

theorem SameOn.response {A : Type} {c : ExtCodec A} (l : c.Local) (h : SameOn ("contentType" :: c.keys) es es') :
    deResponse c (.obj es) = deResponse c (.obj es') := by
  have h0 := h.mono (K' := ["contentType"]) (by simp)
  have h1 := h.mono (K' := c.keys) (by simp +contextual)
  unfold SameOn at h0
  simp (disch := decide) only [deResponse, required, h0, h1.ext l]

theorem SameOn.additional (h : SameOn ["success", "contentType", "schema"] es es') :
    deAdditional (.obj es) = deAdditional (.obj es') := by
  unfold SameOn at h
  simp (disch := decide) only [deAdditional, optional, defaulted, h]

theorem SameOn.version (h : SameOn ["instance", "model"] es es') : deVersion (.obj es) = deVersion (.obj es') := by
  unfold SameOn at h
  simp (disch := decide) only [deVersion, optional, defaulted, required, h]

theorem SameOn.link (h : SameOn ["href", "type", "rel", "anchor", "sizes", "hreflang"] es es') :
    deLink env (.obj es) = deLink env (.obj es') := by
  unfold SameOn at h
  simp (disch := decide) only [deLink, optional, defaulted, required, h]

theorem SameOn.form (loc : C.Local) (h : SameOn Names.form es es') (h1 : SameOn C.form.keys es es') :
    deForm C (.obj es) = deForm C (.obj es') := by
  unfold SameOn at h
  simp (disch := decide) only [deForm, optional, defaulted, required, h, h1.ext loc.form]

theorem SameOn.interaction (loc : C.Local) (h : SameOn Names.interaction es es')
    (h1 : SameOn C.interaction.keys es es') : deInteraction C env es = deInteraction C env es' := by
  unfold SameOn at h
  simp (disch := decide) only [deInteraction, optional, defaulted, required, h, h1.ext loc.interaction]

theorem SameOn.property (loc : C.Local) (h0 : SameOn ["observable"] es es') (h : SameOn Names.interaction es es')
    (h1 : SameOn C.interaction.keys es es')
    (h2 : SameSchema C.dataSchema.keys C.arraySchema.keys C.objectSchema.keys es es')
    (h3 : SameOn C.property.keys es es') : deProperty C env (.obj es) = deProperty C env (.obj es') := by
  unfold SameOn at h0
  have e1 := SameOn.interaction (env := env) loc (h.rest ["observable"]) (h1.rest ["observable"])
  have e2 := (h2.rest ["observable"] (by decide)).members (env := env) loc.dataSchema loc.arraySchema loc.objectSchema (deDS C env)
  simp (disch := decide) only [deProperty, optional, defaulted, h0, e1, e2, h3.ext loc.property]

theorem SameOn.action (loc : C.Local) (h0 : SameOn Names.action es es') (h : SameOn Names.interaction es es')
    (h1 : SameOn C.interaction.keys es es') (h3 : SameOn C.action.keys es es') :
    deAction C env (.obj es) = deAction C env (.obj es') := by
  unfold SameOn at h0
  have e1 := SameOn.interaction (env := env) loc (h.rest actionKeys) (h1.rest actionKeys)
  simp (disch := decide) only [deAction, optional, defaulted, h0, e1, h3.ext loc.action]

theorem SameOn.event (loc : C.Local) (h0 : SameOn Names.event es es') (h : SameOn Names.interaction es es')
    (h1 : SameOn C.interaction.keys es es') (h3 : SameOn C.event.keys es es') :
    deEvent C env (.obj es) = deEvent C env (.obj es') := by
  unfold SameOn at h0
  have e1 := SameOn.interaction (env := env) loc (h.rest eventKeys) (h1.rest eventKeys)
  simp (disch := decide) only [deEvent, optional, defaulted, h0, e1, h3.ext loc.event]

theorem SameOn.thing (loc : C.Local) (h : SameOn Names.thing es es') (h1 : SameOn C.thing.keys es es') :
    deThing C env (.obj es) = deThing C env (.obj es') := by
  unfold SameOn at h
  simp (disch := decide) only [deThing, optional, defaulted, required, h, h1.ext loc.thing]

/-! ### Unknown members and swaps -/

theorem sameOn_insert {K : List String} {k : String} (hk : k ∉ K) (a b : Members) (v : Json) :
    SameOn K (a ++ b) (a ++ (k, v) :: b) := by
  intro f hf
  have : k ≠ f := fun e => hk (e ▸ hf)
  simp only [occ_append, occ_cons, if_neg this]

theorem first_insert {K : List String} {k : String} (hk : k ∉ K) (a b : Members) (v : Json) :
    first K (a ++ b) = first K (a ++ (k, v) :: b) := by
  simp [first, hk]

theorem first_later {K : List String} {a : Members} (h : ∃ kv ∈ a, kv.1 ∈ K) (b b' : Members) :
    first K (a ++ b) = first K (a ++ b') := by
  obtain ⟨kv, h1, h2⟩ := h
  have : ∃ x, a.find? (fun kv => K.contains kv.1) = some x :=
    Option.isSome_iff_exists.1 (List.find?_isSome.2 ⟨kv, h1, by simpa using h2⟩)
  obtain ⟨x, hx⟩ := this
  simp only [first, List.find?_append, hx, Option.some_or]

theorem first_swap {K : List String} {k k' : String} (hk : ¬ (k ∈ K ∧ k' ∈ K)) (a b : Members) (v v' : Json) :
    first K (a ++ (k, v) :: (k', v') :: b) = first K (a ++ (k', v') :: (k, v) :: b) := by
  by_cases h : k ∈ K
  · have : k' ∉ K := fun h' => hk ⟨h, h'⟩
    simp [first, h, this]
  · by_cases h' : k' ∈ K <;> simp [first, h, h']

theorem sameSchema_insert {ds as os : List String} {k : String} (hk : k ∉ Names.schema ++ ds ++ as ++ os)
    (a b : Members) (v : Json) : SameSchema ds as os (a ++ b) (a ++ (k, v) :: b) := by
  simp only [List.mem_append, not_or] at hk
  obtain ⟨⟨⟨h1, h2⟩, h3⟩, h4⟩ := hk
  refine ⟨sameOn_insert (fun h => h1 (List.mem_filter.1 h).1) _ _ _, sameOn_insert h2 _ _ _, sameOn_insert h3 _ _ _,
    sameOn_insert h4 _ _ _, first_insert (fun h => h1 ?_) _ _ _, first_insert (fun h => h1 ?_) _ _ _⟩
  all_goals
    simp only [List.mem_cons, List.not_mem_nil, or_false] at h
    rcases h with rfl | rfl <;> decide

theorem sameSchema_swap {ds as os : List String} {k k' : String} (hk : k ≠ k') (hb : ¬ Part.SameBound k k')
    (a b : Members) (v v' : Json) :
    SameSchema ds as os (a ++ (k, v) :: (k', v') :: b) (a ++ (k', v') :: (k, v) :: b) :=
  ⟨fun f _ => occ_swap hk a b v v' f, fun f _ => occ_swap hk a b v v' f, fun f _ => occ_swap hk a b v v' f,
    fun f _ => occ_swap hk a b v v' f, first_swap (fun h => hb (.inl h)) _ _ _ _,
    first_swap (fun h => hb (.inr h)) _ _ _ _⟩

/-- A bound that was given before has no effect. -/
theorem sameSchema_later {ds as os : List String} (h : ∀ f ∈ boundNames, f ∉ ds ++ as ++ os) {k k' : String}
    (hb : Part.SameBound k k') {a : Members} (ha : k ∈ a.map (·.1)) (b : Members) (v : Json) :
    SameSchema ds as os (a ++ b) (a ++ (k', v) :: b) := by
  obtain ⟨kv, hkv, rfl⟩ := List.mem_map.1 ha
  have hn : k' ∈ boundNames := by
    rcases hb with ⟨_, h⟩ | ⟨_, h⟩ <;> (simp only [List.mem_cons, List.not_mem_nil, or_false] at h; rcases h with rfl | rfl <;> decide)
  have h0 := h _ hn
  simp only [List.mem_append, not_or] at h0
  refine ⟨sameOn_insert (fun h => ?_) _ _ _, sameOn_insert h0.1.1 _ _ _, sameOn_insert h0.1.2 _ _ _,
    sameOn_insert h0.2 _ _ _, ?_, ?_⟩
  · have := (List.mem_filter.1 h).2
    simp [hn] at this
  · rcases hb with ⟨h1, _⟩ | ⟨_, h2⟩
    · exact first_later ⟨kv, hkv, h1⟩ _ _
    · exact first_insert (by simp only [List.mem_cons, List.not_mem_nil, or_false] at h2; rcases h2 with rfl | rfl <;> decide) _ _ _
  · rcases hb with ⟨_, h2⟩ | ⟨h1, _⟩
    · exact first_insert (by simp only [List.mem_cons, List.not_mem_nil, or_false] at h2; rcases h2 with rfl | rfl <;> decide) _ _ _
    · exact first_later ⟨kv, hkv, h1⟩ _ _

end Wot
