import Verif.Lemmas.Vocabulary
import Verif.Props.Written
import Verif.Props.Edits
/-
C56: the members that are written are those that the W3C Recommendation defines for their place, and members that it
defines are not ignored when read.

Both are false for three members: the bounds on the length of an array (`minItems`, `maxItems`) and the response to
an event (`dataResponse`) are written and read under other names.
-/
namespace Wot

variable {env : SerdeEnv} {t : Thing .nil}

/-- A Thing is written with members of the vocabulary only, but for `min_items`, `max_items` and `data_response`.
The condition excludes custom schemes that bear the name of a predefined one, which can have any members.
The full statement would have `UsesVocabulary [] []`; it is false, see below. -/
theorem C56_written_partial (h : t.Maps) (hn : ∀ kv ∈ t.securityDefinitions, kv.2.subtype.OwnNames)
    (hk : ∀ n s, t.securityDefinitions.get? n = some s → ∀ m d, s.subtype = .unknown m d →
      ∀ terms, (m, terms) ∉ Vocabulary.scheme) {v : Json} (hv : toValue .nil env t = some v) :
    UsesVocabulary ["min_items", "max_items"] ["data_response"] v :=
  thing_uses (C52_value (C := .nil) Demo.nil_separate Demo.nil_own h hn hv) hk

/-- A schema is written with members of the vocabulary only, but for `min_items` and `max_items`. -/
theorem C56_schema_partial {s : DS .nil} {v : Json} (h : DSShown .nil s v) :
    UsesSchema ["min_items", "max_items"] v := ds_uses h

/-- Bounds on the length of an array are never written with the names of the vocabulary. -/
theorem C56_array_bounds {a : ArrayF Unit (DS .nil)} {s : DS .nil} {v : Json} (h : DSShown .nil s v)
    (hs : s.subtype = some (.array a)) :
    v.member "minItems" = none ∧ v.member "maxItems" = none ∧
    (a.minItems ≠ none ∨ a.maxItems ≠ none → ¬ UsesSchema [] v) := by
  cases h with
  | mk hn honly =>
    have hk : typeKeys ExtCodecs.nil.arraySchema ExtCodecs.nil.objectSchema s.subtype = [] :=
      typeKeys_nil rfl rfl
    rw [hk] at honly
    have hnot : ∀ k, k ∉ Names.schema → v.member k = none := by
      intro k hk
      refine Classical.byContradiction fun hc => hk ?_
      exact (honly.sub (K' := Names.schema) (by decide)).2 k hc
    refine ⟨hnot _ (by decide), hnot _ (by decide), ?_⟩
    intro hb hu
    cases hn with
    | mk _ _ _ _ _ _ _ _ _ _ _ _ _ subtype _ =>
      rw [hs] at subtype
      cases subtype with
      | array _ _ hmin hmax _ _ =>
        cases hu with
        | mk ho _ =>
          rcases hb with hb | hb
          · refine absurd (ho.2 "min_items" ?_) (by decide)
            intro e
            rw [e] at hmin
            cases hm : a.minItems with
            | none => exact hb hm
            | some n => rw [hm] at hmin; cases hmin
          · refine absurd (ho.2 "max_items" ?_) (by decide)
            intro e
            rw [e] at hmax
            cases hm : a.maxItems with
            | none => exact hb hm
            | some n => rw [hm] at hmax; cases hmax

/-- The response to an event is never written with the name of the vocabulary. -/
theorem C56_data_response {e : EventAffordance .nil} {v : Json} (h : EventShown .nil e v) :
    v.member "dataResponse" = none ∧ (e.dataResponse ≠ none → ¬ UsesEvent ["min_items", "max_items"] [] v) := by
  constructor
  · refine Classical.byContradiction fun hc => ?_
    exact absurd (h.only.2 "dataResponse" hc) (by decide)
  · intro hd hu
    have hr := h.dataResponse
    refine absurd (hu.only.2 "data_response" ?_) (by decide)
    intro e'
    rw [e'] at hr
    cases hm : e.dataResponse with
    | none => exact hd hm
    | some n => rw [hm] at hr; cases hr

/-! ### Reading -/

/-- The bounds of an array that the Recommendation defines are ignored, wherever they are in a schema. -/
theorem C56_bounds_ignored (k : String) (hk : k = "minItems" ∨ k = "maxItems") (a b : Members) (v : Json) :
    deDS .nil env (.obj (a ++ (k, v) :: b)) = deDS .nil env (.obj (a ++ b)) := by
  refine C38_schema_partial (C := .nil) ExtCodecs.nil_local ExtCodecs.nil_orderless Demo.nil_separate
    (.undo (.refl _) (.unknown (p := .schema) rfl ?_))
  rcases hk with rfl | rfl <;> decide

/-- So are those of a property. -/
theorem C56_property_bounds_ignored (k : String) (hk : k = "minItems" ∨ k = "maxItems") (a b : Members) (v : Json) :
    deProperty .nil env (.obj (a ++ (k, v) :: b)) = deProperty .nil env (.obj (a ++ b)) := by
  refine (C38_affordances_partial (C := .nil) ExtCodecs.nil_local ExtCodecs.nil_orderless Demo.nil_separate).1
    (.undo (.refl _) (.unknown (p := .property) rfl ?_))
  rcases hk with rfl | rfl <;> decide

/-- The response to an event is ignored, even if it is no schema. -/
theorem C56_data_response_ignored (a b : Members) (v : Json) :
    deEvent .nil env (.obj (a ++ ("dataResponse", v) :: b)) = deEvent .nil env (.obj (a ++ b)) :=
  (C38_affordances_partial (C := .nil) ExtCodecs.nil_local ExtCodecs.nil_orderless Demo.nil_separate).2.2
    (.undo (.refl _) (.unknown (p := .event) rfl (by decide)))

/-- The members of the vocabulary that are not known to the reader are these three: no others are ignored. -/
theorem C56_known_partial (k : String) :
    (k ∈ Vocabulary.thing → k ∈ Names.thing) ∧ (k ∈ Vocabulary.interaction → k ∈ Names.interaction) ∧
    (k ∈ Vocabulary.action → k ∈ Names.action) ∧
    (k ∈ Vocabulary.event → k ≠ "dataResponse" → k ∈ Names.event) ∧
    (k ∈ Vocabulary.dataSchema → k ≠ "minItems" → k ≠ "maxItems" → k ∈ Names.schema) ∧
    (k ∈ Vocabulary.form → k ∈ Names.form) := by
  refine ⟨fun h => ?_, fun h => ?_, fun h => ?_, fun h h1 => ?_, fun h h1 h2 => ?_, fun h => ?_⟩
  · exact (show Vocabulary.thing ⊆ Names.thing by decide) h
  · exact (show Vocabulary.interaction ⊆ Names.interaction by decide) h
  · exact (show Vocabulary.action ⊆ Names.action by decide) h
  · have := (show Vocabulary.event ⊆ "dataResponse" :: Names.event by decide) h
    exact (List.mem_cons.1 this).resolve_left h1
  · have := (show Vocabulary.dataSchema ⊆ "minItems" :: "maxItems" :: Names.schema by decide) h
    exact (List.mem_cons.1 ((List.mem_cons.1 this).resolve_left h1)).resolve_left h2
  · exact (show Vocabulary.form ⊆ Names.form by decide) h

/-! ### Examples -/

/-- A document with an array of limited length and an event with a response, in the spelling of this library. -/
def Demo.sensorDocument : Members :=
  Demo.document (.str "none") ++
  [("schemaDefinitions", .obj [("pair", .obj [("type", .str "array"), ("min_items", .num (.pos 2)),
     ("max_items", .num (.pos 3)), ("items", .arr [.obj [("type", .str "string")]])])]),
   ("events", .obj [("alarm", .obj [("forms", .arr [.obj [("href", .str "/a")]]),
     ("data_response", .obj [("type", .str "boolean")])])])]

theorem Demo.sensor_conditions {t : Thing .nil} (h : fromText .nil Demo.senv (.obj Demo.sensorDocument) = some t) :
    t.Maps ∧ (∀ kv ∈ t.securityDefinitions, kv.2.subtype.OwnNames) ∧
    ∀ n s, t.securityDefinitions.get? n = some s → ∀ m d, s.subtype = .unknown m d →
      ∀ terms, (m, terms) ∉ Vocabulary.scheme := by
  refine ⟨C49_read (C := .nil) (env := Demo.senv) (d := .obj Demo.sensorDocument) Demo.stable h, ?_, ?_⟩
  · cases h
    intro kv hkv scheme m hm
    rcases List.mem_singleton.1 hkv with rfl
    cases hm
  · cases h
    intro n s hn m d hm
    simp only [HMap.collect, List.foldl, HMap.insert, HMap.get?] at hn
    split at hn
    · cases hn; cases hm
    · cases hn

/-- It is read, and written with members of the vocabulary but for the three. -/
example : ∃ t v, fromText .nil Demo.senv (.obj Demo.sensorDocument) = some t ∧
    toValue .nil Demo.senv t = some v ∧ UsesVocabulary ["min_items", "max_items"] ["data_response"] v := by
  obtain ⟨t, ht⟩ : ∃ t, fromText .nil Demo.senv (.obj Demo.sensorDocument) = some t := ⟨_, rfl⟩
  obtain ⟨v, hv⟩ : ∃ v, toValue .nil Demo.senv t = some v := by cases ht; exact ⟨_, rfl⟩
  obtain ⟨h1, h2, h3⟩ := Demo.sensor_conditions ht
  exact ⟨t, v, ht, hv, C56_written_partial h1 h2 h3 hv⟩

/-- None of the three can be left out. -/
theorem C56_false (xs xe : List String) (h : ∀ (t : Thing .nil) (v : Json), t.Maps →
      (∀ kv ∈ t.securityDefinitions, kv.2.subtype.OwnNames) →
      (∀ n s, t.securityDefinitions.get? n = some s → ∀ m d, s.subtype = .unknown m d →
        ∀ terms, (m, terms) ∉ Vocabulary.scheme) →
      toValue .nil Demo.senv t = some v → UsesVocabulary xs xe v) :
    "min_items" ∈ xs ∧ "max_items" ∈ xs ∧ "data_response" ∈ xe := by
  obtain ⟨t, ht⟩ : ∃ t, fromText .nil Demo.senv (.obj Demo.sensorDocument) = some t := ⟨_, rfl⟩
  obtain ⟨v, hv⟩ : ∃ v, toValue .nil Demo.senv t = some v := by cases ht; exact ⟨_, rfl⟩
  obtain ⟨h1, h2, h3⟩ := Demo.sensor_conditions ht
  have hu := h t v h1 h2 h3 hv
  cases ht
  cases hv
  have hs := hu.schemaDefinitions _ ⟨_, "pair", rfl, rfl⟩
  refine ⟨?_, ?_, ?_⟩
  · cases hs with
    | mk ho _ =>
      rcases List.mem_append.1 (ho.2 "min_items" (by decide)) with this | this
      · exact absurd this (by decide)
      · exact this
  · cases hs with
    | mk ho _ =>
      rcases List.mem_append.1 (ho.2 "max_items" (by decide)) with this | this
      · exact absurd this (by decide)
      · exact this
  · have := (hu.events _ ⟨_, "alarm", rfl, rfl⟩).only.2 "data_response" (by decide)
    rcases List.mem_append.1 this with this | this
    · exact absurd this (by decide)
    · exact this

/-- A schema with a lower bound on its length. -/
def Demo.pair : DS .nil :=
  .mk { other := () } none (some (.array { items := none, minItems := some 2, maxItems := none, other := () }))

example : ∃ v, (serDS .nil Demo.env Demo.pair).map Json.norm = some v ∧ v.member "min_items" = some (.num (.pos 2)) ∧
    v.member "minItems" = none := ⟨_, rfl, rfl, rfl⟩

/-- A document of an array of at least two items is read without the bound. -/
example : deDS .nil Demo.senv (.obj [("type", .str "array"), ("minItems", .num (.pos 2))]) =
    deDS .nil Demo.senv (.obj [("type", .str "array")]) :=
  C56_bounds_ignored "minItems" (.inl rfl) [("type", .str "array")] [] _

example : ∃ s, deDS .nil Demo.senv (.obj [("type", .str "array"), ("minItems", .num (.pos 2))]) = some s ∧
    s.subtype = some (.array { items := none, minItems := none, maxItems := none, other := () }) := ⟨_, rfl, rfl⟩

end Wot
