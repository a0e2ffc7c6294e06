import Verif.Lemmas.ProtocolText
import Verif.Props.RoundTrip
import Verif.Props.DemoDeep
/-
C62: how deep documents nest, and the limit of `serde_json::from_str`.
-/
namespace Wot

variable {X : ExtTypes} {C : ExtCodecs X} {env : SerdeEnv} {t : Thing X} {title : String}
  {hist : List (ThingOp X)} {b : ThingBuilder X} {h m : Nat}

/-- C62: a Thing whose schemas nest at most `h` deep, and the JSON values in it at most `m` deep, is
written as a text that nests at most `2 * h + m + 4` deep. -/
theorem C62_bound (hh : 1 ≤ h) (hm : 1 ≤ m) (hn : t.NestsWithin C h m) {j : Json}
    (hj : toText C env t = some j) : j.nesting ≤ 2 * h + m + 4 := nesting_thing hh hm hn hj

/-- C62: protocol bindings do not nest deep. With any of them, only schemas, the values in them, custom security schemes and the
context matter. -/
theorem C62_bindings {l : List Binding} {t : Thing (Binding.stackTypes l)} (hm : 2 ≤ m) :
    t.NestsWithin (Binding.stack l) h m ↔
      (∀ p s, t.HasSchema p s → ∀ n, s.Nests n → n ≤ h) ∧
      (∀ p s x, t.HasSchema p s → Within x s →
        (∀ v, x.head.constant = some v → v.nesting ≤ m) ∧ (∀ v, x.head.default = some v → v.nesting ≤ m) ∧
        ∀ l, x.head.enumeration = some l → ∀ v ∈ l, v.nesting ≤ m) ∧
      (∀ n s scheme es, (n, s) ∈ t.securityDefinitions → s.subtype = .unknown scheme (.obj es) →
        ∀ kv ∈ es, kv.2.nesting ≤ m) ∧
      t.context.nesting ≤ m := by
  obtain ⟨h1, h2, h3, h4, h5, h6, h7, h8, h9, h10⟩ := Binding.stack_flat l
  constructor
  · intro h
    exact ⟨h.schemas, fun p s x hs hx => let ⟨a, b, c, _⟩ := h.values p s x hs hx; ⟨a, b, c⟩, h.security, h.context⟩
  · rintro ⟨a, b, c, d⟩
    exact
      { schemas := a
        values := fun p s x hs hx =>
          let ⟨b1, b2, b3⟩ := b p s x hs hx
          ⟨b1, b2, b3, (h8 _).mono (Nat.zero_le _), fun _ _ => (h10 _).mono (Nat.zero_le _),
            fun _ _ => (h9 _).mono (Nat.zero_le _)⟩
        forms := fun _ _ _ => ⟨(h1 _).mono (by omega), fun _ _ => (h2 _).mono hm⟩
        interactions := fun _ _ => (h4 _).mono (Nat.zero_le _)
        properties := fun _ _ _ _ => (h5 _).mono (Nat.zero_le _)
        actions := fun _ _ _ _ => (h6 _).mono (Nat.zero_le _)
        events := fun _ _ _ _ => (h7 _).mono (Nat.zero_le _)
        security := c
        context := d
        other := (h3 _).mono (Nat.zero_le _) }

/-- C62: reading a text that nests at most 127 deep does not depend on the limit, and whatever is read in
spite of the limit is what would be read without. -/
theorem C62_limit (d : Json) :
    (d.nesting ≤ 127 → fromStr C env d = fromText C env d) ∧
    (∀ t : Thing X, fromStr C env d = some t → fromText C env d = some t) := by
  unfold fromStr
  refine ⟨fun hd => if_pos (Nat.le_trans (nesting_counted d) hd), fun t ht => ?_⟩
  split at ht
  · exact ht
  · cases ht

/-- C62: so such Things are read back from their text, just as `C29_exact` says. -/
theorem C62_read_back (sep : C.Separate) (once : C.WriteOnce) (hk : Kept env C t) (hh : 1 ≤ h) (hm : 1 ≤ m)
    (hn : t.NestsWithin C h m) (hl : 2 * h + m ≤ 123) {j : Json} (hj : toText C env t = some j) :
    ((∀ ps, t.properties = some ps → ∀ kv ∈ ps, ¬ kv.2.RepeatsInfo) → fromStr C env j = some t.stored) ∧
    (fromStr C env j = some t ↔ t.Lossless ∧ ∀ ps, t.properties = some ps → ∀ kv ∈ ps, kv.2.NoInfo) := by
  have hb := C62_bound hh hm hn hj
  rw [(C62_limit j).1 (by omega)]
  exact ⟨fun hi => C29_text_round_trip_partial sep once hk hi hj, C29_exact sep once hk hj⟩

/-- C62: Things with 126 or more schemas nested in each other are written, and read back from their value,
but never from their text. -/
theorem C62_too_deep (sep : C.Separate) (hk : Kept env C t) {p : Position} {s : DS X} (hs : t.HasSchema p s)
    {n : Nat} (hn : s.Nests n) (h126 : 126 ≤ n) {j : Json} (hj : toText C env t = some j) :
    fromStr C env j = none ∧ ∃ v, toValue C env t = some v ∧ fromValue C env v = some t.stored := by
  have hd := nests_thing hs hn hj
  refine ⟨if_neg (by simp only [nestingLimit]; omega), j.norm, by simp [toValue, show serThing C env t = some j from hj],
    thing_stored sep hk hj _ (.of_norm j)⟩

/-- C62: and there are such Things, however deep: for every `n` the builder yields a Thing with `n` nested
schemas. It is written, and read back from its value; it is read back from its text if `n` is at most 61, and
not if `n` is at least 126. -/
theorem C62_any_depth (n : Nat) (hn : 1 ≤ n) :
    ∃ (hist : List (ThingOp Demo.X)) (b : ThingBuilder Demo.X) (t : Thing Demo.X) (p : Position) (s : DS Demo.X)
      (v j : Json),
      Reachable Demo.X "Lamp" hist b ∧ b.build Demo.senv.toEnv = .ok t ∧ t.HasSchema p s ∧ s.Nests n ∧
      toValue .nil Demo.senv t = some v ∧ fromValue .nil Demo.senv v = some t ∧
      toText .nil Demo.senv t = some j ∧ (n ≤ 61 → fromStr .nil Demo.senv j = some t) ∧
      (126 ≤ n → fromStr .nil Demo.senv j = none) := by
  obtain ⟨n, rfl⟩ : ∃ k, n = k + 1 := ⟨n - 1, by omega⟩
  obtain ⟨t, hb⟩ := Demo.tower_thing n
  have hr := Demo.tower_reachable n
  have hs := (hr.hasSchema hb).2 ⟨_, Demo.place_hasSchema (s := Demo.tower n) (p := .schemaDefinition) nofun, rfl⟩
  have hst := Demo.tower_storable hb
  obtain ⟨v, hv⟩ := C48_writable.1.2 (Demo.tower_writable hb)
  obtain ⟨j, hj⟩ := C48_writable.2.2 (Demo.tower_writable hb)
  have hnest : ((Demo.tower n).mapLang (langResult Demo.senv.toEnv)).Nests (n + 1) :=
    (nests_mapLang _).2 (Demo.tower_nests n)
  refine ⟨_, _, t, _, _, v, j, hr, hb, hs, hnest, hv, C28_value_round_trip Demo.nil_separate hst hv, hj, ?_, ?_⟩
  · intro h61
    refine (C62_read_back Demo.nil_separate Demo.nil_writeOnce hst.kept (h := n + 1) (m := 1) (by omega) (by omega)
      (Demo.tower_within_bounds hb) (by omega) hj).2.2 ⟨hst.lossless, ?_⟩
    rw [Demo.tower_result hb]
    intro ps hps
    cases hps
  · exact fun h => (C62_too_deep Demo.nil_separate hst.kept hs hnest h hj).1

/-- So a limit on the depth is needed: it is not true that every Thing from a builder that is read back from
its value, and whose properties carry no information twice, is read back from its text by
`serde_json::from_str`. -/
theorem C62_limit_needed : ¬ ∀ (t : Thing Demo.X) (j : Json), Storable Demo.senv .nil t →
    (∀ ps, t.properties = some ps → ∀ kv ∈ ps, kv.2.NoInfo) → toText .nil Demo.senv t = some j →
    fromStr .nil Demo.senv j = some t := by
  intro H
  obtain ⟨t, hb⟩ := Demo.tower_thing 125
  obtain ⟨j, hj⟩ := C48_writable.2.2 (Demo.tower_writable hb)
  have hst := Demo.tower_storable hb
  have hs := ((Demo.tower_reachable 125).hasSchema hb).2
    ⟨_, Demo.place_hasSchema (s := Demo.tower 125) (p := .schemaDefinition) nofun, rfl⟩
  have h1 := (C62_too_deep Demo.nil_separate hst.kept hs ((nests_mapLang _).2 (Demo.tower_nests 125)) (by omega) hj).1
  have h2 := H t j hst (by rw [Demo.tower_result hb]; intro ps hps; cases hps) hj
  rw [h1] at h2
  cases h2

end Wot
