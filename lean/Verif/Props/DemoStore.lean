import Verif.Lemmas.BuiltStorable
import Verif.Lemmas.CodecText
import Verif.Lemmas.HList
import Verif.Props.Demo
/-
The example Thing can be stored.
-/
namespace Wot.Demo

/-- An environment for writing and reading in which every tag is accepted. -/
def senv : SerdeEnv :=
  { env with
    langRead := some
    timeFormat := fun _ => none
    timeParse := fun _ => none }

/-- An environment that also reads one date, in two spellings, and writes it. -/
def tenv : SerdeEnv :=
  { senv with
    timeFormat := fun d => if d = ⟨1704067200000000000, 0⟩ then some "2024-01-01T00:00:00Z" else none
    timeParse := fun s =>
      if s = "2024-01-01T00:00:00Z" ∨ s = "2024-01-01t00:00:00.0z" then some ⟨1704067200000000000, 0⟩ else none }

theorem nil_separate : ExtCodecs.nil.Separate := by
  constructor <;> first | (intro k hk; cases hk) | (constructor <;> (intro k hk; cases hk))

theorem nil_writeOnce : ExtCodecs.nil.WriteOnce := by
  constructor <;> (intro a m h; cases h; exact ⟨.nil, trivial⟩)

abbrev Stored {L : Type} (x : Schema L Unit Unit Unit) : Prop :=
  SchemaValuesKept ExtCodec.nil ExtCodec.nil ExtCodec.nil x ∧ SchemaLossless x

theorem stored_within {s : S} : (∀ x, Within x s → Stored x) ↔ Stored s ∧
    (∀ l, s.oneOf = some l → ∀ c ∈ l, ∀ x, Within x c → Stored x) ∧
    (∀ st, s.subtype = some st → ∀ c ∈ st.children, ∀ x, Within x c → Stored x) := by
  constructor
  · intro h
    exact ⟨h s (.self s), fun l hl c hc x hx => h x (within_iff.2 (.inr (.inl ⟨l, hl, c, hc, hx⟩))),
      fun st hst c hc x hx => h x (within_iff.2 (.inr (.inr ⟨st, hst, c, hc, hx⟩)))⟩
  · rintro ⟨h1, h2, h3⟩ x hx
    rcases within_iff.1 hx with rfl | ⟨l, hl, c, hc, hx⟩ | ⟨st, hst, c, hc, hx⟩
    · exact h1
    · exact h2 l hl c hc x hx
    · exact h3 st hst c hc x hx

/-- A schema without constants and, if it has numbers, with finite ones. -/
theorem stored_of {L : Type} {x : Schema L Unit Unit Unit} (h1 : x.head.constant = none)
    (h2 : x.head.default = none) (h3 : x.head.enumeration = none)
    (h4 : ∀ n, x.subtype = some (.number n) → (∀ b, n.maximum = some b → b.bound.isFinite = true) ∧
      (∀ b, n.minimum = some b → b.bound.isFinite = true) ∧
      (∀ f, n.multipleOf = some f → f.isFinite = true)) : Stored x where
  left :=
    { constant := by rw [h1]; nofun
      default := by rw [h2]; nofun
      enumeration := by rw [h3]; nofun
      other := ExtCodec.nil_reads
      otherArray _ _ := ExtCodec.nil_reads
      otherObject _ _ := ExtCodec.nil_reads }
  right :=
    { constant := by rw [h1]; nofun
      default := by rw [h2]; nofun
      maximum n b hn hb := (h4 n hn).1 b hb
      minimum n b hn hb := (h4 n hn).2.1 b hb
      multipleOf n b hn hb := (h4 n hn).2.2 b hb }

theorem numberSchema_stored : ∀ x, Within x numberSchema → Stored x := by
  refine stored_within.2 ⟨stored_of rfl rfl rfl ?_, by simp [numberSchema, Schema.oneOf],
    by simp [numberSchema, Schema.subtype, SubtypeF.children]⟩
  intro n hn
  cases hn
  exact ⟨fun b h => by cases h; decide, fun b h => by cases h; decide, fun b h => by cases h; decide⟩

theorem integerSchema_stored : ∀ x, Within x integerSchema → Stored x :=
  stored_within.2 ⟨stored_of rfl rfl rfl (by intro n hn; cases hn),
    by simp [integerSchema, Schema.oneOf], by simp [integerSchema, Schema.subtype, SubtypeF.children]⟩

theorem stringSchema_stored : ∀ x, Within x stringSchema → Stored x :=
  stored_within.2 ⟨stored_of rfl rfl rfl (by intro n hn; cases hn),
    by simp [stringSchema, Schema.oneOf], by simp [stringSchema, Schema.subtype, SubtypeF.children]⟩

theorem vecSchema_stored : ∀ x, Within x vecSchema → Stored x := by
  refine stored_within.2 ⟨stored_of rfl rfl rfl (by intro n hn; cases hn), by simp [vecSchema, Schema.oneOf], ?_⟩
  intro st hst
  cases hst
  simp only [SubtypeF.children, ElemOrVec.toList, Option.map_some, Option.getD_some, List.mem_singleton,
    forall_eq]
  exact numberSchema_stored

theorem objectSchema_stored : ∀ x, Within x objectSchema → Stored x := by
  refine stored_within.2 ⟨stored_of rfl rfl rfl (by intro n hn; cases hn), by simp [objectSchema, Schema.oneOf], ?_⟩
  simp only [objectSchema, Schema.subtype, Option.some.injEq, forall_eq']
  intro c hc
  simp only [SubtypeF.children, Option.map_some, Option.getD_some, HMap.values, List.mem_map] at hc
  obtain ⟨⟨k, c'⟩, hc, rfl⟩ := hc
  rw [mem_collect_iff] at hc
  have := lastOf_mem hc
  simp only [History.named, List.mem_filterMap, List.mem_cons, List.not_mem_nil, or_false] at this
  obtain ⟨kv, rfl | rfl, h⟩ := this
  · split at h <;> cases h; exact integerSchema_stored
  · split at h <;> cases h; exact vecSchema_stored

theorem oneOfSchema_stored : ∀ x, Within x oneOfSchema → Stored x := by
  refine stored_within.2 ⟨stored_of rfl rfl rfl (by intro n hn; cases hn), ?_, by simp [oneOfSchema, Schema.subtype]⟩
  intro l hl
  cases hl
  simp only [List.mem_cons, List.not_mem_nil, or_false, forall_eq_or_imp, forall_eq]
  exact ⟨stringSchema_stored, integerSchema_stored⟩

theorem property_stored : ∀ x, Within x property.schema → Stored x := by
  refine stored_within.2 ⟨stored_of rfl rfl rfl ?_, ?_, ?_⟩
  · intro n hn
    cases hn
    exact ⟨fun b h => by cases h; decide, fun b h => by cases h; decide, fun b h => by cases h⟩
  · intro l hl; cases hl
  · intro st hst; cases hst; intro c hc; cases hc

theorem schemas_stored {p : Position} {u : UDS X} (hs : History.HasSchema history p u) :
    ∀ x, Within x u → Stored x := by
  have huri : ∀ {n : String} {u : S}, lastOf (History.named n [("q", stringSchema)]) = some u →
      ∀ x, Within x u → Stored x := by
    intro n u h1
    have h2 := lastOf_mem h1
    simp only [History.named, List.mem_filterMap] at h2
    obtain ⟨kv, h3, h4⟩ := h2
    cases List.mem_singleton.1 (show kv ∈ [("q", stringSchema)] from h3)
    split at h4 <;> cases h4
    exact stringSchema_stored
  cases hs with
  | property h1 => cases history_property h1; exact property_stored
  | input h1 h2 => cases history_action h1; cases h2; exact objectSchema_stored
  | output h1 h2 => cases history_action h1; cases h2; exact oneOfSchema_stored
  | subscription h1 h2 => cases history_event h1; cases h2
  | data h1 h2 => cases history_event h1; cases h2; exact vecSchema_stored
  | dataResponse h1 h2 => cases history_event h1; cases h2; exact stringSchema_stored
  | cancellation h1 h2 => cases history_event h1; cases h2
  | uriVariable h1 => exact huri h1
  | propertyUriVariable h1 h2 =>
    cases history_property h1; cases List.mem_singleton.1 h2; exact stringSchema_stored
  | actionUriVariable h1 h2 => cases history_action h1; cases h2
  | eventUriVariable h1 h2 => cases history_event h1; cases h2
  | schemaDefinition h1 =>
    have h2 := lastOf_mem h1
    simp only [History.named, List.mem_filterMap] at h2
    obtain ⟨kv, h3, h4⟩ := h2
    cases List.mem_singleton.1 (show kv ∈ [("err", objectSchema)] from h3)
    split at h4 <;> cases h4
    exact objectSchema_stored

/-- The values in the example can all be stored. -/
theorem valuesKept : ValuesKept senv ExtCodecs.nil thing where
  created := by intro d s h; cases h
  modified := by intro d s h; cases h
  schemas := by
    intro p s x hs hx
    obtain ⟨u, hu, rfl⟩ := (reachable.hasSchema built).1 hs
    obtain ⟨y, hy, rfl⟩ := within_mapLang.1 hx
    exact (schemas_stored hu y hy).1.mapLang _
  security := by
    rintro ⟨n, s⟩ hs
    obtain ⟨q, hq, _, rfl⟩ := (reachable.hasScheme built).1 hs
    have hq : q = combo ∨ q = basic ∨ q = psk := by
      simpa [History.securities, history, link] using hq
    rcases hq with rfl | rfl | rfl <;> exact trivial
  forms := fun _ _ _ => ⟨ExtCodec.nil_reads, fun _ _ => ExtCodec.nil_reads⟩
  interactions := fun _ _ => ExtCodec.nil_reads
  properties := fun _ _ _ _ => ExtCodec.nil_reads
  actions := fun _ _ _ _ => ExtCodec.nil_reads
  events := fun _ _ _ _ => ExtCodec.nil_reads
  other := ExtCodec.nil_reads

/-- None of them is lost. -/
theorem valuesLossless : ValuesLossless thing where
  schemas := by
    intro p s x hs hx
    obtain ⟨u, hu, rfl⟩ := (reachable.hasSchema built).1 hs
    obtain ⟨y, hy, rfl⟩ := within_mapLang.1 hx
    exact (schemas_stored hu y hy).2.mapLang _
  security := by
    rintro ⟨n, s⟩ hs scheme
    obtain ⟨q, hq, _, rfl⟩ := (reachable.hasScheme built).1 hs
    have hq : q = combo ∨ q = basic ∨ q = psk := by
      simpa [History.securities, history, link] using hq
    rcases hq with rfl | rfl | rfl <;> nofun

theorem tagsStable : senv.TagsStable := fun _ _ _ => rfl

theorem storable : Storable senv ExtCodecs.nil thing :=
  reachable.storable built tagsStable valuesKept valuesLossless

/-! ### A property without human readable information -/

def quietOps : List (PropertyOp X) :=
  [.interaction (.form (form "/temp" [.op .readProperty, .op .observeProperty])), .observable true]

def quiet : PropertyBuilder X := quietOps.foldl PropertyBuilderF.apply (.empty () partialNumber ())

theorem quiet_built : quiet.Built :=
  ⟨propertyReach_foldl (.empty () partialNumber ()) (by
    intro op h
    simp only [quietOps, List.mem_cons, List.not_mem_nil, or_false] at h
    rcases h with rfl | rfl
    · exact form_built _ _
    · trivial), partialNumber_built⟩

def quietHistory : List (ThingOp X) := [.property "temperature" quiet]

theorem quiet_reachable : Reachable X "Lamp" quietHistory (run quietHistory) :=
  run_reachable _ (by intro op h; cases List.mem_singleton.1 h; exact quiet_built)

/-- A Thing with this property only. -/
def quietThing : Thing X := (run quietHistory).result env

theorem quiet_ok : (run quietHistory).build senv.toEnv = .ok quietThing :=
  build_property_ok rfl (partialNumber_rules rfl) rfl

theorem quiet_stored : ∀ x, Within x quiet.schema → Stored x := by
  refine stored_within.2 ⟨stored_of rfl rfl rfl ?_, ?_, ?_⟩
  · intro n hn
    cases hn
    exact ⟨fun b h => by cases h; decide, fun b h => by cases h; decide, fun b h => by cases h⟩
  · intro l hl; cases hl
  · intro st hst; cases hst; intro c hc; cases hc

theorem quiet_schemas {p : Position} {u : UDS X} (hs : History.HasSchema quietHistory p u) :
    ∀ x, Within x u → Stored x := by
  cases hs with
  | property h1 => cases List.mem_singleton.1 h1; exact quiet_stored
  | input h1 h2 => cases List.mem_singleton.1 h1
  | output h1 h2 => cases List.mem_singleton.1 h1
  | subscription h1 h2 => cases List.mem_singleton.1 h1
  | data h1 h2 => cases List.mem_singleton.1 h1
  | dataResponse h1 h2 => cases List.mem_singleton.1 h1
  | cancellation h1 h2 => cases List.mem_singleton.1 h1
  | uriVariable h1 => cases h1
  | propertyUriVariable h1 h2 => cases List.mem_singleton.1 h1; cases h2
  | actionUriVariable h1 h2 => cases List.mem_singleton.1 h1
  | eventUriVariable h1 h2 => cases List.mem_singleton.1 h1
  | schemaDefinition h1 => cases h1

theorem quiet_values : ValuesKept senv ExtCodecs.nil quietThing where
  created := by intro d s h; cases h
  modified := by intro d s h; cases h
  schemas := by
    intro p s x hs hx
    obtain ⟨u, hu, rfl⟩ := (quiet_reachable.hasSchema quiet_ok).1 hs
    obtain ⟨y, hy, rfl⟩ := within_mapLang.1 hx
    exact (quiet_schemas hu y hy).1.mapLang _
  security := by
    rintro ⟨n, s⟩ hs
    obtain ⟨q, hq, _, rfl⟩ := (quiet_reachable.hasScheme quiet_ok).1 hs
    cases hq
  forms := fun _ _ _ => ⟨ExtCodec.nil_reads, fun _ _ => ExtCodec.nil_reads⟩
  interactions := fun _ _ => ExtCodec.nil_reads
  properties := fun _ _ _ _ => ExtCodec.nil_reads
  actions := fun _ _ _ _ => ExtCodec.nil_reads
  events := fun _ _ _ _ => ExtCodec.nil_reads
  other := ExtCodec.nil_reads

theorem quiet_lossless : ValuesLossless quietThing where
  schemas := by
    intro p s x hs hx
    obtain ⟨u, hu, rfl⟩ := (quiet_reachable.hasSchema quiet_ok).1 hs
    obtain ⟨y, hy, rfl⟩ := within_mapLang.1 hx
    exact (quiet_schemas hu y hy).2.mapLang _
  security := by
    rintro ⟨n, s⟩ hs scheme
    obtain ⟨q, hq, _, rfl⟩ := (quiet_reachable.hasScheme quiet_ok).1 hs
    cases hq

theorem quiet_storable : Storable senv ExtCodecs.nil quietThing :=
  quiet_reachable.storable quiet_ok tagsStable quiet_values quiet_lossless

theorem quiet_noInfo : ∀ m, quietThing.properties = some m → ∀ kv ∈ m, kv.2.NoInfo := by
  rintro m hm ⟨n, p⟩ hkv
  obtain ⟨q, hq, rfl⟩ := (quiet_reachable.hasProperty quiet_ok).1 ⟨m, hm, hkv⟩
  cases List.mem_singleton.1 hq
  exact ⟨rfl, rfl, rfl, rfl, rfl⟩

/-! ### They can be written -/

theorem nil_writable {t : Thing X} (h1 : t.created = none) (h2 : t.modified = none)
    (h3 : ∀ kv ∈ t.securityDefinitions, kv.2.subtype.Kept) : Writable senv ExtCodecs.nil t where
  created := by rw [h1]; nofun
  modified := by rw [h2]; nofun
  security := by
    intro n s scheme data hs he
    have := h3 _ hs
    simp only [he] at this
    obtain ⟨_, _, h | ⟨m, hm, _⟩⟩ := this
    · exact .inl h
    · exact .inr ⟨m, hm⟩
  schemas := fun _ _ _ _ _ => ⟨⟨_, rfl⟩, fun _ _ => ⟨_, rfl⟩, fun _ _ => ⟨_, rfl⟩⟩
  forms := fun _ _ _ => ⟨⟨_, rfl⟩, fun _ _ => ⟨_, rfl⟩⟩
  interactions := fun _ _ => ⟨_, rfl⟩
  properties := fun _ _ _ _ => ⟨_, rfl⟩
  actions := fun _ _ _ _ => ⟨_, rfl⟩
  events := fun _ _ _ _ => ⟨_, rfl⟩
  other := ⟨_, rfl⟩

theorem writable : Writable senv ExtCodecs.nil thing := nil_writable rfl rfl valuesKept.security

theorem quiet_writable : Writable senv ExtCodecs.nil quietThing :=
  nil_writable rfl rfl quiet_values.security

end Wot.Demo
