import Verif.Lemmas.BuildableSchema
import Verif.Props.Checked
import Verif.Props.Ranges
import Verif.Lemmas.Congr
import Verif.Lemmas.SchemaShape
/-
C53, C54: string constraints of data schemas, and the conversion of a data schema builder into a data
schema without a Thing.
-/
namespace Wot

variable {X : ExtTypes} {title : String} {h : List (ThingOp X)} {b : ThingBuilder X}
  {env : Env} {t : Thing X}

/-! ### C53 -/

/-- C53: the data schema of a property can be a string, but no chain of calls gives this string a
length, a pattern, an encoding or a media type: in no built Thing does it have one. -/
theorem C53_property_string (hr : Reachable X title h b) (hb : b.build env = .ok t) {s : DS X}
    (hs : t.HasSchema .property s) {st : StringSchema} (hst : s.subtype = some (.string st)) :
    st.minLength = none ∧ st.maxLength = none ∧ st.pattern = none ∧ st.contentEncoding = none ∧
      st.contentMediaType = none := by
  obtain ⟨u, hu, rfl⟩ := (hr.hasSchema hb).1 hs
  cases hu with
  | @property n q hp =>
    have hq := (hr.rep.properties (n, q) (hr.properties ▸ History.mem_properties.2 hp)).schema
    rw [mapLang_subtype] at hst
    obtain ⟨st', h1, h2⟩ := Option.map_eq_some_iff.1 hst
    cases st' <;> cases h2
    have h1 : q.dataSchema.subtype = some (.string st) := h1
    suffices st = {} by subst this; exact ⟨rfl, rfl, rfl, rfl, rfl⟩
    exact hq.noString st h1

namespace Demo

/-- The calls that give a string the constraints `st`. -/
def stringCalls (st : StringSchema) : List (KindOp Unit Unit Unit) :=
  (st.minLength.map .minLength).toList ++ (st.maxLength.map .maxLength).toList ++
  (st.pattern.map .pattern).toList ++ (st.contentEncoding.map .contentEncoding).toList ++
  (st.contentMediaType.map .contentMediaType).toList

theorem stringCalls_built (st : StringSchema) : SchemaBuilt (typed (.string st)) := by
  refine chain_built (op := .string) (ops := stringCalls st) ?_ (by simp [SpecOp.args]) ?_
  · obtain ⟨a, b, c, d, e⟩ := st
    cases a <;> cases b <;> cases c <;> cases d <;> cases e <;> rfl
  · intro o ho
    simp only [stringCalls, List.mem_append, Option.mem_toList, Option.map_eq_some_iff] at ho
    rcases ho with (((⟨_, -, rfl⟩ | ⟨_, -, rfl⟩) | ⟨_, -, rfl⟩) | ⟨_, -, rfl⟩) | ⟨_, -, rfl⟩ <;>
      simp [KindOp.args]

end Demo

/-- C53: in every other position all string constraints can be set, in any combination. -/
theorem C53_elsewhere (env : Env) {p : Position} (hp : p ≠ .property) (st : StringSchema) :
    ∃ (h : List (ThingOp Demo.X)) (b : ThingBuilder Demo.X) (t : Thing Demo.X) (s : DS Demo.X),
      Reachable Demo.X "Lamp" h b ∧ b.build env = .ok t ∧ t.HasSchema p s ∧
      s.subtype = some (.string st) := by
  have hsb := Demo.stringCalls_built st
  have hr := Demo.single_reachable (p := p) hsb (fun h => (hp h).elim)
  have hw : ∀ x, Within x (Demo.typed (.string st)) → x = Demo.typed (.string st) :=
    fun x hx => Demo.leaf_within rfl hx
  obtain ⟨t, ht⟩ := (Demo.single_accepted (env := env) (p := p) hsb (fun h => (hp h).elim)
    (fun h => (hp h).elim)).2
    ⟨fun _ x hx => by rw [hw x hx]; trivial, fun _ => (by rintro (⟨_, h⟩ | ⟨_, h⟩) <;> cases h),
      fun k hk => by
        obtain ⟨x, hx, hk⟩ := hk
        cases hw x hx
        rcases hk with ⟨_, hk, -⟩ | ⟨_, hk, -⟩ <;> cases hk⟩
  exact ⟨_, _, t, _, hr, ht, (hr.hasSchema ht).2 ⟨_, Demo.place_hasSchema (fun h => (hp h).elim), rfl⟩, rfl⟩

/-- The string constraints of a chain of calls are those of the last calls. Once `read_only` or
`write_only` has been called they stay as they are. -/
theorem C53_last_call {DS AS OS : Type} {ops : List (KindOp DS AS OS)} {d : DataSchemaBuilder DS AS OS}
    {k : KindBuilder (DataSchemaBuilder DS AS OS) DS AS OS} (hd : PlainReach DS d)
    (hk : ops.foldlM KindBuilder.apply (specialise d .string) = some k) :
    k.toUnchecked.subtype = some (.string
      { minLength := lastOf (SchemaCalls.minLengths ops), maxLength := lastOf (SchemaCalls.maxLengths ops),
        pattern := lastOf (SchemaCalls.patterns ops),
        contentEncoding := lastOf (SchemaCalls.contentEncodings ops),
        contentMediaType := lastOf (SchemaCalls.contentMediaTypes ops) }) ∧
    ∀ pre post, ops = pre ++ KindOp.readOnly :: post ∨ ops = pre ++ KindOp.writeOnly :: post →
      SchemaCalls.minLengths post = [] ∧ SchemaCalls.maxLengths post = [] ∧
      SchemaCalls.patterns post = [] ∧ SchemaCalls.contentEncodings post = [] ∧
      SchemaCalls.contentMediaTypes post = [] := by
  refine ⟨by rw [toUnchecked_history hd hk]; rfl, ?_⟩
  have hwrapped : ∀ (post : List (KindOp DS AS OS)) (k1 k2 : KindBuilder (DataSchemaBuilder DS AS OS) DS AS OS),
      k1.access ≠ .both → post.foldlM KindBuilder.apply k1 = some k2 →
      ∀ o ∈ post, KindOp.isString o = false := by
    intro post
    induction post with
    | nil => intro _ _ _ _ o ho; cases ho
    | cons o post ih =>
      intro k1 k2 ha hf
      rw [List.foldlM_cons] at hf
      cases h1 : k1.apply o with
      | none => rw [h1] at hf; cases hf
      | some k3 =>
        rw [h1] at hf
        have : KindOp.isString o = false ∧ k3.access ≠ .both := by
          cases o <;> simp only [KindBuilder.apply] at h1 <;>
            simp only [KindOp.isString, true_and, ha, not_false_eq_true, ne_eq, if_true, reduceCtorEq,
              Bool.false_eq_true, false_and, if_false] at h1 ⊢
          case unit => cases h1; exact ha
          case format => cases h1; exact ha
          case defaultValue => cases h1; exact ha
          case info => obtain ⟨f, -, rfl⟩ := Option.map_eq_some_iff.1 h1; exact ha
          case enumeration => split at h1 <;> cases h1; exact ha
          case oneOf => split at h1 <;> cases h1; exact ha
          case readOnly => split at h1 <;> cases h1; nofun
          case writeOnly => split at h1 <;> cases h1; nofun
          all_goals
            obtain ⟨f, -, rfl⟩ := Option.map_eq_some_iff.1 h1
            exact ha
        intro o' ho
        rcases List.mem_cons.1 ho with rfl | ho
        · exact this.1
        · exact ih k3 k2 this.2 hf o' ho
  have hempty : ∀ post : List (KindOp DS AS OS), (∀ o ∈ post, KindOp.isString o = false) →
      SchemaCalls.minLengths post = [] ∧ SchemaCalls.maxLengths post = [] ∧
      SchemaCalls.patterns post = [] ∧ SchemaCalls.contentEncodings post = [] ∧
      SchemaCalls.contentMediaTypes post = [] := by
    intro post hp
    refine ⟨?_, ?_, ?_, ?_, ?_⟩ <;>
    · refine List.filterMap_eq_nil_iff.2 fun o ho => ?_
      have := hp o ho
      cases o <;> first | rfl | (cases this; done)
  rintro pre post (rfl | rfl)
  all_goals
    apply hempty
    rw [List.foldlM_append] at hk
    cases h1 : pre.foldlM KindBuilder.apply (specialise d .string) with
    | none => rw [h1] at hk; cases hk
    | some k1 =>
      rw [h1] at hk
      simp only [Option.bind_eq_bind, Option.bind_some, List.foldlM_cons] at hk
      cases h2 : k1.apply _ with
      | none => rw [h2] at hk; cases hk
      | some k2 =>
        rw [h2] at hk
        refine hwrapped post k2 k ?_ hk
        simp only [KindBuilder.apply] at h2
        split at h2 <;> cases h2
        nofun

/-- A property of type string occurs in a built Thing. -/
example : ∃ t, (Demo.single (Demo.typed (.string {})) .property).build Demo.env = .ok t ∧
    ∃ s, t.HasSchema .property s ∧ s.subtype = some (.string {}) := by
  have hsb := Demo.stringCalls_built {}
  have hp : PartialBuilt (Demo.partialOf (Demo.typed (.string {})).subtype) :=
    Demo.partial_built (op := .string) (ops := []) rfl (by simp) (by simp [SpecOp.args]) (by simp)
  have hr := Demo.single_reachable (p := .property) hsb fun _ => hp
  obtain ⟨t, ht⟩ := (Demo.single_accepted (env := Demo.env) (p := .property) hsb (fun _ => hp)
    fun _ => ⟨_, rfl⟩).2 ⟨fun _ x hx => by rw [Demo.leaf_within rfl hx]; trivial, nofun, fun k _ => ⟨k, rfl⟩⟩
  exact ⟨t, ht, _, (hr.hasSchema ht).2 ⟨_, Demo.place_hasSchema fun _ => ⟨_, rfl⟩, rfl⟩, rfl⟩

/-! ### C54 -/

section
variable {DS AS OS : Type} {s : UncheckedDataSchema DS AS OS} {r : DataSchema DS AS OS}

/-- C54: a data schema builder can be converted exactly if every language key in it, at any depth, is
accepted by the parser. -/
theorem C54_converts_iff (hs : SchemaBuilt s) :
    (∃ r, s.tryInto env = .ok r) ↔ ∀ k, SchemaKey s k → ∃ tag, env.langParse k = some tag := by
  have ho := outcome_tryInto env s hs.rep
  constructor
  · rintro ⟨r, hr⟩ k hk
    cases ht : env.langParse k with
    | some tag => exact ⟨tag, rfl⟩
    | none => exact ((ho.ok_iff.1 hr).2 _ ⟨k, hk, ht, rfl⟩).elim
  · intro hk
    refine ⟨_, ho.ok_iff.2 ⟨rfl, ?_⟩⟩
    rintro e ⟨k, h1, h2, -⟩
    obtain ⟨tag, ht⟩ := hk k h1
    rw [ht] at h2; cases h2

/-- C54: the only possible error is `InvalidLanguageTag` with one of the rejected keys. -/
theorem C54_error (hs : SchemaBuilt s) {e : Error} (he : s.tryInto env = .error e) :
    ∃ k, SchemaKey s k ∧ env.langParse k = none ∧ e = .invalidLanguageTag k := by
  have ho := outcome_tryInto env s hs.rep
  rw [he] at ho
  exact ho

/-- C54: the result is the data schema that was described, with every language key replaced by its tag
and nothing else changed. -/
theorem C54_result (hs : SchemaBuilt s) (hr : s.tryInto env = .ok r) :
    r = s.mapLang (langResult env) := ((outcome_tryInto env s hs.rep).ok_iff.1 hr).1

/-- C54: in particular a chain of calls converts to what the calls say. -/
theorem C54_calls {ops : List (KindOp DS AS OS)} {op : SpecOp DS AS OS} {d : DataSchemaBuilder DS AS OS}
    {k : KindBuilder (DataSchemaBuilder DS AS OS) DS AS OS} (hd : PlainReach DS d)
    (hk : ops.foldlM KindBuilder.apply (specialise d op) = some k) (h1 : ∀ s ∈ op.args, SchemaBuilt s)
    (h2 : ∀ o ∈ ops, ∀ s ∈ o.args, SchemaBuilt s) (hr : k.toUnchecked.tryInto env = .ok r) :
    r = (SchemaCalls.schema ops d op).mapLang (langResult env) := by
  have hreach : ∀ (ops : List (KindOp DS AS OS)) (k0 k : KindBuilder (DataSchemaBuilder DS AS OS) DS AS OS),
      KindReach k0 → ops.foldlM KindBuilder.apply k0 = some k → (∀ o ∈ ops, ∀ s ∈ o.args, SchemaBuilt s) →
      KindReach k := by
    intro ops
    induction ops with
    | nil => intro k0 k hk0 hf _; cases hf; exact hk0
    | cons o ops ih =>
      intro k0 k hk0 hf ha
      rw [List.foldlM_cons] at hf
      cases h1 : k0.apply o with
      | none => rw [h1] at hf; cases hf
      | some k1 =>
        rw [h1] at hf
        exact ih k1 k (.step o hk0 (ha o (by simp)) h1) hf fun o' ho => ha o' (by simp [ho])
  rw [← toUnchecked_history hd hk]
  exact C54_result (.conv (hreach ops _ k (.start op hd h1) hk h2)) hr

/-- C54: the result does not depend on the iteration order of maps if no two language keys of a group
parse to the same tag. -/
theorem C54_order (hs : SchemaBuilt s) {env' : Env} (hl : env.langParse = env'.langParse)
    (hd : ∀ x, Within x s → ∀ u, x.head.titles = some u ∨ x.head.descriptions = some u → DistinctTags env u)
    (hr : s.tryInto env = .ok r) : s.tryInto env' = .ok r := by
  have hk := (C54_converts_iff hs).1 ⟨r, hr⟩
  obtain ⟨r', hr'⟩ := (C54_converts_iff (env := env') hs).2 (hl ▸ hk)
  rw [hr', C54_result hs hr, C54_result hs hr']
  congr 1
  refine (mapLang_congr fun x hx u hu => langResult_congr hl ?_ (fun k hk' => hk k ?_) (hd x hx u hu)).symm
  · obtain ⟨⟨h1, h2, -⟩, -⟩ := schemaRep_iff.1 ((hs.within hx).rep)
    rcases hu with hu | hu
    · exact h1 u hu
    · exact h2 u hu
  · rcases hu with hu | hu
    · exact ⟨x, hx, .inl ⟨u, hu, hk'⟩⟩
    · exact ⟨x, hx, .inr ⟨u, hu, hk'⟩⟩

end

/-- C54: the data schemas of a built Thing are those the supplied ones convert to. -/
theorem C54_same_as_build (hr : Reachable X title h b) (hb : b.build env = .ok t) {p : Position}
    {s : DS X} :
    t.HasSchema p s ↔ ∃ u, History.HasSchema h p u ∧ u.tryInto env = .ok s := by
  have key : ∀ u, History.HasSchema h p u → u.tryInto env = .ok (u.mapLang (langResult env)) := by
    intro u hu
    refine (outcome_tryInto env u (hr.wf.schemas u (hr.anySchema.2 ⟨p, hu⟩))).ok_iff.2 ⟨rfl, ?_⟩
    rintro e ⟨k, hk, h1, -⟩
    obtain ⟨tag, h2⟩ := (hr.valid_of_build hb).languages k (.schema hu hk)
    rw [h1] at h2; cases h2
  rw [hr.hasSchema hb]
  constructor
  · rintro ⟨u, hu, rfl⟩
    exact ⟨u, hu, key u hu⟩
  · rintro ⟨u, hu, h1⟩
    rw [key u hu] at h1
    cases h1
    exact ⟨u, hu, rfl⟩

/-- C54: unlike `build`, the conversion does not look at ranges: a schema whose bounds make `build` fail
is converted. -/
theorem C54_unchecked (env : Env) :
    ∃ (s : Demo.S) (r : DataSchema Unit Unit Unit), SchemaBuilt s ∧ s.tryInto env = .ok r ∧
      ¬ SchemaRule r ∧ ∃ e, (Demo.single s .input).build env = .error (.err e) := by
  have hs : SchemaBuilt Demo.inverted := Demo.integerRange_built _ _
  have hk : ∀ k, ¬ SchemaKey Demo.inverted k := by
    rintro k ⟨x, hx, hk⟩
    cases Demo.leaf_within rfl hx
    rcases hk with ⟨_, hk, -⟩ | ⟨_, hk, -⟩ <;> cases hk
  obtain ⟨r, hr⟩ := (C54_converts_iff (env := env) hs).2 fun k h => (hk k h).elim
  refine ⟨_, r, hs, hr, ?_, C08_rejected (Demo.single_reachable hs nofun) (p := .input) trivial
    (Demo.place_hasSchema nofun) (.self _) Demo.inverted_bad⟩
  rw [C54_result hs hr, schemaRule_mapLang]
  exact Demo.inverted_bad

/-- A nested schema with translations is converted; with a parser that rejects them it is not. -/
example : (∃ r, Demo.objectSchema.tryInto Demo.env = .ok r) ∧ SchemaKey Demo.objectSchema "it" ∧
    ∃ e, Demo.objectSchema.tryInto Demo.envNone = .error e := by
  have hk : SchemaKey Demo.objectSchema "it" := ⟨_, .self _, .inl ⟨_, rfl, by decide⟩⟩
  refine ⟨(C54_converts_iff Demo.objectSchema_built).2 fun k _ => ⟨k, rfl⟩, hk, ?_⟩
  cases h : Demo.objectSchema.tryInto Demo.envNone with
  | error e => exact ⟨e, rfl⟩
  | ok r =>
    obtain ⟨_, h1⟩ := (C54_converts_iff (env := Demo.envNone) Demo.objectSchema_built).1 ⟨r, h⟩ "it" hk
    cases h1

/-- Its groups of translations have distinct tags. -/
example : ∀ u, Demo.objectSchema.head.titles = some u → DistinctTags Demo.env u := by
  intro u hu k _ k' _ h
  exact Option.some.inj h

end Wot
