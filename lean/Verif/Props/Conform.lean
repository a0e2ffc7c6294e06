import Verif.Lemmas.Conform
import Verif.Props.Written
import Verif.Props.Security
import Verif.Props.Forms
import Verif.Props.Affordances
import Verif.Props.Languages
import Verif.Props.Members
import Verif.Props.DemoStore
/-
C76: what is written for a Thing is a Thing Description as the W3C Recommendation defines it.

`Conform.Thing` (Spec/Conform) says when a JSON value is a Thing Description. `build` does not ensure it; what else is
needed is stated exactly.
-/
namespace Wot

variable {X : ExtTypes} {C : ExtCodecs X} {env : SerdeEnv} {t : Thing X} {F : Conform.Formats}

/-- For any Thing, the document that is written for it conforms to the Recommendation if and only if the Thing is
proper. (The two parts of a property must not say different things about it, and extensions and custom schemes must keep
to their own members.) -/
theorem C76_written (hs : C.Separate) (ho : C.Own) (hk : C.Foreign) (h : t.Maps)
    (ha : ∀ m, t.properties = some m → ∀ kv ∈ m, kv.2.Agrees)
    (hn : ∀ kv ∈ t.securityDefinitions, kv.2.subtype.OwnNames)
    {v : Json} (hv : toValue C env t = some v) : Conform.Thing F v ↔ t.Proper F env :=
  Conform.thing_iff hk h ha (C52_value hs ho h hn hv)

/-- The document of a Thing that has been built conforms to the Recommendation if and only if some things have been
taken care of that `build` does not check. The full statement would do without this condition; it is false, see below. -/
theorem C76_built_partial (hs : C.Separate) (ho : C.Own) (hk : C.Foreign) {title : String} {h : List (ThingOp X)}
    {b : ThingBuilder X} {e : SerdeEnv} (hr : Reachable X title h b) (hb : b.build e.toEnv = .ok t)
    (hn : ∀ kv ∈ t.securityDefinitions, kv.2.subtype.OwnNames)
    (hF : F.Covers e.toEnv env) {v : Json} (hv : toValue C env t = some v) : Conform.Thing F v ↔ t.Careful := by
  rw [C76_written hs ho hk (hr.maps hb) (fun m hm kv hkv => hr.agrees hb hm hkv) hn hv]
  have htag : ∀ {o : Option MultiLanguage}, (∀ m, o = some m → t.HasTranslations m) → TagsIn F o := by
    intro o ho m hm k hk
    obtain ⟨u, _, hu⟩ := C12_keys hr hb (ho m hm)
    obtain ⟨k', _, hk'⟩ := (hu k).1 hk
    exact hF.tag _ _ hk'
  constructor
  · intro hp
    refine ⟨hp.version, hp.security.1, fun n s k hs hk => ?_, fun n s name data hs hd => ?_, fun ctx f l r n hf _ hl hr hn => ?_,
      fun i hi => (hp.interactions i hi).1, fun p s x n hp' hs hx hn => ?_⟩
    · have := (hp.schemes n s hs).1
      rw [hk] at this
      revert this
      generalize e' : SchemeSubtype.known k = st
      unfold SchemeProper
      split
      · exact fun h => ⟨h.1, fun _ _ => trivial⟩
      · exact fun h => ⟨h.1, fun _ _ => trivial⟩
      all_goals first | exact id | cases e'
    · have := (hp.schemes n s hs).1
      rw [hd] at this
      exact this
    · exact (hp.forms ctx f hf).schemas l r n hl hr hn
    · have := hp.schemas p s x hp' hs hx
      exact ⟨fun b => this.minimum n b hn, fun b => this.maximum n b hn, fun m => this.multipleOf n m hn⟩
  · intro hp
    refine ⟨?_, htag fun m hm => .titles hm, htag fun m hm => .descriptions hm, hp.version,
      fun d s _ hs => hF.instant d s hs, fun d s _ hs => hF.instant d s hs, fun ls l hls hl => ⟨C14_link_sizes hr hb hls hl, ?_⟩,
      ⟨hp.security, (C02_thing_security hr hb).2⟩, fun n s hs => ⟨?_, htag fun m hm => .security hs hm⟩, fun ctx f hf => ?_,
      fun i hi => ⟨hp.forms i hi, htag fun m hm => .interactionTitles hi hm, htag fun m hm => .interactionDescriptions hi hm⟩,
      fun s hs => C11_uri_variables hr hb hs, fun p s x hp' hs hx => ?_⟩
    · rw [C21_context hr hb]
      split
      · exact .single
      · show Conform.Context (Json.norm (.arr _))
        simp only [Json.norm, Json.normList]
        refine .many fun w hw => ?_
        rw [normList_eq] at hw
        obtain ⟨x, hx, rfl⟩ := List.mem_map.1 hw
        obtain ⟨c, _, rfl⟩ := List.mem_map.1 hx
        cases c with
        | simple s => exact .inl ⟨s, rfl, trivial⟩
        | map m => exact .inr ⟨_, rfl⟩
    · intro ks hks k hk
      obtain ⟨hl1, hl2⟩ := C14_links hr hb
      rw [hl1] at hls
      split at hls
      · cases hls
      · cases hls
        obtain ⟨l', hl', rfl⟩ := List.mem_map.1 hl
        simp only at hks
        split at hks
        · cases hks
        · cases hks
          obtain ⟨k', hk', rfl⟩ := List.mem_map.1 hk
          obtain ⟨tag, ht⟩ := hl2 l' hl' k' hk'
          rw [ht]
          exact hF.tag _ _ ht
    · generalize hst : s.subtype = st
      cases st with
      | unknown name data => exact hp.customs n s name data hs hst
      | known k =>
      have := hp.schemes n s k hs hst
      revert this
      generalize e' : SchemeSubtype.known k = st at hst
      unfold SchemeProper
      split
      · exact fun h => ⟨h.1, fun m hm => C16_combo_references hr hb hs (.inl hst) hm⟩
      · exact fun h => ⟨h.1, fun m hm => C16_combo_references hr hb hs (.inr hst) hm⟩
      all_goals first | exact id | cases e'
    · obtain ⟨g, hg, rfl⟩ := (hr.hasForm hb).1 hf
      have hv := hr.valid_of_build hb
      refine ⟨?_, ?_, ?_, ?_⟩
      · rintro hop rfl
        cases hg with
        | thing hg => exact hv.thingForms g hg hop
      · intro l hl
        exact ⟨fun he => (hr.formReach hg).facts.1 (he ▸ hl), fun o ho => hv.operations ctx g o hg ⟨l, hl, ho⟩⟩
      · intro l hl
        exact ⟨fun he => (hr.formReach hg).facts.2.1 (he ▸ hl), fun n hn => C03_form_security hr hb hf hl hn⟩
      · intro l r n hl hr' hn
        by_cases hctx : ctx = .thing
        · subst hctx
          cases hf with
          | thing hfs hf => exact C15_response_schemas_partial hr hb hfs hf hl hr' hn
        · exact hp.responses ctx _ l r n hf hctx hl hr' hn
    · have := hp.numbers p s x
      exact ⟨htag fun m hm => .schemaTitles hs hx hm, htag fun m hm => .schemaDescriptions hs hx hm,
        fun n b hn => (this n hp' hs hx hn).1 b, fun n b hn => (this n hp' hs hx hn).2.1 b,
        fun n m hn => (this n hp' hs hx hn).2.2 m⟩


/-! ### Examples -/

namespace Demo

theorem nil_foreign : ExtCodecs.nil.Foreign := fun _ _ => ⟨nofun, nofun, nofun, nofun, nofun, nofun⟩

/-- Every string counts as a language tag and as an instant. -/
def formats : Conform.Formats := ⟨fun _ => True, fun _ => True⟩

theorem formats_cover : formats.Covers senv.toEnv senv := ⟨fun _ _ _ => trivial, fun _ _ _ => trivial⟩

theorem schemas_rules {p : Position} {u : UDS Demo.X} (hs : History.HasSchema history p u) :
    AllRules u := by
  cases hs with
  | property h1 => cases history_property h1; exact property_rules
  | input h1 h2 => cases history_action h1; cases h2; exact objectSchema_rules
  | output h1 h2 => cases history_action h1; cases h2; exact oneOfSchema_rules
  | subscription h1 h2 => cases history_event h1; cases h2
  | data h1 h2 => cases history_event h1; cases h2; exact vecSchema_rules
  | dataResponse h1 h2 => cases history_event h1; cases h2; exact stringSchema_rules
  | cancellation h1 h2 => cases history_event h1; cases h2
  | uriVariable h1 =>
    have h2 := lastOf_mem h1
    simp only [History.named, List.mem_filterMap] at h2
    obtain ⟨kv, h3, h4⟩ := h2
    cases List.mem_singleton.1 (show kv ∈ [("q", stringSchema)] from h3)
    split at h4 <;> cases h4
    exact stringSchema_rules
  | propertyUriVariable h1 h2 =>
    cases history_property h1; cases List.mem_singleton.1 h2; exact stringSchema_rules
  | actionUriVariable h1 h2 => cases history_action h1; cases h2
  | eventUriVariable h1 h2 => cases history_event h1; cases h2
  | schemaDefinition h1 =>
    have h2 := lastOf_mem h1
    simp only [History.named, List.mem_filterMap] at h2
    obtain ⟨kv, h3, h4⟩ := h2
    cases List.mem_singleton.1 (show kv ∈ [("err", objectSchema)] from h3)
    split at h4 <;> cases h4
    exact objectSchema_rules

theorem securities_eq {n : String} {s : SecurityScheme} (hs : (n, s) ∈ thing.securityDefinitions) :
    s.subtype = .known (.combo (.allOf ["basic", "psk"])) ∨ s.subtype = .known (.basic {}) ∨ s.subtype = .known (.psk {}) := by
  obtain ⟨q, hq, _, rfl⟩ := (reachable.hasScheme built).1 hs
  have hq : q = combo ∨ q = basic ∨ q = psk := by
    simpa [History.securities, history, link] using hq
  rcases hq with rfl | rfl | rfl
  · exact .inl rfl
  · exact .inr (.inl rfl)
  · exact .inr (.inr rfl)

theorem careful : thing.Careful where
  version := nofun
  security := nofun
  schemes n s k hs hk := by
    rcases securities_eq hs with e | e | e <;> rw [e] at hk <;> cases hk
    · exact ⟨by decide, fun _ _ => trivial⟩
    · exact (by decide : SecLocation.header ≠ .uri)
    · trivial
  customs n s name data hs hd := by
    rcases securities_eq hs with e | e | e <;> rw [e] at hd <;> cases hd
  responses ctx f l r n hf hctx hl hr hn := by
    obtain ⟨g, hg, rfl⟩ := (reachable.hasForm built).1 hf
    rcases history_hasForm hg with ⟨rfl, rfl⟩ | ⟨rfl, rfl⟩ | ⟨rfl, rfl⟩ | ⟨rfl, rfl⟩
    · exact absurd rfl hctx
    all_goals cases hl
  forms i hi := by
    cases hi with
    | property h1 h2 => cases h1; cases List.mem_singleton.1 h2; nofun
    | action h1 h2 => cases h1; cases List.mem_singleton.1 h2; nofun
    | event h1 h2 => cases h1; cases List.mem_singleton.1 h2; nofun
  numbers p s x n _ hs hx hn := by
    have hl := valuesLossless.schemas p s x hs hx
    refine ⟨fun b => hl.minimum n b hn, fun b => hl.maximum n b hn, fun m hm => ⟨hl.multipleOf n m hn hm, ?_⟩⟩
    have hf := hl.multipleOf n m hn hm
    obtain ⟨u, hu, rfl⟩ := (reachable.hasSchema built).1 hs
    obtain ⟨y, hy, rfl⟩ := within_mapLang.1 hx
    rw [mapLang_subtype] at hn
    have hr := schemas_rules hu y hy
    cases hy' : y.subtype with
    | none => rw [hy'] at hn; cases hn
    | some st =>
      rw [hy'] at hn
      cases st with
      | number k =>
        cases hn
        have := hr
        unfold SchemaRule at this
        rw [hy'] at this
        have h0 := this.2.2.2 m hm
        rw [F64.le_iff] at h0
        rw [F64.lt_iff]
        have h1 : m.isNan = false := by
          unfold F64.isFinite at hf; unfold F64.isNan; simp_all; omega
        have h2 : F64.zero.isNan = false := by decide
        exact ⟨h2, h1, Int.lt_of_not_ge fun h => h0 ⟨h1, h2, h⟩⟩
      | _ => cases hn

end Demo

/-- The document of the Thing with everything conforms. -/
example : ∃ v, toValue .nil Demo.senv Demo.thing = some v ∧ Conform.Thing Demo.formats v := by
  refine ⟨_, rfl, (C76_built_partial Demo.nil_separate Demo.nil_own Demo.nil_foreign (e := Demo.senv) Demo.reachable
    Demo.built ?_ Demo.formats_cover rfl).2 Demo.careful⟩
  · rintro ⟨n, s⟩ hs scheme m hm
    rcases Demo.securities_eq hs with e | e | e <;> rw [e] at hm <;> cases hm

/-! ### Things that are built and have documents that do not conform -/

/-- These calls are possible and `build` succeeds, but the document does not conform. -/
def Demo.Nonconforming (h : List (ThingOp Demo.X)) : Prop :=
  ∃ b t v, Reachable Demo.X "Lamp" h b ∧ b.build Demo.senv.toEnv = .ok t ∧ toValue .nil Demo.senv t = some v ∧
    ∀ F, ¬ Conform.Thing F v

namespace Demo

/-- A new scheme, required. -/
def secure (st : SchemeSubtype) : ThingOp Demo.X := .common (.security { subtype := st, required := true })

/-- An action with a form. -/
def act (ops : List (ActionOp Demo.X)) : ActionBuilder Demo.X :=
  (.interaction (.form (form "/a" [])) :: ops).foldl ActionBuilderF.apply (.empty () ())

theorem act_built {ops : List (ActionOp Demo.X)} (h : ∀ op ∈ ops, op.Built) : ActionReach Demo.X (act ops) :=
  actionReach_foldl (.empty () ()) fun op ho => by
    rcases List.mem_cons.1 ho with rfl | ho
    · exact form_built _ _
    · exact h op ho

end Demo

/-- No security scheme is required. -/
theorem C76_no_security : Demo.Nonconforming [] := by
  refine ⟨_, _, _, Demo.run_reachable _ (fun op h => absurd h List.not_mem_nil), rfl, rfl, fun F h => ?_⟩
  obtain ⟨w, hw, h⟩ := h.security
  cases hw
  rcases h with ⟨s, h, -⟩ | ⟨l, h, h', -⟩
  · cases h
  · cases h; cases h'

/-- A version without model. -/
theorem C76_no_model : Demo.Nonconforming [Demo.secure (.known .noSec), .common (.version { instance_ := "1", model := none })] := by
  refine ⟨_, _, _, Demo.run_reachable _ ?_, rfl, rfl, fun F h => ?_⟩
  · intro op ho
    simp only [List.mem_cons, List.not_mem_nil, or_false] at ho
    rcases ho with rfl | rfl
    · exact ⟨[.noSec, .required], rfl⟩
    · trivial
  · obtain ⟨-, -, h⟩ := h.version _ rfl
    obtain ⟨s, h, -⟩ := h _ rfl
    cases h

/-- An action without forms. -/
theorem C76_no_forms : Demo.Nonconforming [Demo.secure (.known .noSec), .action "a" (.empty () ())] := by
  refine ⟨_, _, _, Demo.run_reachable _ ?_, rfl, rfl, fun F h => ?_⟩
  · intro op ho
    simp only [List.mem_cons, List.not_mem_nil, or_false] at ho
    rcases ho with rfl | rfl
    · exact ⟨[.noSec, .required], rfl⟩
    · exact ActionReach.empty () ()
  · obtain ⟨w, hw, l, h, h', -⟩ := ((h.actions _ rfl).2 "a" _ rfl).interaction.forms
    cases hw
    cases h
    cases h'

/-- A combination of one scheme. -/
theorem C76_single_combo : Demo.Nonconforming [Demo.secure (.known .noSec), Demo.secure (.known (.combo (.oneOf ["nosec"])))] := by
  refine ⟨_, _, _, Demo.run_reachable _ ?_, rfl, rfl, fun F h => ?_⟩
  · intro op ho
    simp only [List.mem_cons, List.not_mem_nil, or_false] at ho
    rcases ho with rfl | rfl
    · exact ⟨[.noSec, .required], rfl⟩
    · exact ⟨[.combo, .oneOf ["nosec"], .required], rfl⟩
  · obtain ⟨w, hw, h⟩ := h.securityDefinitions
    cases hw
    obtain ⟨w, hw, s, rfl, h⟩ := (h.2 "combo" _ rfl).scheme
    cases hw
    generalize e0 : "combo" = name at h
    cases h with
    | oneOf h => obtain ⟨w, hw, l, rfl, -⟩ := h; cases hw
    | allOf h => obtain ⟨w, hw, -⟩ := h; cases hw
    | other h => subst e0; exact absurd (by decide) h
    | _ => exact absurd e0 (by decide)

/-- A user and password in the URI. -/
theorem C76_place : Demo.Nonconforming [Demo.secure (.known (.basic { location := .uri }))] := by
  refine ⟨_, _, _, Demo.run_reachable _ ?_, rfl, rfl, fun F h => ?_⟩
  · intro op ho
    cases List.mem_singleton.1 ho
    exact ⟨[.basic, .location .uri, .required], rfl⟩
  · obtain ⟨w, hw, h⟩ := h.securityDefinitions
    cases hw
    obtain ⟨w, hw, s, rfl, h⟩ := (h.2 "basic" _ rfl).scheme
    cases hw
    generalize e0 : "basic" = name at h
    cases h with
    | basic h => obtain ⟨s, hs, h⟩ := h.place _ rfl; cases hs; exact absurd h (by decide)
    | other h => subst e0; exact absurd (by decide) h
    | _ => exact absurd e0 (by decide)

/-- A custom scheme with the name of a predefined one, without the members of it. -/
theorem C76_custom_name : Demo.Nonconforming [Demo.secure (.unknown "oauth2" .null)] := by
  refine ⟨_, _, _, Demo.run_reachable _ ?_, rfl, rfl, fun F h => ?_⟩
  · intro op ho
    cases List.mem_singleton.1 ho
    exact ⟨[.custom "oauth2", .required], rfl⟩
  · obtain ⟨w, hw, h⟩ := h.securityDefinitions
    cases hw
    obtain ⟨w, hw, s, rfl, h⟩ := (h.2 "oauth2" _ rfl).scheme
    cases hw
    generalize e0 : "oauth2" = name at h
    cases h with
    | oauth2 h => cases h
    | other h => subst e0; exact absurd (by decide) h
    | _ => exact absurd e0 (by decide)

/-- OAuth2 with a flow for which there is no endpoint. -/
theorem C76_no_endpoint : Demo.Nonconforming [Demo.secure (.known (.oauth2 { flow := "code" }))] := by
  refine ⟨_, _, _, Demo.run_reachable _ ?_, rfl, rfl, fun F h => ?_⟩
  · intro op ho
    cases List.mem_singleton.1 ho
    exact ⟨[.oauth2 "code", .required], rfl⟩
  · obtain ⟨w, hw, h⟩ := h.securityDefinitions
    cases hw
    obtain ⟨w, hw, s, rfl, h⟩ := (h.2 "oauth2" _ rfl).scheme
    cases hw
    generalize e0 : "oauth2" = name at h
    cases h with
    | oauth2 h _ _ _ _ h' => cases h; exact h' (by decide) rfl
    | other h => subst e0; exact absurd (by decide) h
    | _ => exact absurd e0 (by decide)

/-- A response to an action that has an undeclared schema. -/
theorem C76_undeclared : Demo.Nonconforming [Demo.secure (.known .noSec), Demo.undeclared .action] := by
  refine ⟨_, _, _, Demo.run_reachable _ ?_, rfl, rfl, fun F h => ?_⟩
  · intro op ho
    simp only [List.mem_cons, List.not_mem_nil, or_false] at ho
    rcases ho with rfl | rfl
    · exact ⟨[.noSec, .required], rfl⟩
    · exact ActionReach.call _ (Demo.form_built _ _) (.empty () ())
  · obtain ⟨w, hw, l, e, -, h⟩ := ((h.actions _ rfl).2 "a" _ rfl).interaction.forms
    cases hw
    cases e
    rcases (h _ (List.mem_singleton.2 rfl)).additionalResponses _ rfl with h | ⟨l, e, h⟩
    · obtain ⟨s, e, o, ho, -⟩ := h.schema _ rfl
      cases ho
    · cases e

/-- A number with an infinite bound. -/
def Demo.infinite : UDS Demo.X :=
  .mk { other := () } none (some (.number { maximum := some (.inclusive (.ofBits 0x7FF0000000000000)) }))

def Demo.infiniteHistory : List (ThingOp Demo.X) :=
  [Demo.secure (.known .noSec), .action "a" (Demo.act [.input Demo.infinite])]

/-- An infinite bound. -/
theorem C76_infinite : Demo.Nonconforming Demo.infiniteHistory := by
  have hb : (Demo.run Demo.infiniteHistory).build Demo.env = .ok ((Demo.run Demo.infiniteHistory).result Demo.env) := by
    with_unfolding_all rfl
  refine ⟨_, _, _, Demo.run_reachable _ ?_, hb, rfl, fun F h => ?_⟩
  · intro op ho
    simp only [Demo.infiniteHistory, List.mem_cons, List.not_mem_nil, or_false] at ho
    rcases ho with rfl | rfl
    · exact ⟨[.noSec, .required], rfl⟩
    · refine Demo.act_built fun op ho => ?_
      cases List.mem_singleton.1 ho
      exact Demo.chain_built (op := .number) (ops := [.fMaximum (.ofBits 0x7FF0000000000000)]) rfl
        (by simp [SpecOp.args]) (by simp [KindOp.args])
  · cases ((h.actions _ rfl).2 "a" _ rfl).input _ rfl with
    | mk h =>
      obtain ⟨n, h⟩ := h.maximum _ rfl
      cases h

/-- Steps of zero, where `build` does not check the schema. -/
theorem C76_zero_step : Demo.Nonconforming [Demo.secure (.known .noSec),
    .uriVariable "u" (.mk { other := () } none (some (.number { multipleOf := some F64.zero })))] := by
  refine ⟨_, _, _, Demo.run_reachable _ ?_, rfl, rfl, fun F h => ?_⟩
  · intro op ho
    simp only [List.mem_cons, List.not_mem_nil, or_false] at ho
    rcases ho with rfl | rfl
    · exact ⟨[.noSec, .required], rfl⟩
    · exact Demo.chain_built (op := .number) (ops := [.fMultipleOf F64.zero]) rfl
        (by simp [SpecOp.args]) (by simp [KindOp.args])
  · cases ((h.uriVariables _ rfl).2 "u" _ rfl).1 with
    | mk h =>
      have h : Conform.Positive (.num (.float F64.zero)) := h.multipleOf _ rfl
      cases h with | float h => exact absurd h (by decide)

end Wot
