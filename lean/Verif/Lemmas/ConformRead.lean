import Verif.Spec.Conform
import Verif.Lemmas.Values
import Verif.Lemmas.Grammar
/-
Documents that conform to the Recommendation are documents of the grammar.
-/
namespace Wot
namespace Conform

variable {F : Formats} {env : SerdeEnv} {X : ExtTypes} {C : ExtCodecs X} {es : Members} {k : String} {v w : Json}
  {P Q : Json → Prop}

theorem may_most (hn : (es.map (·.1)).Nodup) (h : May k P (.obj es))
    (hq : ∀ w, (Json.obj es).member k = some w → P w → Q w) : AtMostOne k es Q := by
  cases e : (Json.obj es).member k with
  | none => exact .inl (by rw [member_occ] at e; exact List.head?_eq_none_iff.1 e)
  | some w => exact .inr ⟨w, occ_member hn e, .inr (hq w e (h w e))⟩

theorem may_given (hn : (es.map (·.1)).Nodup) (h : May k P (.obj es))
    (hq : ∀ w, (Json.obj es).member k = some w → P w → Q w) : Doc.Given k es Q := by
  cases e : (Json.obj es).member k with
  | none => exact .inl (by rw [member_occ] at e; exact List.head?_eq_none_iff.1 e)
  | some w => exact .inr ⟨w, occ_member hn e, hq w e (h w e)⟩

theorem must_one (hn : (es.map (·.1)).Nodup) (h : Must k P (.obj es))
    (hq : ∀ w, (Json.obj es).member k = some w → P w → Q w) : HasOne k es Q := by
  obtain ⟨w, e, h⟩ := h
  exact ⟨w, occ_member hn e, hq w e h⟩

theorem any_most (hn : (es.map (·.1)).Nodup) : AtMostOne k es Doc.Any :=
  may_most (P := fun _ => True) hn (fun _ _ => trivial) fun _ _ _ => trivial

theorem noDup_elem {l : List Json} (h : (Json.arr l).NoDup) (hw : w ∈ l) : w.NoDup := (noDupList_iff l).1 h _ hw

theorem noDup_entry {es : Members} (h : (Json.obj es).NoDup) {kv : String × Json} (hw : kv ∈ es) : kv.2.NoDup :=
  (noDupMembers_iff es).1 h.2 _ hw

theorem member_entry (h : (es.map (·.1)).Nodup) {kv : String × Json} (hw : kv ∈ es) :
    (Json.obj es).member kv.1 = some kv.2 := by
  rw [member_occ, occ_nodup h hw]; rfl

theorem str_text {P : String → Prop} (h : Str P v) : IsText v := by obtain ⟨s, e, -⟩ := h; exact ⟨s, e⟩

theorem array_texts {P : String → Prop} {l : List Json} (h : ∀ w ∈ l, Str P w) : ∃ ss : List String, Json.arr l = .arr (ss.map .str) := by
  induction l with
  | nil => exact ⟨[], rfl⟩
  | cons a l ih =>
    obtain ⟨ss, e⟩ := ih fun w hw => h w (List.mem_cons_of_mem _ hw)
    obtain ⟨s, rfl, -⟩ := h a List.mem_cons_self
    cases e
    exact ⟨s :: ss, rfl⟩

theorem texts (h : OneOrMany Text v) : IsTexts v := by
  rcases h with h | ⟨l, rfl, h⟩
  · exact .inl (str_text h)
  · exact .inr (array_texts h)

theorem names_texts {D : String → Prop} (h : Names D v) : IsTexts v := by
  rcases h with h | ⟨l, rfl, -, h⟩
  · exact .inl (str_text h)
  · exact .inr (array_texts h)

theorem elements_of (h : Array P v) (hq : ∀ l, v = .arr l → ∀ w ∈ l, P w → Q w) : Doc.ArrayOf Q v := by
  obtain ⟨l, rfl, h⟩ := h
  exact ⟨l, rfl, fun w hw => hq l rfl w hw (h w hw)⟩

theorem arrayMin_of {n : Nat} (h : ArrayMin n P v) (hq : ∀ l, v = .arr l → ∀ w ∈ l, P w → Q w) : Doc.ArrayOf Q v := by
  obtain ⟨l, rfl, -, h⟩ := h
  exact ⟨l, rfl, fun w hw => hq l rfl w hw (h w hw)⟩

theorem map_of (hd : v.NoDup) (h : Map P v) (hq : ∀ w, w.NoDup → P w → Q w) : Doc.MapOf Q v := by
  obtain ⟨⟨es, rfl⟩, h⟩ := h
  exact ⟨es, rfl, fun kv hkv => hq _ (noDup_entry hd hkv) (h kv.1 kv.2 (member_entry hd.1 hkv))⟩

theorem translations_of (hF : F.ReadBy env) (hd : v.NoDup) (h : Translations F v) : Doc.Translations env v := by
  obtain ⟨⟨es, rfl⟩, h⟩ := h
  refine ⟨es, rfl, fun kv hkv => ?_⟩
  obtain ⟨h1, h2⟩ := h kv.1 kv.2 (member_entry hd.1 hkv)
  exact ⟨hF.tag _ h1, str_text h2⟩

theorem head_of (hF : F.ReadBy env) (hd : (Json.obj es).NoDup) (h : SchemaNode F (.obj es)) : Doc.SchemaHead env es where
  attype := may_most hd.1 h.info.attype fun _ _ => texts
  title := may_most hd.1 h.info.title fun _ _ => str_text
  titles := may_most hd.1 h.info.titles fun _ e => translations_of hF (member_noDup hd e)
  description := may_most hd.1 h.info.description fun _ _ => str_text
  descriptions := may_most hd.1 h.info.descriptions fun _ e => translations_of hF (member_noDup hd e)
  constant := any_most hd.1
  default := any_most hd.1
  unit := may_most hd.1 h.unit fun _ _ => str_text
  oneOf := may_most hd.1 h.oneOf fun _ _ h => elements_of h fun _ _ _ _ _ => trivial
  enumeration := may_most hd.1 h.enumeration fun _ _ h => elements_of h fun _ _ _ _ _ => trivial
  readOnly := may_given hd.1 h.readOnly fun _ _ => id
  writeOnly := may_given hd.1 h.writeOnly fun _ _ => id
  format := may_most hd.1 h.format fun _ _ => str_text

theorem schema_of {A : Type} {c : ExtCodec A} (hc : ∀ m, ∃ a, c.de m = some a) (hF : F.ReadBy env) (h : Schema F v) :
    v.NoDup → Doc.Schema env c v := by
  induction h with
  | @mk v h _ ih =>
    intro hd
    obtain ⟨es, rfl⟩ := h.object
    refine .mk (head_of hF hd h) (hc _) fun l w hl hw => ?_
    have hm := member_entry hd.1 hl
    exact ih w (.oneOf ⟨l, hm, hw⟩) (noDup_elem (member_noDup hd hm) hw)

theorem operations_standard {ctx : FormContext} : ∀ s ∈ operations ctx, s ∈ standardOperations := by
  cases ctx <;> decide

theorem form_of (hC : C.Lenient) {ctx : FormContext} {D S : String → Prop} (hd : v.NoDup) (h : Form ctx D S v) :
    Doc.Object (Doc.Form C) v := by
  obtain ⟨es, rfl⟩ := h.object
  refine ⟨es, rfl, may_most hd.1 h.op fun w _ h => ?_, must_one hd.1 h.href fun _ _ => str_text,
    may_most hd.1 h.contentType fun _ _ => str_text, may_most hd.1 h.contentCoding fun _ _ => str_text,
    may_most hd.1 h.subprotocol fun _ _ => str_text, may_most hd.1 h.security fun _ _ => names_texts,
    may_most hd.1 h.scopes fun _ _ => texts, may_most hd.1 h.response fun w e h => ?_,
    may_most hd.1 h.additionalResponses fun w e h => ?_, hC.form _⟩
  · rcases h with ⟨s, rfl, h⟩ | ⟨l, rfl, h⟩
    · exact .inl ⟨s, operations_standard s h, .inl rfl⟩
    · refine .inr ⟨l, rfl, fun w hw => ?_⟩
      obtain ⟨s, rfl, h⟩ := h w hw
      exact ⟨s, operations_standard s h, .inl rfl⟩
  · obtain ⟨⟨es', rfl⟩, h⟩ := h
    exact ⟨es', rfl, must_one (member_noDup hd e).1 h fun _ _ => str_text, hC.response _⟩
  · have key : ∀ w, w.NoDup → Additional S w → Doc.Additional w := by
      intro w hw h
      obtain ⟨es', rfl⟩ := h.object
      exact .inl ⟨es', rfl, may_given hw.1 h.success fun _ _ => id, may_most hw.1 h.contentType fun _ _ => str_text,
        may_most hw.1 h.schema fun _ _ => str_text⟩
    have hw := member_noDup hd e
    rcases h with h | ⟨l, rfl, h⟩
    · exact .inl (key w hw h)
    · exact .inr ⟨l, rfl, fun x hx => key x (noDup_elem hw hx) (h x hx)⟩

theorem link_of (hF : F.ReadBy env) (hd : v.NoDup) (h : Link F v) : Doc.Link env v := by
  obtain ⟨es, rfl⟩ := h.object
  refine .inl ⟨es, rfl, must_one hd.1 h.href fun _ _ => str_text, may_most hd.1 h.type fun _ _ => str_text,
    may_most hd.1 h.rel fun _ _ => str_text, may_most hd.1 h.anchor fun _ _ => str_text,
    may_most hd.1 h.sizes fun _ _ h => str_text h.1, may_most hd.1 h.hreflang fun w _ h => ?_⟩
  have key : ∀ w, Str F.tag w → Doc.Tag env w := by
    rintro w ⟨s, rfl, h⟩
    obtain ⟨t, ht⟩ := hF.tag s h
    exact ⟨s, t, rfl, ht⟩
  rcases h with h | ⟨l, rfl, h⟩
  · exact .inl (key w h)
  · exact .inr ⟨l, rfl, fun x hx => key x (h x hx)⟩

theorem security_of (hF : F.ReadBy env) {D : String → Prop} (hd : v.NoDup) (h : Security F D v) :
    Doc.Object (Doc.Security env) v := by
  obtain ⟨es, rfl⟩ := h.object
  exact ⟨es, rfl, may_most hd.1 h.attype fun _ _ => texts, may_most hd.1 h.description fun _ _ => str_text,
    may_most hd.1 h.descriptions fun _ e => translations_of hF (member_noDup hd e),
    may_most hd.1 h.proxy fun _ _ => str_text, .text (must_one hd.1 h.scheme fun _ _ => str_text)⟩

theorem interaction_of (hC : C.Lenient) (hF : F.ReadBy env) {K : List String} {ctx : FormContext} {D S : String → Prop}
    (hd : (Json.obj es).NoDup) (h : Interaction F ctx D S (.obj es)) : Doc.Interaction env C K es where
  attype := may_most hd.1 h.info.attype fun _ _ => texts
  title := may_most hd.1 h.info.title fun _ _ => str_text
  titles := may_most hd.1 h.info.titles fun _ e => translations_of hF (member_noDup hd e)
  description := may_most hd.1 h.info.description fun _ _ => str_text
  descriptions := may_most hd.1 h.info.descriptions fun _ e => translations_of hF (member_noDup hd e)
  forms := must_one hd.1 h.forms fun w e h => arrayMin_of h fun l hl x hx h =>
    form_of hC (noDup_elem (hl ▸ member_noDup hd e) hx) h
  uriVariables := may_most hd.1 h.uriVariables fun w e h => map_of (member_noDup hd e) h fun x hx h =>
    schema_of hC.dataSchema hF h.1 hx
  other := hC.interaction _

theorem property_of (hC : C.Lenient) (hF : F.ReadBy env) {D S : String → Prop} (hd : v.NoDup) (h : Property F D S v) :
    Doc.Object (Doc.Property env C) v := by
  obtain ⟨es, rfl⟩ := h.interaction.object
  obtain ⟨hs, hi⟩ := h.schema
  refine ⟨es, rfl, interaction_of hC hF hd h.interaction, head_of hF hd hs, hC.dataSchema _, fun l w hl hw => ?_,
    may_most hd.1 h.observable fun _ _ => id, hC.property _⟩
  have hm := member_entry hd.1 hl
  exact schema_of hC.dataSchema hF (hi w (.oneOf ⟨l, hm, hw⟩)) (noDup_elem (member_noDup hd hm) hw)

theorem action_of (hC : C.Lenient) (hF : F.ReadBy env) {D S : String → Prop} (hd : v.NoDup) (h : Action F D S v) :
    Doc.Object (Doc.Action env C) v := by
  obtain ⟨es, rfl⟩ := h.interaction.object
  exact ⟨es, rfl, interaction_of hC hF hd h.interaction,
    may_most hd.1 h.input fun _ e h => schema_of hC.dataSchema hF h (member_noDup hd e),
    may_most hd.1 h.output fun _ e h => schema_of hC.dataSchema hF h (member_noDup hd e),
    may_given hd.1 h.safe fun _ _ => id, may_given hd.1 h.idempotent fun _ _ => id,
    may_most hd.1 h.synchronous fun _ _ => id, hC.action _⟩

/-- All but the member that the library has instead of `dataResponse`. -/
theorem event_of (hC : C.Lenient) (hF : F.ReadBy env) {D S : String → Prop} (hd : v.NoDup) (h : Event F D S v) :
    Doc.Object (Doc.Event env C) v ↔ ∀ w, v.member "data_response" = some w → w = .null ∨ Doc.DS env C w := by
  constructor
  · rintro ⟨es, rfl, hg⟩ w hw
    rcases hg.dataResponse with e | ⟨x, e, h⟩
    · rw [occ_member hd.1 hw] at e; cases e
    · rw [occ_member hd.1 hw] at e; cases e; exact h
  intro hr
  obtain ⟨es, rfl⟩ := h.interaction.object
  refine ⟨es, rfl, interaction_of hC hF hd h.interaction,
    may_most hd.1 h.subscription fun _ e h => schema_of hC.dataSchema hF h (member_noDup hd e),
    may_most hd.1 h.data fun _ e h => schema_of hC.dataSchema hF h (member_noDup hd e), ?_,
    may_most hd.1 h.cancellation fun _ e h => schema_of hC.dataSchema hF h (member_noDup hd e), hC.event _⟩
  cases e : (Json.obj es).member "data_response" with
  | none => exact .inl (by rw [member_occ] at e; exact List.head?_eq_none_iff.1 e)
  | some w => exact .inr ⟨w, occ_member hd.1 e, hr w e⟩

theorem version_of (hd : v.NoDup) (h : Version v) : Doc.Version v := by
  obtain ⟨⟨es, rfl⟩, h1, h2⟩ := h
  exact .inl ⟨es, rfl, must_one hd.1 h1 fun _ _ => str_text, may_most hd.1 h2 fun _ _ => str_text⟩

theorem instant_of (hF : F.ReadBy env) (h : Str F.instant v) : Doc.Instant env v := by
  obtain ⟨s, rfl, h⟩ := h
  obtain ⟨d, hd⟩ := hF.instant s h
  exact ⟨s, d, rfl, hd⟩

theorem thing_of (hC : C.Lenient) (hF : F.ReadBy env) (hd : v.NoDup) (h : Thing F v) :
    Doc.Object (Doc.Thing env C) v ↔ ∀ e, v.Entry "events" e → ∀ w, e.member "data_response" = some w →
      w = .null ∨ Doc.DS env C w := by
  constructor
  · rintro ⟨es, rfl, ht⟩ e ⟨o, n, ho, he⟩ w hw
    rcases ht.events with e' | ⟨x, e', h'⟩
    · rw [occ_member hd.1 ho] at e'; cases e'
    rw [occ_member hd.1 ho] at e'
    cases e'
    rcases h' with rfl | ⟨m, rfl, h'⟩
    · cases he
    have hv := (h.events _ ho).2 n e he
    have hde := member_noDup (member_noDup hd ho) he
    exact (event_of hC hF hde hv).1 (h' (n, e) (HMap.mem_of_get? he)) w hw
  intro hr
  obtain ⟨es, rfl⟩ := h.object
  refine ⟨es, rfl, ?_, may_most hd.1 h.id fun _ _ => str_text, may_most hd.1 h.info.attype fun _ _ => texts,
    must_one hd.1 h.title fun _ _ => str_text,
    may_most hd.1 h.info.titles fun _ e => translations_of hF (member_noDup hd e),
    may_most hd.1 h.info.description fun _ _ => str_text,
    may_most hd.1 h.info.descriptions fun _ e => translations_of hF (member_noDup hd e),
    may_most hd.1 h.version fun _ e => version_of (member_noDup hd e),
    may_most hd.1 h.created fun _ _ => instant_of hF, may_most hd.1 h.modified fun _ _ => instant_of hF,
    may_most hd.1 h.support fun _ _ => str_text, may_most hd.1 h.base fun _ _ => str_text,
    may_most hd.1 h.properties fun _ e h => map_of (member_noDup hd e) h fun x hx h => property_of hC hF hx h,
    may_most hd.1 h.actions fun _ e h => map_of (member_noDup hd e) h fun x hx h => action_of hC hF hx h,
    may_most hd.1 h.events fun o e h => ?_,
    may_most hd.1 h.links fun w e h => elements_of h fun l hl x hx h =>
      link_of hF (noDup_elem (hl ▸ member_noDup hd e) hx) h,
    may_most hd.1 h.forms fun w e h => elements_of h fun l hl x hx h =>
      form_of hC (noDup_elem (hl ▸ member_noDup hd e) hx) h,
    must_one hd.1 h.security fun _ _ => names_texts,
    must_one hd.1 h.securityDefinitions fun _ e h => map_of (member_noDup hd e) h fun x hx h => security_of hF hx h,
    may_most hd.1 h.uriVariables fun w e h => map_of (member_noDup hd e) h fun x hx h =>
      schema_of hC.dataSchema hF h.1 hx,
    may_most hd.1 h.profile fun _ _ => texts,
    may_most hd.1 h.schemaDefinitions fun w e h => map_of (member_noDup hd e) h fun x hx h =>
      schema_of hC.dataSchema hF h hx, hC.thing _⟩
  · obtain ⟨w, e, -⟩ := h.context
    exact .inr ⟨w, occ_member hd.1 e, trivial⟩
  · obtain ⟨⟨m, rfl⟩, h⟩ := h
    have hdm := member_noDup hd e
    refine ⟨m, rfl, fun kv hkv => ?_⟩
    have hm := member_entry hdm.1 hkv
    exact (event_of hC hF (noDup_entry hdm hkv) (h _ _ hm)).2 (hr _ ⟨_, kv.1, e, hm⟩)

/-! ### Schemes -/

theorem occ_scheme (hk : k ∉ "scheme" :: Names.security) : occ k (Doc.schemeMembers es) = occ k es := occ_rest_of hk

theorem most_scheme (hk : k ∉ "scheme" :: Names.security) (h : AtMostOne k es P) : AtMostOne k (Doc.schemeMembers es) P := by
  unfold AtMostOne; rw [occ_scheme hk]; exact h

theorem given_scheme (hk : k ∉ "scheme" :: Names.security) (h : Doc.Given k es P) :
    Doc.Given k (Doc.schemeMembers es) P := by
  unfold Doc.Given; rw [occ_scheme hk]; exact h

theorem one_scheme (hk : k ∉ "scheme" :: Names.security) (h : HasOne k es P) : HasOne k (Doc.schemeMembers es) P := by
  unfold HasOne; rw [occ_scheme hk]; exact h

theorem located_iff (hn : (es.map (·.1)).Nodup) {ps : List String}
    (hp : ∀ p ∈ ps, p = "auto" ∨ p ∈ ["header", "query", "body", "cookie", "uri"]) (h : Located ps (.obj es)) :
    Doc.Located (Doc.schemeMembers es) ↔ (Json.obj es).member "in" ≠ some (.str "auto") := by
  constructor
  · rintro ⟨hl, -⟩ e
    rw [Doc.Given, occ_scheme (by decide), occ_member hn e] at hl
    rcases hl with hl | ⟨v, hl, n, hm, hv⟩
    · cases hl
    · cases hl
      rcases hv with hv | hv | hv <;> cases hv
      revert hm
      decide
  · intro hm
    refine ⟨given_scheme (by decide) (may_given hn h.place fun w e => ?_),
      most_scheme (by decide) (may_most hn h.name fun _ _ => str_text)⟩
    rintro ⟨s, rfl, hs⟩
    rcases hp s hs with rfl | hs
    · exact absurd e hm
    · exact ⟨s, hs, .inl rfl⟩

theorem places_auto : ∀ p ∈ places, p = "auto" ∨ p ∈ ["header", "query", "body", "cookie", "uri"] := by decide

theorem uri_places_auto : ∀ p ∈ "uri" :: places, p = "auto" ∨ p ∈ ["header", "query", "body", "cookie", "uri"] := by decide

/-- The members of a combination. -/
theorem single_of {m : Members} {k : String} {v : Json} (hn : (m.map (·.1)).Nodup) (h : (k, v) ∈ m)
    (ho : ∀ kv ∈ m, kv.1 = k) : m = [(k, v)] := by
  match m with
  | [] => cases h
  | [kv] => rw [List.mem_singleton.1 h]
  | a :: b :: m =>
    have ha := ho a List.mem_cons_self
    have hb := ho b (List.mem_cons_of_mem _ List.mem_cons_self)
    simp [ha, hb] at hn

theorem combo_only_iff (hn : (es.map (·.1)).Nodup) {k k' : String} (hk : k ∉ "scheme" :: Names.security)
    (hks : ∀ x, x = k ∨ x = k' ↔ x = "oneOf" ∨ x = "allOf")
    (hm : ∃ v, (Json.obj es).member k = some v) (hm' : (Json.obj es).member k' = none) :
    (∃ v, Doc.schemeMembers es = [(k, v)]) ↔ (Json.obj es).Only ("oneOf" :: "allOf" :: Vocabulary.security) := by
  obtain ⟨v, hv⟩ := hm
  have hs : ∀ {kv : String × Json}, kv ∈ Doc.schemeMembers es ↔ kv ∈ es ∧ kv.1 ∉ "scheme" :: Names.security := by
    intro kv; simp [Doc.schemeMembers, List.mem_filter]
  have hvoc : ∀ x, x ∈ "oneOf" :: "allOf" :: Vocabulary.security ↔ (x = k ∨ x = k') ∨ x ∈ "scheme" :: Names.security := by
    intro x
    rw [hks]
    simp only [Vocabulary.security, Names.security, List.mem_cons, List.not_mem_nil, or_false]
    grind
  constructor
  · rintro ⟨w, e⟩
    refine ⟨⟨es, rfl⟩, fun x hx => (hvoc x).2 ?_⟩
    by_cases hx' : x ∈ "scheme" :: Names.security
    · exact .inr hx'
    cases e' : (Json.obj es).member x with
    | none => exact absurd e' hx
    | some y =>
      have := hs.2 ⟨HMap.mem_of_get? e', hx'⟩
      rw [e] at this
      cases List.mem_singleton.1 this
      exact .inl (.inl rfl)
  · rintro ⟨-, h⟩
    refine ⟨v, single_of ?_ (hs.2 ⟨HMap.mem_of_get? hv, hk⟩) fun kv hkv => ?_⟩
    · exact hn.sublist (List.Sublist.map _ List.filter_sublist)
    · obtain ⟨h1, h2⟩ := hs.1 hkv
      have hm := member_entry hn h1
      rcases (hvoc _).1 (h kv.1 (by rw [hm]; nofun)) with (h | h) | h
      · exact h
      · rw [← h, hm] at hm'; cases hm'
      · exact absurd h h2

theorem predefined_facts {s : String} {sm : Members} (h : Doc.Predefined s sm) : s ∈ Vocabulary.scheme.map (·.1) ∧
    (s ∈ ["basic", "digest", "apikey", "bearer"] → Doc.Located sm) ∧ (s = "digest" → occ "qop" sm ≠ []) ∧
    (s = "combo" → ∃ k v, sm = [(k, v)] ∧ (k = "oneOf" ∨ k = "allOf")) := by
  cases h with
  | oneOf h => exact ⟨by decide, fun h => absurd h (by decide), fun h => absurd h (by decide),
      fun _ => ⟨_, _, rfl, .inl rfl⟩⟩
  | allOf h => exact ⟨by decide, fun h => absurd h (by decide), fun h => absurd h (by decide),
      fun _ => ⟨_, _, rfl, .inr rfl⟩⟩
  | basic h => exact ⟨by decide, fun _ => h, fun h => absurd h (by decide), fun h => absurd h (by decide)⟩
  | apikey h => exact ⟨by decide, fun _ => h, fun h => absurd h (by decide), fun h => absurd h (by decide)⟩
  | bearer _ _ _ h => exact ⟨by decide, fun _ => h, fun h => absurd h (by decide), fun h => absurd h (by decide)⟩
  | digest hq h =>
    refine ⟨by decide, fun _ => h, fun _ e => ?_, fun h => absurd h (by decide)⟩
    obtain ⟨v, hv, -⟩ := hq
    rw [hv] at e
    cases e
  | _ => exact ⟨by decide, fun h => absurd h (by decide), fun h => absurd h (by decide), fun h => absurd h (by decide)⟩

theorem combo_understood (hn : (es.map (·.1)).Nodup) {k k' : String} (hk : k ∉ "scheme" :: Names.security)
    (hks : ∀ x, x = k ∨ x = k' ↔ x = "oneOf" ∨ x = "allOf") (hp : ∀ v, IsTexts v → Doc.Predefined "combo" [(k, v)])
    (hm : ∃ v, (Json.obj es).member k = some v ∧ IsTexts v) (hm' : (Json.obj es).member k' = none) :
    Doc.Predefined "combo" (Doc.schemeMembers es) ↔ Understood "combo" (.obj es) := by
  obtain ⟨v, hv, ht⟩ := hm
  have hc := combo_only_iff hn hk hks ⟨v, hv⟩ hm'
  constructor
  · intro h
    obtain ⟨h1, -, -, h2⟩ := predefined_facts h
    refine ⟨h1, fun h => absurd h (by decide), fun h => absurd h (by decide), fun _ => hc.1 ?_⟩
    obtain ⟨x, w, e, -⟩ := h2 rfl
    have ho := occ_scheme (es := es) hk
    rw [e, occ_member hn hv, occ_cons, occ_nil] at ho
    split at ho
    · rename_i hx; exact ⟨w, by rw [e, ← hx]⟩
    · cases ho
  · intro h
    obtain ⟨w, hw⟩ := hc.2 (h.combo rfl)
    have : (Json.obj es).member k = some w := by
      rw [member_occ, ← occ_scheme hk, hw, occ_cons, if_pos rfl]; rfl
    rw [this] at hv
    cases hv
    rw [hw]
    exact hp _ ht

theorem predefined_understood (hn : (es.map (·.1)).Nodup) {D : String → Prop} {name : String}
    (h : Scheme D name (.obj es)) : Doc.Predefined name (Doc.schemeMembers es) ↔ Understood name (.obj es) := by
  have hmay : ∀ {k : String}, k ∉ "scheme" :: Names.security → May k Text (.obj es) →
      AtMostOne k (Doc.schemeMembers es) IsText :=
    fun hk h => most_scheme hk (may_most hn h fun _ _ => str_text)
  cases h with
  | nosec => exact ⟨fun _ => ⟨by decide, fun h => absurd h (by decide), fun h => absurd h (by decide),
      fun h => absurd h (by decide)⟩, fun _ => .nosec⟩
  | auto => exact ⟨fun _ => ⟨by decide, fun h => absurd h (by decide), fun h => absurd h (by decide),
      fun h => absurd h (by decide)⟩, fun _ => .auto⟩
  | psk h => exact ⟨fun _ => ⟨by decide, fun h => absurd h (by decide), fun h => absurd h (by decide),
      fun h => absurd h (by decide)⟩, fun _ => .psk (hmay (by decide) h)⟩
  | oauth2 hf h1 h2 h3 h4 =>
    exact ⟨fun _ => ⟨by decide, fun h => absurd h (by decide), fun h => absurd h (by decide),
      fun h => absurd h (by decide)⟩, fun _ => .oauth2 (hmay (by decide) h1) (hmay (by decide) h2) (hmay (by decide) h3)
        (most_scheme (by decide) (may_most hn h4 fun _ _ => texts)) (one_scheme (by decide) ⟨_, occ_member hn hf, _, rfl⟩)⟩
  | basic h =>
    have hl := located_iff hn places_auto h
    exact ⟨fun hp => ⟨by decide, fun _ => hl.1 ((predefined_facts hp).2.1 (by decide)), fun h => absurd h (by decide),
      fun h => absurd h (by decide)⟩, fun h => .basic (hl.2 (h.place (by decide)))⟩
  | apikey h =>
    have hl := located_iff hn uri_places_auto h
    exact ⟨fun hp => ⟨by decide, fun _ => hl.1 ((predefined_facts hp).2.1 (by decide)), fun h => absurd h (by decide),
      fun h => absurd h (by decide)⟩, fun h => .apikey (hl.2 (h.place (by decide)))⟩
  | digest h hq =>
    have hl := located_iff hn places_auto h
    constructor
    · intro hp
      refine ⟨by decide, fun _ => hl.1 ((predefined_facts hp).2.1 (by decide)), fun _ e => ?_, fun h => absurd h (by decide)⟩
      refine (predefined_facts hp).2.2.1 rfl ?_
      rw [occ_scheme (by decide)]
      rw [member_occ] at e
      exact List.head?_eq_none_iff.1 e
    · intro h
      refine .digest (one_scheme (by decide) ?_) (hl.2 (h.place (by decide)))
      cases e : (Json.obj es).member "qop" with
      | none => exact absurd e (h.qop rfl)
      | some w =>
        obtain ⟨s, rfl, hs⟩ := hq w e
        exact ⟨_, occ_member hn e, s, hs, .inl rfl⟩
  | bearer h h1 h2 h3 =>
    have hl := located_iff hn places_auto h
    exact ⟨fun hp => ⟨by decide, fun _ => hl.1 ((predefined_facts hp).2.1 (by decide)), fun h => absurd h (by decide),
      fun h => absurd h (by decide)⟩,
      fun h => .bearer (hmay (by decide) h1) (given_scheme (by decide) (may_given hn h2 fun _ _ => str_text))
        (given_scheme (by decide) (may_given hn h3 fun _ _ => str_text)) (hl.2 (h.place (by decide)))⟩
  | oneOf h h' =>
    obtain ⟨v, hv, l, rfl, -, h⟩ := h
    exact combo_understood hn (by decide) (fun _ => .rfl) (fun _ => .oneOf) ⟨_, hv, .inr (array_texts h)⟩ h'
  | allOf h h' =>
    obtain ⟨v, hv, l, rfl, -, h⟩ := h
    exact combo_understood hn (by decide) (fun _ => or_comm) (fun _ => .allOf) ⟨_, hv, .inr (array_texts h)⟩ h'
  | other h => exact ⟨fun hp => absurd (predefined_facts hp).1 h, fun hp => absurd hp.predefined h⟩

end Conform
end Wot
