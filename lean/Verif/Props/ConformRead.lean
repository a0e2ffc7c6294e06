import Verif.Lemmas.ConformRead
import Verif.Props.Documents
import Verif.Props.DemoStore
/-
C77: Thing Descriptions as the W3C Recommendation defines them are read.

`Conform.Thing` (Spec/Conform) says when a JSON value is a Thing Description. The library has one member of its own in
events, `data_response`, which the Recommendation does not define; a Thing Description that happens to have such a
member may not be read. Others all are. Security definitions are read as custom schemes in some cases.
-/
namespace Wot

variable {X : ExtTypes} {C : ExtCodecs X} {env : SerdeEnv} {F : Conform.Formats} {d : Json}

/-- A document that conforms to the Recommendation, with language tags and instants that can be read, is read if and only
if the members `data_response` of its events, if there are any, are `null` or data schemas. The full statement would do
without this; it is false, see `C77_data_response`. -/
theorem C77_read_partial (hC : C.Lenient) (hF : F.ReadBy env) (hd : d.NoDup) (h : Conform.Thing F d) :
    (∃ t, fromText C env d = some t) ↔ ∀ e, d.Entry "events" e → ∀ w, e.member "data_response" = some w →
      w = .null ∨ Doc.DS env C w :=
  (C51_thing d).trans (Conform.thing_of hC hF hd h)

/-- If there are no such members, it is read. -/
theorem C77_read (hC : C.Lenient) (hF : F.ReadBy env) (hd : d.NoDup) (h : Conform.Thing F d)
    (he : ∀ e, d.Entry "events" e → e.member "data_response" = none) : ∃ t, fromText C env d = some t :=
  (C77_read_partial hC hF hd h).2 fun e hv w hw => by rw [he e hv] at hw; cases hw

/-- The same for its parts. -/
theorem C77_schema (hC : C.Lenient) (hF : F.ReadBy env) (hd : d.NoDup) (h : Conform.Schema F d) :
    ∃ s, deDS C env d = some s := (C51_schema d).2 (Conform.schema_of hC.dataSchema hF h hd)

theorem C77_property (hC : C.Lenient) (hF : F.ReadBy env) (hd : d.NoDup) {D S : String → Prop}
    (h : Conform.Property F D S d) : ∃ p, deProperty C env d = some p := (C51_property d).2 (Conform.property_of hC hF hd h)

theorem C77_action (hC : C.Lenient) (hF : F.ReadBy env) (hd : d.NoDup) {D S : String → Prop}
    (h : Conform.Action F D S d) : ∃ a, deAction C env d = some a := (C51_action d).2 (Conform.action_of hC hF hd h)

theorem C77_form (hC : C.Lenient) (hd : d.NoDup) {ctx : FormContext} {D S : String → Prop}
    (h : Conform.Form ctx D S d) : ∃ f, deForm C d = some f := (C51_form d).2 (Conform.form_of hC hd h)

theorem C77_link (hF : F.ReadBy env) (hd : d.NoDup) (h : Conform.Link F d) : ∃ l, deLink env d = some l :=
  (C51_link d).2 (Conform.link_of hF hd h)

theorem C77_security (hF : F.ReadBy env) (hd : d.NoDup) {D : String → Prop} (h : Conform.Security F D d) :
    ∃ s, deSecurity env d = some s := (C51_security d).2 (Conform.security_of hF hd h)

/-- A security definition that conforms is read as one of a predefined scheme if and only if the library understands it.
Otherwise it is read as that of a custom scheme. -/
theorem C77_scheme (hd : d.NoDup) {D : String → Prop} (h : Conform.Security F D d) {s : SecurityScheme}
    (hs : deSecurity env d = some s) : ∃ name, d.member "scheme" = some (.str name) ∧
      ((∃ k, s.subtype = .known k) ↔ Conform.Understood name d) ∧
      ((∃ j, s.subtype = .unknown name j) ↔ ¬ Conform.Understood name d) := by
  obtain ⟨es, rfl⟩ := h.object
  obtain ⟨w, hw, name, rfl, h⟩ := h.scheme
  have hu := Conform.predefined_understood hd.1 h
  have ho := occ_member hd.1 hw
  refine ⟨name, hw, ?_⟩
  rw [← hu]
  rcases C51_scheme hs with ⟨⟨k, hk⟩, n, v, hv, hn, hp⟩ | ⟨n, hv, hn, hu⟩
  · rw [ho] at hv
    cases hv
    have hn : n = name := by
      rcases hn with hn | ⟨_, hn, -⟩ <;> cases hn
      rfl
    subst hn
    refine ⟨⟨fun _ => hp, fun _ => ⟨k, hk⟩⟩, ?_, fun h => absurd hp h⟩
    rintro ⟨j, hj⟩
    rw [hk] at hj
    cases hj
  · rw [ho] at hv
    cases hv
    refine ⟨⟨?_, fun h => absurd h hn⟩, fun _ => hn, fun _ => ⟨_, hu⟩⟩
    rintro ⟨k, hk⟩
    rw [hk] at hu
    cases hu

/-! ### Examples -/

namespace Demo

theorem nil_lenient : ExtCodecs.nil.Lenient := by
  constructor <;> exact fun _ => ⟨_, rfl⟩

/-- Every string counts as a language tag, and none as an instant. -/
def readable : Conform.Formats := ⟨fun _ => True, fun _ => False⟩

theorem readable_read : readable.ReadBy senv := ⟨fun _ _ => ⟨_, rfl⟩, fun _ h => h.elim⟩

theorem may_absent {v : Json} {k : String} {P : Json → Prop} (h : v.member k = none) : Conform.May k P v := by
  intro w e; rw [h] at e; cases e

/-- A Thing Description with the event `e` and one security definition. -/
def eventDocument (e sec : Json) : Json :=
  .obj [("@context", .str "https://www.w3.org/2022/wot/td/v1.1"), ("title", .str "Lamp"), ("security", .str "s"),
    ("securityDefinitions", .obj [("s", sec)]), ("events", .obj [("hot", e)])]

theorem eventDocument_conform {e sec : Json} (he : Conform.Event readable (fun n => n = "s") (fun _ => False) e)
    (hs : Conform.Security readable (fun n => n = "s") sec) : Conform.Thing readable (eventDocument e sec) := by
  have hD : Conform.Defined "securityDefinitions" (eventDocument e sec) = fun n => n = "s" := by
    funext n
    refine propext ⟨?_, ?_⟩
    · rintro ⟨o, ho, h⟩
      cases ho
      simp only [Json.member, HMap.get?_cons] at h
      split at h
      · assumption
      · exact absurd rfl h
    · rintro rfl
      exact ⟨_, rfl, nofun⟩
  have hS : Conform.Defined "schemaDefinitions" (eventDocument e sec) = fun _ => False := by
    funext n
    refine propext ⟨?_, False.elim⟩
    rintro ⟨o, ho, h⟩
    cases ho
  have one : ∀ {P : Json → Prop} {n : String} {w : Json}, P w → Conform.Map P (.obj [(n, w)]) := by
    intro P n w h
    refine ⟨⟨_, rfl⟩, fun k x hx => ?_⟩
    simp only [Json.member, HMap.get?_cons] at hx
    split at hx
    · cases hx; exact h
    · cases hx
  constructor
  case object => exact ⟨_, rfl⟩
  case context => exact ⟨_, rfl, .single⟩
  case title => exact ⟨_, rfl, _, rfl, trivial⟩
  case info =>
    refine ⟨may_absent rfl, ?_, may_absent rfl, may_absent rfl, may_absent rfl⟩
    intro w h
    cases h
    exact ⟨_, rfl, trivial⟩
  case security =>
    rw [hD]
    exact ⟨_, rfl, .inl ⟨_, rfl, rfl⟩⟩
  case securityDefinitions =>
    rw [hD]
    exact ⟨_, rfl, one hs⟩
  case events =>
    rw [hD, hS]
    intro w h
    cases h
    exact one he
  all_goals exact may_absent rfl

theorem eventDocument_noDup {e sec : Json} (he : e.NoDup) (hs : sec.NoDup) : (eventDocument e sec).NoDup := by
  simp [Json.NoDup, Json.NoDupMembers, eventDocument, he, hs]

/-- An event with the member `data_response`. -/
def respond (w : Json) : Json := .obj [("forms", .arr [.obj [("href", .str "/hot")]]), ("data_response", w)]

theorem form_conform {D S : String → Prop} : Conform.Form .event D S (.obj [("href", .str "/hot")]) := by
  constructor
  case object => exact ⟨_, rfl⟩
  case href => exact ⟨_, rfl, _, rfl, trivial⟩
  case opGiven => nofun
  all_goals exact may_absent rfl

theorem respond_conform {D S : String → Prop} {w : Json} : Conform.Event readable D S (respond w) := by
  refine ⟨⟨⟨_, rfl⟩, ⟨may_absent rfl, may_absent rfl, may_absent rfl, may_absent rfl, may_absent rfl⟩, ?_,
    may_absent rfl⟩, may_absent rfl, may_absent rfl, may_absent rfl, may_absent rfl⟩
  refine ⟨_, rfl, _, rfl, Nat.le_refl 1, fun w hw => ?_⟩
  cases List.mem_singleton.1 hw
  exact form_conform

/-- A security definition with these members, besides `scheme`. -/
def definition (scheme : String) (m : Members) : Json := .obj (("scheme", .str scheme) :: m)

theorem definition_conform {D : String → Prop} {scheme : String} {m : Members} (hm : ∀ k ∈ Names.security, HMap.get? m k = none)
    (h : Conform.Scheme D scheme (definition scheme m)) : Conform.Security readable D (definition scheme m) := by
  have key : ∀ k ∈ Names.security, ∀ P, Conform.May k P (definition scheme m) := by
    intro k hk P
    refine may_absent ?_
    simp only [definition, Json.member, HMap.get?_cons]
    rw [if_neg (by rintro rfl; revert hk; decide), hm k hk]
  exact ⟨⟨_, rfl⟩, key _ (by decide) _, key _ (by decide) _, key _ (by decide) _, key _ (by decide) _,
    ⟨_, by simp [definition, Json.member, HMap.get?_cons], _, rfl, h⟩⟩

theorem nosec_conform {D : String → Prop} : Conform.Security readable D (definition "nosec" []) :=
  definition_conform (fun _ _ => rfl) .nosec

end Demo

/-- There are documents that conform, and are read. -/
example : ∃ d t, Conform.Thing Demo.readable d ∧ fromText .nil Demo.senv d = some t := by
  have hc := Demo.eventDocument_conform (Demo.respond_conform (w := .null)) Demo.nosec_conform
  obtain ⟨t, ht⟩ := (C77_read_partial (C := .nil) Demo.nil_lenient Demo.readable_read (Demo.eventDocument_noDup
    (by simp [Json.NoDup, Json.NoDupMembers, Json.NoDupList, Demo.respond])
    (by simp [Json.NoDup, Json.NoDupMembers, Demo.definition])) hc).2 (by
      rintro e ⟨o, n, ho, hn⟩ w hw
      cases ho
      simp only [Json.member, HMap.get?_cons] at hn
      split at hn <;> cases hn
      cases hw
      exact .inl rfl)
  exact ⟨_, t, hc, ht⟩

/-- A document that conforms and is not read: an event has a member that the Recommendation does not know. -/
theorem C77_data_response : ∃ d, d.NoDup ∧ Conform.Thing Demo.readable d ∧ fromText .nil Demo.senv d = none :=
  ⟨_, Demo.eventDocument_noDup (by simp [Json.NoDup, Json.NoDupMembers, Json.NoDupList, Demo.respond])
    (by simp [Json.NoDup, Json.NoDupMembers, Demo.definition]),
    Demo.eventDocument_conform (Demo.respond_conform (w := .str "ok")) Demo.nosec_conform, rfl⟩

/-- A security definition that conforms and is read as one of a custom scheme: the place of the password is `auto`. -/
theorem C77_auto_place : ∃ d, (∀ D, Conform.Security Demo.readable D d) ∧ d.member "scheme" = some (.str "basic") ∧
    ∃ s j, deSecurity Demo.senv d = some s ∧ s.subtype = .unknown "basic" j := by
  refine ⟨Demo.definition "basic" [("in", .str "auto")], fun D => Demo.definition_conform (by decide) (.basic ⟨?_, ?_⟩), rfl,
    _, _, rfl, rfl⟩
  · intro w h
    cases h
    exact ⟨_, rfl, by decide⟩
  · exact Demo.may_absent rfl

/-- Another one: the quality of protection is not given, so that the default applies. -/
theorem C77_no_qop : ∃ d, (∀ D, Conform.Security Demo.readable D d) ∧ d.member "scheme" = some (.str "digest") ∧
    ∃ s j, deSecurity Demo.senv d = some s ∧ s.subtype = .unknown "digest" j :=
  ⟨Demo.definition "digest" [], fun D => Demo.definition_conform (by decide)
    (.digest ⟨Demo.may_absent rfl, Demo.may_absent rfl⟩ (Demo.may_absent rfl)), rfl, _, _, rfl, rfl⟩

/-- Another one: a combination has a member that is not of the vocabulary. -/
theorem C77_combo_members : ∃ d, Conform.Security Demo.readable (fun n => n ∈ ["a", "b"]) d ∧
    d.member "scheme" = some (.str "combo") ∧
    ∃ s j, deSecurity Demo.senv d = some s ∧ s.subtype = .unknown "combo" j := by
  refine ⟨Demo.definition "combo" [("oneOf", .arr [.str "a", .str "b"]), ("ex:note", .str "either")],
    Demo.definition_conform (by decide) (.oneOf ⟨_, rfl, _, rfl, Nat.le_refl 2, ?_⟩ rfl), rfl, _, _, rfl, rfl⟩
  intro w hw
  simp only [List.mem_cons, List.not_mem_nil, or_false] at hw
  rcases hw with rfl | rfl <;> exact ⟨_, rfl, by decide⟩

/-- A definition that is understood. -/
example : Conform.Understood "digest" (Demo.definition "digest" [("qop", .str "auth")]) :=
  ⟨by decide, fun _ => nofun, fun _ => nofun, fun h => absurd h (by decide)⟩

end Wot
