import Verif.Lemmas.BuildableBuilt
import Verif.Props.Demo
/-
C63: which Things can be built.
-/
namespace Wot

variable {X : ExtTypes} {env : Env}

/-- C63: the Things some sequence of calls builds are exactly those that keep the rules of `Buildable`. -/
theorem C63_things (env : Env) (t : Thing X) :
    (∃ title h b, Reachable X title h b ∧ b.build env = .ok t) ↔ Buildable env t :=
  ⟨fun ⟨_, _, _, hr, hb⟩ => hr.buildable hb, fun h => h.reachable⟩

/-- C63: which Things can be built does not depend on the order in which maps are iterated. -/
theorem C63_order {env env' : Env} (he : env.langParse = env'.langParse) (t : Thing X) :
    (∃ title h b, Reachable X title h b ∧ b.build env = .ok t) ↔
      ∃ title h b, Reachable X title h b ∧ b.build env' = .ok t := by
  have key : ∀ {env env' : Env}, env.langParse = env'.langParse → Buildable env t → Buildable env' t := by
    intro env env' he h
    have tag : ∀ {k}, IsTag env k → IsTag env' k := fun hk => by unfold IsTag at hk ⊢; rw [← he]; exact hk
    have made : ∀ {m : MultiLanguage}, m.Made env → m.Made env' := fun h =>
      ⟨h.sorted, fun k hk => tag (h.tags k hk)⟩
    exact
      { h with
        translations := fun m hm => made (h.translations m hm)
        eachLink := fun ls hls l hl =>
          ⟨(h.eachLink ls hls l hl).sizes, (h.eachLink ls hls l hl).hreflang, fun ts hts k hk =>
            tag ((h.eachLink ls hls l hl).tags ts hts k hk)⟩
        eachSchema := fun p s x hs hx =>
          { h.eachSchema p s x hs hx with
            titles := fun m hm => made ((h.eachSchema p s x hs hx).titles m hm)
            descriptions := fun m hm => made ((h.eachSchema p s x hs hx).descriptions m hm) } }
  rw [C63_things, C63_things]
  exact ⟨key he, key he.symm⟩

/-- C63: the forms the form builders make, exactly. -/
theorem C63_forms (f : Form X) : (∃ b : FormBuilder X, FormReach X b ∧ b.result = f) ↔ FormMade f :=
  ⟨fun ⟨_, hb, e⟩ => e ▸ made_form hb, fun h => ⟨_, formReach_unForm h, result_unForm h⟩⟩

/-- C63: the security schemes the builders make, with any name, exactly. -/
theorem C63_schemes (s : SecurityScheme) (n : String) (r : Bool) :
    (∃ calls b, SecuritySchemeBuilder.ofCalls calls = some b ∧ securityName b = n ∧ b.required = r ∧
      (∀ k, KeyOf b.descriptions k → ∃ tag, env.langParse k = some tag) ∧ schemeResult env b.scheme = s) ↔
    SchemeMade s ∧ ∀ m, s.descriptions = some m → m.Made env := by
  constructor
  · rintro ⟨calls, b, hc, -, -, hk, rfl⟩
    refine ⟨scheme_made hc, fun m hm => ?_⟩
    obtain ⟨u, hu, rfl⟩ := Option.map_eq_some_iff.1 hm
    exact made_langResult fun k hk' => hk k ⟨u, hu, hk'⟩
  · rintro ⟨h, hd⟩
    obtain ⟨calls, hc⟩ := scheme_calls (env := env) h n r
    refine ⟨calls, _, hc, rfl, rfl, ?_, schemeResult_unScheme hd n r⟩
    rintro k ⟨u, hu, hk⟩
    obtain ⟨m, hm, rfl⟩ := Option.map_eq_some_iff.1 hu
    exact unLang_keys (hd m hm) hk

/-- C63: the links the builders make, exactly. -/
theorem C63_links (l : Link) :
    (∃ pre href post, ((UncheckedLink.ofCalls pre href post).sizes ≠ none →
        (UncheckedLink.ofCalls pre href post).rel = some "icon") ∧
      (∀ k ∈ (UncheckedLink.ofCalls pre href post).hreflang, ∃ tag, env.langParse k = some tag) ∧
      linkResult env (UncheckedLink.ofCalls pre href post) = l) ↔ LinkMade env l := by
  constructor
  · rintro ⟨pre, href, post, h1, h2, rfl⟩
    exact made_link h1 h2
  · intro h
    obtain ⟨post, e⟩ := link_calls (unLink env l)
    exact ⟨[], _, post, by rw [e]; exact h.sizes, by rw [e]; exact fun k hk => unLink_keys h hk,
      by rw [e]; exact linkResult_unLink h⟩

/-- C63: the data schemas the builders make, other than those of properties, exactly: all nested ones have
the right shape. -/
theorem C63_schemas (s : DS X) :
    (∃ u : UDS X, SchemaBuilt u ∧ (∀ k, SchemaKey u k → ∃ tag, env.langParse k = some tag) ∧
      u.mapLang (langResult env) = s) ↔
    ∀ x, Within x s → SchemaMade env x ∧ Uninformed x := by
  constructor
  · rintro ⟨u, hu, hk, rfl⟩ x hx
    obtain ⟨y, hy, rfl⟩ := within_mapLang.1 hx
    exact ⟨(hu.within hy).made.made fun k hk' => hk k ⟨y, hy, hk'⟩, (hu.within hy).made.uninformed⟩
  · intro h
    exact ⟨_, schemaBuilt_unLang h, fun k hk => schemaKey_unLang (fun x hx => (h x hx).1) hk,
      mapLang_unLang fun x hx => (h x hx).1⟩

/-- C63: the id, title, description, version, dates, support, base and the extension data can be anything:
changing them in a Thing that can be built gives one that can be built. -/
theorem C63_free {t t' : Thing X} (he : t.SameRestricted t')
    (h : ∃ title h b, Reachable X title h b ∧ b.build env = .ok t) :
    ∃ title h b, Reachable X title h b ∧ b.build env = .ok t' := by
  rw [C63_things] at h ⊢
  obtain ⟨e1, e2, e3, e4, e5, e6, e7, e8, e9, e10, e11, e12, e13, e14⟩ := he
  have hI : ∀ {i}, t'.HasInteraction i → t.HasInteraction i := fun {i} h => by
    cases h with
    | property h1 h2 => exact .property (e5 ▸ h1) h2
    | action h1 h2 => exact .action (e6 ▸ h1) h2
    | event h1 h2 => exact .event (e7 ▸ h1) h2
  have hF : ∀ {c f}, t'.HasForm c f → t.HasForm c f := fun {c f} h => by
    cases h with
    | thing h1 h2 => exact .thing (e9 ▸ h1) h2
    | property h1 h2 h3 => exact .property (e5 ▸ h1) h2 h3
    | action h1 h2 h3 => exact .action (e6 ▸ h1) h2 h3
    | event h1 h2 h3 => exact .event (e7 ▸ h1) h2 h3
  have hS : ∀ {p s}, t'.HasSchema p s → t.HasSchema p s := fun {p s} h => by
    cases h with
    | property h1 h2 => exact .property (e5 ▸ h1) h2
    | input h1 h2 h3 => exact .input (e6 ▸ h1) h2 h3
    | output h1 h2 h3 => exact .output (e6 ▸ h1) h2 h3
    | subscription h1 h2 h3 => exact .subscription (e7 ▸ h1) h2 h3
    | data h1 h2 h3 => exact .data (e7 ▸ h1) h2 h3
    | cancellation h1 h2 h3 => exact .cancellation (e7 ▸ h1) h2 h3
    | dataResponse h1 h2 h3 => exact .dataResponse (e7 ▸ h1) h2 h3
    | uriVariable h1 h2 => exact .uriVariable (e10 ▸ h1) h2
    | propertyUriVariable h1 h2 h3 h4 => exact .propertyUriVariable (e5 ▸ h1) h2 h3 h4
    | actionUriVariable h1 h2 h3 h4 => exact .actionUriVariable (e6 ▸ h1) h2 h3 h4
    | eventUriVariable h1 h2 h3 h4 => exact .eventUriVariable (e7 ▸ h1) h2 h3 h4
    | schemaDefinition h1 h2 => exact .schemaDefinition (e14 ▸ h1) h2
  have hT : ∀ {m}, t'.HasTranslations m → t.HasTranslations m := fun {m} h => by
    cases h with
    | titles h1 => exact .titles (e3 ▸ h1)
    | descriptions h1 => exact .descriptions (e4 ▸ h1)
    | security h1 h2 => exact .security (e12 ▸ h1) h2
    | interactionTitles h1 h2 => exact .interactionTitles (hI h1) h2
    | interactionDescriptions h1 h2 => exact .interactionDescriptions (hI h1) h2
    | schemaTitles h1 h2 h3 => exact .schemaTitles (hS h1) h2 h3
    | schemaDescriptions h1 h2 h3 => exact .schemaDescriptions (hS h1) h2 h3
  have hD : ∀ {n}, t.Defines n → t'.Defines n := fun h => by unfold Thing.Defines; rw [e12]; exact h
  have hL : ∀ {n}, t.Declares n → t'.Declares n := fun h => by unfold Thing.Declares; rw [e14]; exact h
  exact ⟨e1 ▸ h.context, e2 ▸ h.attype, e13 ▸ h.profile, e8 ▸ h.links, e9 ▸ h.forms, e5 ▸ h.properties,
    e6 ▸ h.actions, e7 ▸ h.events, e10 ▸ h.uriVariables, e14 ▸ h.schemaDefinitions,
    fun i hi => h.interactions i (hI hi), e12 ▸ h.securityDefinitions, fun m hm => h.translations m (hT hm),
    e8 ▸ h.eachLink, fun c f hf => have g := h.eachForm c f (hF hf); ⟨g.1, g.2.1, fun ns e n hn => hD (g.2.2 ns e n hn)⟩,
    fun f hf => have g := h.thingForms f (hF hf); ⟨g.1, fun rs e r hr n hn => hL (g.2 rs e r hr n hn)⟩,
    ⟨e11 ▸ h.security.1, fun n hn => hD (h.security.2 n (e11 ▸ hn))⟩,
    fun n s hs => have g := h.eachScheme n s (e12 ▸ hs); ⟨g.1, fun m hm => hD (g.2 m hm)⟩,
    fun p s x hs hx => h.eachSchema p s x (hS hs) hx, fun p s hs => h.uninformed p s (hS hs),
    fun p s hp hs => h.ranges p s hp (hS hs), fun s hs => h.uriVariableTypes s (hS hs), e5 ▸ h.eachProperty⟩

/-! ### Examples -/

/-- The Thing of the examples, with a context, translations, links, forms, security schemes, a property, an
action and an event. -/
example : Buildable Demo.env Demo.thing := (C63_things _ _).1 ⟨_, _, _, Demo.reachable, Demo.built⟩

/-- It can be built without its id and with another title, whatever the order of iteration. -/
example : ∃ title h b, Reachable Demo.X title h b ∧
    b.build Demo.envRev = .ok { Demo.thing with id := none, title := "Other", base := some "http://a" } :=
  (C63_order (env := Demo.env) (env' := Demo.envRev) rfl _).1
    (C63_free (t := Demo.thing) (t' := { Demo.thing with id := none, title := "Other", base := some "http://a" }) ⟨rfl, rfl, rfl, rfl, rfl, rfl, rfl, rfl, rfl, rfl, rfl, rfl, rfl, rfl⟩
      ⟨_, _, _, Demo.reachable, Demo.built⟩)

/-- It cannot be built with an empty list of types, or with security that is not defined. -/
example : (¬ ∃ title h b, Reachable Demo.X title h b ∧
      b.build Demo.env = .ok { Demo.thing with attype := some [] }) ∧
    ¬ ∃ title h b, Reachable Demo.X title h b ∧
      b.build Demo.env = .ok { Demo.thing with security := ["nosuch"] } := by
  rw [C63_things, C63_things]
  refine ⟨fun h => h.attype rfl, fun h => ?_⟩
  have := h.security.2 "nosuch" (by simp)
  exact absurd this (by
    unfold Thing.Defines
    show ¬ "nosuch" ∈ HMap.keys Demo.thing.securityDefinitions
    decide +kernel)

/-- A data schema that has a title and nothing else cannot be made with the builders. -/
example : ¬ ∃ u : UDS Demo.X, SchemaBuilt u ∧ (∀ k, SchemaKey u k → ∃ tag, Demo.env.langParse k = some tag) ∧
    u.mapLang (langResult Demo.env) = .mk { title := some "any", other := () } none none := by
  rw [C63_schemas]
  intro h
  exact nomatch ((h _ (.self _)).2 ⟨rfl, rfl, rfl, rfl⟩).2.1

/-- One of an object with a string and an integer can. -/
example : ∀ x, Within x (Demo.objectSchema.mapLang (langResult Demo.env)) → SchemaMade Demo.env x ∧ Uninformed x :=
  (C63_schemas (X := Demo.X) _).1 ⟨_, Demo.objectSchema_built, fun k _ => ⟨k, rfl⟩, rfl⟩

/-- A form with its operations and responses can be made, one with an empty list of scopes cannot. -/
example : (∃ b : FormBuilder Demo.X, FormReach Demo.X b ∧ b.result =
      { op := .custom [.readAllProperties], href := "/all", contentType := none, contentCoding := none,
        subprotocol := none, security := some ["basic"], scopes := none, response := none,
        additionalResponses := some [{ success := true }], other := () }) ∧
    ¬ ∃ b : FormBuilder Demo.X, FormReach Demo.X b ∧ b.result.scopes = some [] := by
  refine ⟨(C63_forms _).2 ⟨nofun, nofun, nofun, nofun⟩, ?_⟩
  rintro ⟨b, hb, e⟩
  exact ((C63_forms _).1 ⟨b, hb, rfl⟩).scopes e

/-- A link with sizes is one of an icon. -/
example : LinkMade Demo.env ⟨"/i", none, some "icon", none, some "16x16", some ["en"]⟩ ∧
    ¬ LinkMade Demo.env ⟨"/i", none, none, none, some "16x16", none⟩ :=
  ⟨⟨fun _ => rfl, nofun, fun _ e _ h => by cases e; exact ⟨_, rfl⟩⟩, fun h => nomatch h.sizes nofun⟩

/-- A scheme for OAuth 2 with scopes can be made, a pre-shared key with an identity cannot. -/
example : SchemeMade ⟨none, none, none, none, .known (.oauth2 ⟨none, none, none, some ["read"], "code"⟩)⟩ ∧
    ¬ SchemeMade ⟨none, none, none, none, .known (.psk { identity := some "id" })⟩ :=
  ⟨⟨nofun, nofun, fun o e => by cases e; exact nofun⟩, fun h => nomatch h.psk _ rfl⟩

end Wot
