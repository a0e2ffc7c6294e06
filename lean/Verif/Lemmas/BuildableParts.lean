import Verif.Lemmas.BuildableLang
/-
The parts of a Thing other than data schemas, made by some calls.
-/
namespace Wot

variable {X : ExtTypes} {env : Env}

/-! ### Forms -/

theorem additional_calls (r : AdditionalResponse) : ∃ calls, AdditionalResponse.ofCalls calls = r := by
  obtain ⟨s, c, n⟩ := r
  refine ⟨(if s then [.success] else []) ++ c.toList.map .contentType ++ n.toList.map .schema, ?_⟩
  cases s <;> cases c <;> cases n <;> rfl

/-- A form builder with the members of a form. -/
def unForm (f : Form X) : FormBuilder X :=
  { op := f.op, href := f.href, contentType := f.contentType, contentCoding := f.contentCoding,
    subprotocol := f.subprotocol, security := f.security, scopes := f.scopes, response := f.response,
    additionalResponses := f.additionalResponses.getD [], other := f.other }

section
variable {H F : Type} {b : FormBuilderF X H F}

theorem formReach_ops (l : List FormOperation) (ops : List FormOperation) (h : FormReach X b)
    (hb : b.op = .custom ops) : FormReach X { b with op := .custom (ops ++ l) } := by
  induction l generalizing b ops with
  | nil =>
    rw [List.append_nil, ← hb]; exact h
  | cons o l ih =>
    have := ih (b := b.apply (.op o)) (ops ++ [o]) (.call _ h) (by simp [FormBuilderF.apply, hb, FormOps.push])
    simpa [FormBuilderF.apply] using this

theorem formReach_security (l : List String) (h : FormReach X b) (hl : l ≠ []) :
    FormReach X { b with security := some (b.security.getD [] ++ l) } := by
  induction l generalizing b with
  | nil => exact absurd rfl hl
  | cons v l ih =>
    have h1 : FormReach X (b.apply (.security v)) := .call _ h
    by_cases hl : l = []
    · subst hl; exact h1
    · have := ih h1 hl
      simpa [FormBuilderF.apply, optPush] using this

theorem formReach_scopes (l : List String) (h : FormReach X b) (hl : l ≠ []) :
    FormReach X { b with scopes := some (b.scopes.getD [] ++ l) } := by
  induction l generalizing b with
  | nil => exact absurd rfl hl
  | cons v l ih =>
    have h1 : FormReach X (b.apply (.scope v)) := .call _ h
    by_cases hl : l = []
    · subst hl; exact h1
    · have := ih h1 hl
      simpa [FormBuilderF.apply, optPush] using this

theorem formReach_additional (l : List AdditionalResponse) (h : FormReach X b) :
    FormReach X { b with additionalResponses := b.additionalResponses ++ l } := by
  induction l generalizing b with
  | nil => rw [List.append_nil]; exact h
  | cons r l ih =>
    obtain ⟨calls, rfl⟩ := additional_calls r
    have := ih (b := b.apply (.additionalResponse calls)) (.call _ h)
    simpa [FormBuilderF.apply] using this

end

theorem formReach_unForm {f : Form X} (h : FormMade f) : FormReach X (unForm f) := by
  obtain ⟨op, href, ct, cc, sp, sec, sco, resp, add, other⟩ := f
  obtain ⟨h1, h2, h3, h4⟩ := h
  have r0 : FormReach X (FormBuilderF.mk (X := X) .default href none none none none none none [] other) :=
    .href href (.new other)
  have r1 : FormReach X (FormBuilderF.mk (X := X) .default href ct none none none none none [] other) := by
    cases ct with
    | none => exact r0
    | some v => exact .call (.contentType v) r0
  have r2 : FormReach X (FormBuilderF.mk (X := X) .default href ct cc none none none none [] other) := by
    cases cc with
    | none => exact r1
    | some v => exact .call (.contentCoding v) r1
  have r3 : FormReach X (FormBuilderF.mk (X := X) .default href ct cc sp none none none [] other) := by
    cases sp with
    | none => exact r2
    | some v => exact .call (.subprotocol v) r2
  have r4 : FormReach X (FormBuilderF.mk (X := X) .default href ct cc sp none none resp [] other) := by
    cases resp with
    | none => exact r3
    | some v => exact .call (.response v.contentType v.other) r3
  have r5 : FormReach X (FormBuilderF.mk (X := X) op href ct cc sp none none resp [] other) := by
    rcases op with _ | (_ | ⟨o, l⟩)
    · exact r4
    · exact absurd rfl h1
    · exact formReach_ops l [o] (.call (.op o) r4) rfl
  have r6 : FormReach X (FormBuilderF.mk (X := X) op href ct cc sp sec none resp [] other) := by
    rcases sec with _ | l
    · exact r5
    · exact formReach_security l r5 (fun e => h2 (by simp [e]))
  have r7 : FormReach X (FormBuilderF.mk (X := X) op href ct cc sp sec sco resp [] other) := by
    rcases sco with _ | l
    · exact r6
    · exact formReach_scopes l r6 (fun e => h3 (by simp [e]))
  exact formReach_additional (add.getD []) r7

theorem result_unForm {f : Form X} (h : FormMade f) : (unForm f).result = f := by
  obtain ⟨op, href, ct, cc, sp, sec, sco, resp, add, other⟩ := f
  have := h.additionalResponses
  rcases add with _ | (_ | ⟨r, l⟩)
  · rfl
  · exact absurd rfl this
  · rfl

theorem made_form {f : FormBuilder X} (h : FormReach X f) : FormMade f.result := by
  obtain ⟨h1, h2, h3⟩ := h.facts
  refine ⟨h1, h2, h3, ?_⟩
  unfold FormBuilder.result
  split
  · exact nofun
  · rename_i hne
    exact fun e => hne (Option.some.inj e)

/-! ### Links -/

/-- A link builder for a link. -/
noncomputable def unLink (env : Env) (l : Link) : UncheckedLink :=
  { href := l.href, ty := l.ty, rel := l.rel, anchor := l.anchor, sizes := l.sizes,
    hreflang := (l.hreflang.getD []).map (untag env) }

theorem foldl_hreflang (ts : List String) (l : UncheckedLink) :
    (ts.map LinkOp.hreflang).foldl UncheckedLink.apply l = { l with hreflang := l.hreflang ++ ts } := by
  induction ts generalizing l with
  | nil => simp
  | cons t ts ih => rw [List.map_cons, List.foldl_cons, ih]; simp [UncheckedLink.apply]

theorem link_calls (l : UncheckedLink) : ∃ post, UncheckedLink.ofCalls [] l.href post = l := by
  obtain ⟨href, ty, rel, an, sz, hl⟩ := l
  refine ⟨ty.toList.map .ty ++ rel.toList.map .rel ++ an.toList.map .anchor ++ sz.toList.map .sizes ++
    hl.map .hreflang, ?_⟩
  unfold UncheckedLink.ofCalls
  rw [List.foldl_append, foldl_hreflang]
  cases ty <;> cases rel <;> cases an <;> cases sz <;> rfl

theorem linkResult_unLink {l : Link} (h : LinkMade env l) : linkResult env (unLink env l) = l := by
  obtain ⟨href, ty, rel, an, sz, hl⟩ := l
  have h1 := h.hreflang
  have h2 := h.tags
  rcases hl with _ | (_ | ⟨t, ts⟩)
  · rfl
  · exact absurd rfl h1
  · unfold linkResult unLink
    simp only [Option.getD_some, List.map_map]
    rw [if_neg (by simp)]
    congr 2
    refine (List.map_congr_left fun tag htag => ?_).trans (List.map_id _)
    simp [parse_untag (h2 _ rfl tag htag)]

theorem unLink_keys {l : Link} (h : LinkMade env l) {k : String} (hk : k ∈ (unLink env l).hreflang) :
    ∃ tag, env.langParse k = some tag := by
  obtain ⟨tag, htag, rfl⟩ := List.mem_map.1 hk
  have h2 := h.tags
  cases e : l.hreflang with
  | none => rw [e] at htag; cases htag
  | some ts => rw [e] at htag; exact ⟨tag, parse_untag (h2 ts e tag htag)⟩

theorem made_link {l : UncheckedLink} (hs : l.sizes ≠ none → l.rel = some "icon")
    (hk : ∀ k ∈ l.hreflang, ∃ tag, env.langParse k = some tag) : LinkMade env (linkResult env l) := by
  refine ⟨hs, ?_, ?_⟩
  · unfold linkResult
    by_cases e : l.hreflang = []
    · simp [e]
    · simp [e]
  · intro ts hts tag htag
    unfold linkResult at hts
    by_cases e : l.hreflang = []
    · simp [e] at hts
    · simp only [e, if_false, Option.some.injEq] at hts
      subst hts
      obtain ⟨k, hk', rfl⟩ := List.mem_map.1 htag
      obtain ⟨tag, ht⟩ := hk k hk'
      exact ⟨k, by rw [ht]; rfl⟩

/-! ### Security schemes -/

/-- A security scheme builder on which some calls were made. -/
def SecReach (b : SecuritySchemeBuilder SecTag) : Prop :=
  ∃ calls : List SecOp, calls.foldlM SecuritySchemeBuilder.apply { subtype := .unset } = some b

theorem SecReach.step {b b' : SecuritySchemeBuilder SecTag} (op : SecOp) (h : SecReach b)
    (ha : b.apply op = some b') : SecReach b' := by
  obtain ⟨calls, hc⟩ := h
  exact ⟨calls ++ [op], foldlM_snoc_some hc ha⟩

theorem secReach_start (op : SecOp) {b : SecuritySchemeBuilder SecTag}
    (ha : SecuritySchemeBuilder.apply { subtype := .unset } op = some b) : SecReach b :=
  SecReach.step op ⟨[], rfl⟩ ha

theorem secReach_scopes (l : List String) {o : OAuth2Scheme} (hl : l ≠ [])
    (h : SecReach { subtype := .oauth2 o }) :
    SecReach { subtype := .oauth2 { o with scopes := some (o.scopes.getD [] ++ l) } } := by
  induction l generalizing o with
  | nil => exact absurd rfl hl
  | cons v l ih =>
    have h1 : SecReach { subtype := .oauth2 { o with scopes := optPush o.scopes v } } :=
      h.step (.scope v) rfl
    by_cases hl : l = []
    · subst hl; exact h1
    · have := ih hl h1
      simpa [optPush] using this

/-- Every subtype that keeps the rules of `SchemeMade` can be chosen. -/
theorem secReach_subtype {s : SchemeSubtype} (hp : ∀ k, s = .known (.psk k) → k.identity = none)
    (ho : ∀ o, s = .known (.oauth2 o) → o.scopes ≠ some []) :
    ∃ tag : SecTag, tag.build = some s ∧ SecReach { subtype := tag } := by
  rcases s with (_ | _ | (l | l) | ⟨loc, nm⟩ | ⟨q, loc, nm⟩ | ⟨au, alg, fmt, loc, nm⟩ | i |
    ⟨au, tk, rf, sc, fl⟩ | ⟨loc, nm⟩) | ⟨sch, data⟩
  · exact ⟨.noSec, rfl, secReach_start .noSec rfl⟩
  · exact ⟨.auto, rfl, secReach_start .auto rfl⟩
  · exact ⟨.oneOf l, rfl, (secReach_start .combo rfl).step (.oneOf l) rfl⟩
  · exact ⟨.allOf l, rfl, (secReach_start .combo rfl).step (.allOf l) rfl⟩
  · refine ⟨.basic ⟨loc, nm⟩, rfl, ?_⟩
    have h : SecReach { subtype := .basic ⟨loc, none⟩ } := (secReach_start .basic rfl).step (.location loc) rfl
    cases nm with
    | none => exact h
    | some v => exact h.step (.name v) rfl
  · refine ⟨.digest ⟨q, loc, nm⟩, rfl, ?_⟩
    have h : SecReach { subtype := .digest ⟨q, loc, none⟩ } :=
      ((secReach_start .digest rfl).step (.location loc) rfl).step (.qop q) rfl
    cases nm with
    | none => exact h
    | some v => exact h.step (.name v) rfl
  · refine ⟨.bearer ⟨au, alg, fmt, loc, nm⟩, rfl, ?_⟩
    have h : SecReach { subtype := .bearer ⟨none, alg, fmt, loc, none⟩ } :=
      (((secReach_start .bearer rfl).step (.location loc) rfl).step (.alg alg) rfl).step (.format fmt) rfl
    have h : SecReach { subtype := .bearer ⟨au, alg, fmt, loc, none⟩ } := by
      cases au with
      | none => exact h
      | some v => exact h.step (.authorization v) rfl
    cases nm with
    | none => exact h
    | some v => exact h.step (.name v) rfl
  · have : i = {} := by
      have := hp _ rfl
      cases i; cases this; rfl
    subst this
    exact ⟨.psk {}, rfl, secReach_start .psk rfl⟩
  · refine ⟨.oauth2 ⟨au, tk, rf, sc, fl⟩, rfl, ?_⟩
    have h : SecReach { subtype := .oauth2 ⟨none, none, none, none, fl⟩ } := secReach_start (.oauth2 fl) rfl
    have h : SecReach { subtype := .oauth2 ⟨au, none, none, none, fl⟩ } := by
      cases au with
      | none => exact h
      | some v => exact h.step (.authorization v) rfl
    have h : SecReach { subtype := .oauth2 ⟨au, tk, none, none, fl⟩ } := by
      cases tk with
      | none => exact h
      | some v => exact h.step (.token v) rfl
    have h : SecReach { subtype := .oauth2 ⟨au, tk, rf, none, fl⟩ } := by
      cases rf with
      | none => exact h
      | some v => exact h.step (.refresh v) rfl
    cases sc with
    | none => exact h
    | some l => exact secReach_scopes l (fun e => ho _ rfl (by simp [e])) h
  · refine ⟨.apiKey ⟨loc, nm⟩, rfl, ?_⟩
    have h : SecReach { subtype := .apiKey ⟨loc, none⟩ } := (secReach_start .apiKey rfl).step (.location loc) rfl
    cases nm with
    | none => exact h
    | some v => exact h.step (.name v) rfl
  · exact ⟨.custom sch data, rfl, (secReach_start (.custom sch) rfl).step (.data data) rfl⟩

theorem secReach_attype (l : List String) {b : SecuritySchemeBuilder SecTag} (hl : l ≠ []) (h : SecReach b) :
    SecReach { b with attype := some (b.attype.getD [] ++ l) } := by
  induction l generalizing b with
  | nil => exact absurd rfl hl
  | cons v l ih =>
    have h1 : SecReach { b with attype := optPush b.attype v } := h.step (.attype v) rfl
    by_cases hl : l = []
    · subst hl; exact h1
    · have := ih hl h1
      simpa [optPush] using this

/-- The builder of a security scheme with a given name. -/
noncomputable def unScheme (env : Env) (s : SecurityScheme) (n : String) (r : Bool) :
    SecuritySchemeBuilder SchemeSubtype :=
  { attype := s.attype, description := s.description, descriptions := s.descriptions.map (unLang env),
    proxy := s.proxy, name := some n, subtype := s.subtype, required := r }

theorem scheme_calls {s : SecurityScheme} (h : SchemeMade s) (n : String) (r : Bool) :
    ∃ calls, SecuritySchemeBuilder.ofCalls calls = some (unScheme env s n r) := by
  obtain ⟨at', d, ds, p, st⟩ := s
  obtain ⟨tag, ht, h0⟩ := secReach_subtype h.psk h.scopes
  have h1 : SecReach { attype := at', subtype := tag } := by
    cases at' with
    | none => exact h0
    | some l => exact secReach_attype l (fun e => h.attype (by simp [e])) h0
  have h2 : SecReach { attype := at', description := d, subtype := tag } := by
    cases d with
    | none => exact h1
    | some v => exact h1.step (.description v) rfl
  have h3 : SecReach ⟨at', d, ds.map (unLang env), none, none, tag, false⟩ := by
    cases ds with
    | none => exact h2
    | some m =>
      refine h2.step (.descriptions (unLang env m).values) ?_
      have e := ofCalls_self (b := unLang env m) (HMap.collect_sorted _)
      simp only [SecuritySchemeBuilder.apply, e]
      rfl
  have h4 : SecReach ⟨at', d, ds.map (unLang env), p, none, tag, false⟩ := by
    cases p with
    | none => exact h3
    | some v => exact h3.step (.proxy v) rfl
  have h5 : SecReach ⟨at', d, ds.map (unLang env), p, some n, tag, false⟩ := h4.step (.withKey n) rfl
  have h6 : SecReach ⟨at', d, ds.map (unLang env), p, some n, tag, r⟩ := by
    cases r with
    | false => exact h5
    | true => exact h5.step .required rfl
  obtain ⟨calls, hc⟩ := h6
  refine ⟨calls, ?_⟩
  unfold SecuritySchemeBuilder.ofCalls
  rw [hc]
  show (SecTag.build tag).bind _ = _
  rw [ht]
  rfl

theorem schemeResult_unScheme {s : SecurityScheme} (h : ∀ m, s.descriptions = some m → m.Made env) (n : String)
    (r : Bool) : schemeResult env (unScheme env s n r).scheme = s := by
  obtain ⟨at', d, ds, p, st⟩ := s
  unfold schemeResult unScheme SecuritySchemeBuilder.scheme
  cases ds with
  | none => rfl
  | some m => simp only [Option.map_some, langResult_unLang (h m rfl)]

/-! ### Affordances -/

theorem interaction_made {I : Type} (Q : PartialInteraction X I → HumanReadableInfo → Prop)
    (hinfo : ∀ p i op, Q p i → Q p (i.apply op)) (hop : ∀ p i op, op.Built → Q p i → Q (p.apply op) i)
    (other : I) (h0 : Q (.empty other) {}) {forms : List (FormBuilder X)} (hf : ∀ f ∈ forms, FormReach X f)
    {u : HMap (UDS X)} (hs : HMap.Sorted u) (hu : ∀ kv ∈ u, SchemaBuilt kv.2) {info : HumanReadableInfo}
    (hi : InfoMade info) : Q ⟨forms, u, other⟩ info := by
  have h1 : ∀ (fs : List (FormBuilder X)), (∀ f ∈ fs, FormReach X f) → ∀ p i, Q p i →
      Q { p with forms := p.forms ++ fs } i := by
    intro fs
    induction fs with
    | nil => intro _ p i h; simpa using h
    | cons f fs ih =>
      intro hfs p i h
      have := ih (fun g hg => hfs g (by simp [hg])) _ _ (hop p i (.form f) (hfs f (by simp)) h)
      simpa [PartialInteraction.apply] using this
  have h2 : ∀ (l : List (String × UDS X)), (∀ kv ∈ l, SchemaBuilt kv.2) → ∀ p i, Q p i →
      Q { p with uriVariables := l.foldl (fun m kv => HMap.insert kv.1 kv.2 m) p.uriVariables } i := by
    intro l
    induction l with
    | nil => intro _ p i h; exact h
    | cons kv l ih =>
      intro hl p i h
      exact ih (fun g hg => hl g (by simp [hg])) _ _ (hop p i (.uriVariable kv.1 kv.2) (hl kv (by simp)) h)
  have h3 : ∀ (l : List InfoOp) p i, Q p i → Q p (l.foldl HumanReadableInfo.apply i) := by
    intro l
    induction l with
    | nil => intro p i h; exact h
    | cons op l ih => intro p i h; exact ih _ _ (hinfo p i op h)
  have a := h3 info.calls _ _ (h2 u hu _ _ (h1 forms hf _ _ h0))
  rw [hi.calls] at a
  have e : (u.foldl (fun m kv => HMap.insert kv.1 kv.2 m) ([] : HMap (UDS X))) = u := HMap.collect_of_sorted hs
  have e2 : (PartialInteraction.empty other : PartialInteraction X I).uriVariables = [] := rfl
  simp only [PartialInteraction.empty, List.nil_append, e] at a
  exact a

/-- The human readable information an interaction is made of. -/
noncomputable def unInfo (env : Env) (i : Interaction X) : HumanReadableInfo :=
  ⟨i.attype, i.title, i.titles.map (unLang env), i.description, i.descriptions.map (unLang env)⟩

/-- The rest an interaction is made of. -/
noncomputable def unPart (env : Env) (i : Interaction X) : PartialInteraction X X.interaction :=
  ⟨i.forms.map unForm, HMap.mapVals (Schema.mapLang (unLang env)) (i.uriVariables.getD []), i.other⟩

/-- What is needed to make the interaction part of an affordance. -/
structure InteractionMade (env : Env) (i : Interaction X) : Prop where
  attype : i.attype ≠ some []
  titles : ∀ m, i.titles = some m → m.Made env
  descriptions : ∀ m, i.descriptions = some m → m.Made env
  forms : ∀ f ∈ i.forms, FormMade f
  uriVariables : MapMade i.uriVariables
  schemas : ∀ u, i.uriVariables = some u → ∀ kv ∈ u, ∀ x, Within x kv.2 → SchemaMade env x ∧ Uninformed x

theorem InteractionMade.info {i : Interaction X} (h : InteractionMade env i) : InfoMade (unInfo env i) := by
  refine ⟨h.attype, ?_, ?_⟩
  · intro b hb
    obtain ⟨m, -, rfl⟩ := Option.map_eq_some_iff.1 hb
    exact HMap.collect_sorted _
  · intro b hb
    obtain ⟨m, -, rfl⟩ := Option.map_eq_some_iff.1 hb
    exact HMap.collect_sorted _

theorem mem_unPart {i : Interaction X} {k : String} {s : UDS X}
    (hm : (k, s) ∈ (unPart env i).uriVariables) :
    ∃ u c, i.uriVariables = some u ∧ (k, c) ∈ u ∧ s = c.mapLang (unLang env) := by
  obtain ⟨c, hc, rfl⟩ := mem_mapVals.1 hm
  cases e : i.uriVariables with
  | none => rw [e] at hc; cases hc
  | some u => rw [e] at hc; exact ⟨u, c, rfl, hc, rfl⟩

theorem InteractionMade.made {i : Interaction X} (h : InteractionMade env i)
    (Q : PartialInteraction X X.interaction → HumanReadableInfo → Prop)
    (hinfo : ∀ p i op, Q p i → Q p (i.apply op)) (hop : ∀ p i op, op.Built → Q p i → Q (p.apply op) i)
    (h0 : Q (.empty i.other) {}) : Q (unPart env i) (unInfo env i) := by
  refine interaction_made Q hinfo hop i.other h0 ?_ ?_ ?_ h.info
  · intro f hf
    obtain ⟨g, hg, rfl⟩ := List.mem_map.1 hf
    exact formReach_unForm (h.forms g hg)
  · cases e : i.uriVariables with
    | none => exact HMap.sorted_nil
    | some u => exact (h.uriVariables u e).2.mapVals _
  · rintro ⟨k, s⟩ hs
    obtain ⟨u, c, hu, hc, rfl⟩ := mem_unPart hs
    exact schemaBuilt_unLang (h.schemas u hu _ hc)

theorem map_unLang {o : Option MultiLanguage} (h : ∀ m, o = some m → m.Made env) :
    (o.map (unLang env)).map (langResult env) = o := by
  cases o with
  | none => rfl
  | some m => simp only [Option.map_some, langResult_unLang (h m rfl)]

theorem mapVals_unLang {m : HMap (DS X)} (h : ∀ kv ∈ m, ∀ x, Within x kv.2 → SchemaMade env x) :
    HMap.mapVals (Schema.mapLang (langResult env)) (HMap.mapVals (Schema.mapLang (unLang env)) m) = m := by
  unfold HMap.mapVals
  rw [List.map_map]
  refine (List.map_congr_left fun kv hkv => ?_).trans (List.map_id _)
  show (kv.1, _) = kv
  rw [mapLang_unLang (h kv hkv)]

theorem InteractionMade.result {i : Interaction X} (h : InteractionMade env i) :
    interactionResult env (unInfo env i) (unPart env i) = i := by
  have hf : (i.forms.map unForm).map FormBuilder.result = i.forms := by
    rw [List.map_map]
    exact (List.map_congr_left fun f hf => result_unForm (h.forms f hf)).trans (List.map_id _)
  have hu : (if (unPart env i).uriVariables = [] then none else
      some (HMap.mapVals (Schema.mapLang (langResult env)) (unPart env i).uriVariables)) = i.uriVariables := by
    unfold unPart
    cases e : i.uriVariables with
    | none => rfl
    | some u =>
      have hne := (h.uriVariables u e).1
      simp only [Option.getD_some]
      rw [if_neg, mapVals_unLang fun kv hkv x hx => (h.schemas u e kv hkv x hx).1]
      cases u with
      | nil => exact absurd rfl hne
      | cons _ _ => exact nofun
  unfold interactionResult
  rw [hu]
  unfold unInfo unPart
  simp only [map_unLang h.titles, map_unLang h.descriptions, hf]

theorem InteractionMade.keys {i : Interaction X} (h : InteractionMade env i) {k : String}
    (hk : KeyOf (unInfo env i).titles k ∨ KeyOf (unInfo env i).descriptions k) :
    ∃ tag, env.langParse k = some tag := by
  rcases hk with ⟨b, hb, hk⟩ | ⟨b, hb, hk⟩
  · obtain ⟨m, hm, rfl⟩ := Option.map_eq_some_iff.1 hb
    exact unLang_keys (h.titles m hm) hk
  · obtain ⟨m, hm, rfl⟩ := Option.map_eq_some_iff.1 hb
    exact unLang_keys (h.descriptions m hm) hk

/-- A data schema in which everything is as builders make it. -/
def AllMade (env : Env) (s : DS X) : Prop := ∀ x, Within x s → SchemaMade env x ∧ Uninformed x

/-! #### Actions -/

/-- The builder of an action. -/
noncomputable def unAction (env : Env) (a : ActionAffordance X) : ActionBuilder X :=
  { interaction := ⟨unPart env a.interaction, unInfo env a.interaction⟩
    input := a.input.map (Schema.mapLang (unLang env)), output := a.output.map (Schema.mapLang (unLang env))
    safe := a.safe, idempotent := a.idempotent, synchronous := a.synchronous, other := a.other }

theorem actionReach_unAction {a : ActionAffordance X} (h : InteractionMade env a.interaction)
    (hi : ∀ s, a.input = some s → AllMade env s) (ho : ∀ s, a.output = some s → AllMade env s) :
    ActionReach X (unAction env a) := by
  obtain ⟨i, inp, out, sa, ide, sy, oth⟩ := a
  have h1 := h.made (fun p i => ActionReach X (⟨⟨p, i⟩, none, none, false, false, none, oth⟩ : ActionBuilder X))
    (fun _ _ op hq => .call (.info op) trivial hq) (fun _ _ op hb hq => .call (.interaction op) hb hq)
    (.empty i.other oth)
  have h2 : ActionReach X (⟨⟨unPart env i, unInfo env i⟩, inp.map (Schema.mapLang (unLang env)), none, false, false,
      none, oth⟩ : ActionBuilder X) := by
    cases inp with
    | none => exact h1
    | some s => exact .call (.input (s.mapLang (unLang env))) (schemaBuilt_unLang (hi s rfl)) h1
  have h3 : ActionReach X (⟨⟨unPart env i, unInfo env i⟩, inp.map (Schema.mapLang (unLang env)),
      out.map (Schema.mapLang (unLang env)), false, false, none, oth⟩ : ActionBuilder X) := by
    cases out with
    | none => exact h2
    | some s => exact .call (.output (s.mapLang (unLang env))) (schemaBuilt_unLang (ho s rfl)) h2
  have h4 : ActionReach X (⟨⟨unPart env i, unInfo env i⟩, inp.map (Schema.mapLang (unLang env)),
      out.map (Schema.mapLang (unLang env)), sa, false, none, oth⟩ : ActionBuilder X) := by
    cases sa with
    | false => exact h3
    | true => exact .call .safe trivial h3
  have h5 : ActionReach X (⟨⟨unPart env i, unInfo env i⟩, inp.map (Schema.mapLang (unLang env)),
      out.map (Schema.mapLang (unLang env)), sa, ide, none, oth⟩ : ActionBuilder X) := by
    cases ide with
    | false => exact h4
    | true => exact .call .idempotent trivial h4
  cases sy with
  | none => exact h5
  | some v => exact .call (.synchronous v) trivial h5

theorem mapSchema_unLang {o : Option (DS X)} (h : ∀ s, o = some s → AllMade env s) :
    (o.map (Schema.mapLang (unLang env))).map (Schema.mapLang (langResult env)) = o := by
  cases o with
  | none => rfl
  | some s => simp only [Option.map_some, mapLang_unLang fun x hx => (h s rfl x hx).1]

theorem result_unAction {a : ActionAffordance X} (h : InteractionMade env a.interaction)
    (hi : ∀ s, a.input = some s → AllMade env s) (ho : ∀ s, a.output = some s → AllMade env s) :
    (unAction env a).result env = a := by
  unfold ActionBuilder.result unAction
  simp only [h.result, mapSchema_unLang hi, mapSchema_unLang ho]

/-! #### Events -/

/-- The builder of an event. -/
noncomputable def unEvent (env : Env) (e : EventAffordance X) : EventBuilder X :=
  { interaction := ⟨unPart env e.interaction, unInfo env e.interaction⟩
    subscription := e.subscription.map (Schema.mapLang (unLang env))
    data := e.data.map (Schema.mapLang (unLang env))
    cancellation := e.cancellation.map (Schema.mapLang (unLang env))
    dataResponse := e.dataResponse.map (Schema.mapLang (unLang env)), other := e.other }

theorem eventReach_unEvent {e : EventAffordance X} (h : InteractionMade env e.interaction)
    (h1 : ∀ s, e.subscription = some s → AllMade env s) (h2 : ∀ s, e.data = some s → AllMade env s)
    (h3 : ∀ s, e.dataResponse = some s → AllMade env s) (h4 : ∀ s, e.cancellation = some s → AllMade env s) :
    EventReach X (unEvent env e) := by
  obtain ⟨i, su, da, dr, ca, oth⟩ := e
  have r1 := h.made (fun p i => EventReach X (⟨⟨p, i⟩, none, none, none, none, oth⟩ : EventBuilder X))
    (fun _ _ op hq => .call (.info op) trivial hq) (fun _ _ op hb hq => .call (.interaction op) hb hq)
    (.empty i.other oth)
  have r2 : EventReach X (⟨⟨unPart env i, unInfo env i⟩, su.map (Schema.mapLang (unLang env)), none, none, none,
      oth⟩ : EventBuilder X) := by
    cases su with
    | none => exact r1
    | some s => exact .call (.subscription (s.mapLang (unLang env))) (schemaBuilt_unLang (h1 s rfl)) r1
  have r3 : EventReach X (⟨⟨unPart env i, unInfo env i⟩, su.map (Schema.mapLang (unLang env)),
      da.map (Schema.mapLang (unLang env)), none, none, oth⟩ : EventBuilder X) := by
    cases da with
    | none => exact r2
    | some s => exact .call (.data (s.mapLang (unLang env))) (schemaBuilt_unLang (h2 s rfl)) r2
  have r4 : EventReach X (⟨⟨unPart env i, unInfo env i⟩, su.map (Schema.mapLang (unLang env)),
      da.map (Schema.mapLang (unLang env)), ca.map (Schema.mapLang (unLang env)), none, oth⟩ : EventBuilder X) := by
    cases ca with
    | none => exact r3
    | some s => exact .call (.cancellation (s.mapLang (unLang env))) (schemaBuilt_unLang (h4 s rfl)) r3
  cases dr with
  | none => exact r4
  | some s => exact .call (.dataResponse (s.mapLang (unLang env))) (schemaBuilt_unLang (h3 s rfl)) r4

theorem result_unEvent {e : EventAffordance X} (h : InteractionMade env e.interaction)
    (h1 : ∀ s, e.subscription = some s → AllMade env s) (h2 : ∀ s, e.data = some s → AllMade env s)
    (h3 : ∀ s, e.dataResponse = some s → AllMade env s) (h4 : ∀ s, e.cancellation = some s → AllMade env s) :
    (unEvent env e).result env = e := by
  unfold EventBuilder.result unEvent
  simp only [h.result, mapSchema_unLang h1, mapSchema_unLang h2, mapSchema_unLang h3, mapSchema_unLang h4]

/-! #### Properties -/

/-- The members of a data schema that the builder of a property keeps. -/
noncomputable def unPartial (env : Env) (s : DS X) : PartialDataSchema X.dataSchema X.arraySchema X.objectSchema :=
  { constant := s.head.constant, default := s.head.default, unit := s.head.unit
    oneOf := s.oneOf.map (List.map (Schema.mapLang (unLang env))), enumeration := s.head.enumeration
    readOnly := s.head.readOnly, writeOnly := s.head.writeOnly, format := s.head.format
    subtype := s.subtype.map (SubtypeF.map (Schema.mapLang (unLang env))), other := s.head.other }

/-- The builder of a property. -/
noncomputable def unProperty (env : Env) (p : PropertyAffordance X) : PropertyBuilder X :=
  { interaction := unPart env p.interaction, info := unInfo env p.interaction
    dataSchema := unPartial env p.dataSchema, observable := p.observable, other := p.other }

theorem child_oneOf {L D A O : Type} {s c : Schema L D A O} {l : List (Schema L D A O)} (h : s.oneOf = some l)
    (hc : c ∈ l) : Child c s := .oneOf h hc

theorem child_subtype {L D A O : Type} {s c : Schema L D A O} {st : SubtypeF A O (Schema L D A O)}
    (h : s.subtype = some st) (hc : c ∈ st.children) : Child c s := by
  rcases mem_children_iff.1 hc with ⟨a, rfl, h1⟩ | ⟨a, l, rfl, h1, h2⟩ | ⟨o, m, k, rfl, h1, h2⟩
  · exact .item h h1
  · exact .items h h1 h2
  · exact .property h h1 h2

theorem Child.within {L D A O : Type} {s c x : Schema L D A O} (h : Child c s) (hx : Within x c) : Within x s := by
  cases h with
  | oneOf h1 h2 => exact .oneOf h1 h2 hx
  | item h1 h2 => exact .item h1 h2 hx
  | items h1 h2 h3 => exact .items h1 h2 h3 hx
  | property h1 h2 h3 => exact .property h1 h2 h3 hx

theorem partialBuilt_unPartial {s : DS X} (h : SchemaMade env s)
    (hc : ∀ c, Child c s → AllMade env c) (hs : ∀ st, s.subtype = some (.string st) → st = {}) :
    PartialBuilt (unPartial env s) := by
  have hsh := h.toSchemaShape.mapLang (f := unLang env)
  have hp := hsh.partial
  have e : unPartial env s = ⟨(s.mapLang (unLang env)).head.constant, (s.mapLang (unLang env)).head.default,
      (s.mapLang (unLang env)).head.unit, (s.mapLang (unLang env)).oneOf, (s.mapLang (unLang env)).head.enumeration,
      (s.mapLang (unLang env)).head.readOnly, (s.mapLang (unLang env)).head.writeOnly,
      (s.mapLang (unLang env)).head.format, (s.mapLang (unLang env)).subtype, (s.mapLang (unLang env)).head.other⟩ := by
    cases s; rw [mapLang_mk]; rfl
  refine partialBuilt_of (e ▸ hp) ?_ ?_ ?_ ?_ ?_
  · intro o m ho hm
    obtain ⟨st, hst, ho⟩ := Option.map_eq_some_iff.1 ho
    cases st <;> cases ho
    obtain ⟨m', hm', rfl⟩ := Option.map_eq_some_iff.1 hm
    exact (h.sorted _ _ hst hm').mapVals _
  · intro l hl c hcl
    obtain ⟨l', hl', rfl⟩ := Option.map_eq_some_iff.1 hl
    obtain ⟨c, hcl', rfl⟩ := List.mem_map.1 hcl
    exact schemaBuilt_unLang (hc c (child_oneOf hl' hcl'))
  · intro st hst c hcl
    obtain ⟨st', hst', rfl⟩ := Option.map_eq_some_iff.1 hst
    rw [children_map] at hcl
    obtain ⟨c, hcl', rfl⟩ := List.mem_map.1 hcl
    exact schemaBuilt_unLang (hc c (child_subtype hst' hcl'))
  · intro st hst
    obtain ⟨st', hst', e⟩ := Option.map_eq_some_iff.1 hst
    cases st' <;> cases e
    exact hs _ hst'
  · intro ho
    have ho : s.Open := open_mapLang.1 (by rw [e] at ho; exact ho)
    obtain ⟨a1, a2, a3, a4, a5⟩ := h.unspecified ho
    obtain ⟨c1, c2, c3, c4⟩ := ho
    unfold unPartial
    rw [a1, a2, a3, a4, a5, c1, c2, c3, c4]
    rfl

theorem built_unProperty {p : PropertyAffordance X} (h : InteractionMade env p.interaction)
    (hd : SchemaMade env p.dataSchema) (hc : ∀ c, Child c p.dataSchema → AllMade env c)
    (hs : ∀ st, p.dataSchema.subtype = some (.string st) → st = {}) : (unProperty env p).Built := by
  obtain ⟨i, d, ob, oth⟩ := p
  refine ⟨?_, partialBuilt_unPartial hd hc hs⟩
  have r1 := h.made (fun p i => PropertyReach X (⟨p, i, unPartial env d, none, oth⟩ : PropertyBuilder X))
    (fun _ _ op hq => .call (.info op) trivial hq) (fun _ _ op hb hq => .call (.interaction op) hb hq)
    (.empty i.other _ oth)
  cases ob with
  | none => exact r1
  | some v => exact .call (.observable v) trivial r1

theorem schema_unProperty {p : PropertyAffordance X} (ha : p.Agrees) :
    (unProperty env p).schema = p.dataSchema.mapLang (unLang env) := by
  obtain ⟨i, ⟨hd, o, s⟩, ob, oth⟩ := p
  obtain ⟨h1, h2, h3, h4, h5⟩ := ha
  rw [mapLang_mk]
  simp only [Schema.head] at h1 h2 h3 h4 h5
  unfold PropertyBuilderF.schema unProperty unPartial unInfo
  simp only [Schema.head, Schema.oneOf, Schema.subtype]
  rw [h1, h2, h3, h4, h5]

theorem result_unProperty {p : PropertyAffordance X} (h : InteractionMade env p.interaction)
    (hd : ∀ x, Within x p.dataSchema → SchemaMade env x) (ha : p.Agrees) : (unProperty env p).result env = p := by
  unfold PropertyBuilder.result
  rw [schema_unProperty ha, mapLang_unLang hd]
  show (⟨interactionResult env (unInfo env p.interaction) (unPart env p.interaction), _, _, _⟩ : PropertyAffordance X) = p
  rw [h.result]
  rfl

end Wot
