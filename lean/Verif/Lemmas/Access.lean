import Verif.Spec.Access
import Verif.Lemmas.ConformKept
/-
Who can use a form: the same clients according to a Thing and according to its document.
-/
namespace Wot

section
variable {A B : Type} {R : A → B → Prop}

theorem optRel_bind {A' B' : Type} {R' : A' → B' → Prop} {o : Option A} {o' : Option B} {f : A → Option A'} {g : B → Option B'}
    (h : OptRel R o o') (hf : ∀ a b, R a b → OptRel R' (f a) (g b)) : OptRel R' (o.bind f) (o'.bind g) := by
  cases h with
  | none => exact .none
  | some r => exact hf _ _ r

theorem optRel_mono {R' : A → B → Prop} {o : Option A} {o' : Option B} (h : OptRel R o o') (hf : ∀ a b, R a b → R' a b) :
    OptRel R' o o' := by
  cases h with
  | none => exact .none
  | some r => exact .some (hf _ _ r)

theorem pointwise_index {l : List A} {l' : List B} (h : Pointwise R l l') (i : Nat) : OptRel R l[i]? l'[i]? := by
  induction h generalizing i with
  | nil => exact .none
  | cons r _ ih =>
    cases i with
    | zero => exact .some r
    | succ i => exact ih i

theorem met_iff {a b : String → Demand → Prop} (h : ∀ n d, a n d ↔ b n d) {has : String → Prop} {n : String} :
    Met a has n ↔ Met b has n := by
  have : a = b := funext fun n => funext fun d => propext (h n d)
  rw [this]

end

variable {X : ExtTypes} {C : ExtCodecs X} {t : Wot.Thing X} {v : Json}

/-- The form names what is given for it in the document. -/
abbrev Thing.Names (t : Thing X) (v : Json) (f : Form X) (w : Json) : Prop :=
  ∀ l, v.Secured w l ↔ l = f.security.getD t.security

theorem opens_iff (hd : ∀ n d, v.Demands n d ↔ t.Demands n d) (hf : ∀ p, OptRel (t.Names v) (t.formAt p) (v.formAt p))
    {has : String → Prop} {p : Place} : v.Opens has p ↔ t.Opens has p := by
  have hp := hf p
  unfold Json.Opens Thing.Opens
  generalize t.formAt p = x at hp
  generalize v.formAt p = y at hp
  cases hp with
  | none => exact iff_of_false (by rintro ⟨_, _, h, _⟩; cases h) (by rintro ⟨_, h, _⟩; cases h)
  | @some f w r =>
    constructor
    · rintro ⟨_, l, e, hs, h⟩
      cases e
      rw [(r l).1 hs] at h
      exact ⟨f, rfl, fun n hn => (met_iff hd).1 (h n hn)⟩
    · rintro ⟨_, e, h⟩
      cases e
      exact ⟨w, _, rfl, (r _).2 rfl, fun n hn => (met_iff hd).2 (h n hn)⟩

theorem lists_unique {w : Json} {l m : List String} (h : w.Lists l) (h' : w.Lists m) : l = m := by
  cases h with
  | one => cases h'; rfl
  | many =>
    generalize e : Json.arr _ = w at h'
    cases h' with
    | one => cases e
    | many =>
      have : ∀ l m : List String, l.map Json.str = m.map Json.str → l = m := by
        intro l
        induction l with
        | nil => intro m h; cases m with | nil => rfl | cons => cases h
        | cons a l ih =>
          intro m h
          cases m with
          | nil => cases h
          | cons b m =>
            simp only [List.map_cons, List.cons.injEq, Json.str.injEq] at h
            rw [h.1, ih m h.2]
      exact this _ _ (by injection e)

theorem lists_iff {w : Json} {l m : List String} (h : w.Lists l) : w.Lists m ↔ m = l :=
  ⟨fun h' => lists_unique h' h, fun e => e ▸ h⟩

theorem lists_shown {w : Json} {l : List String} (h : StringsShown l w) : w.Lists l := by
  cases h with
  | one r => cases r; exact .one
  | many hl h =>
    clear hl
    obtain ⟨h⟩ := h
    rename_i vs
    have : vs = l.map .str := by
      induction h with
      | nil => rfl
      | cons r _ ih => cases r; rw [ih]; rfl
    subst this
    exact .many

theorem lists_read {w : Json} {l : List String} (h : Doc.IsOneOrManyStrings w l) : w.Lists l := by
  cases h with
  | one r => cases r; exact .one
  | many h =>
    obtain ⟨h⟩ := h
    rename_i vs
    have : vs = l.map .str := by
      induction h with
      | nil => rfl
      | cons r _ ih => cases r; rw [ih]; rfl
    subst this
    exact .many

/-- The names of a form, from its own member and that of the Thing. -/
theorem names_of {f : Form X} {w x : Json} (hw : OptRel (fun l w => w.Lists l) f.security (w.member "security"))
    (hv : v.member "security" = some x) (hx : x.Lists t.security) : t.Names v f w := by
  intro l
  generalize e : f.security = o at hw
  generalize e' : w.member "security" = o' at hw
  cases hw with
  | none =>
    constructor
    · intro h
      cases h with
      | own h _ => rw [e'] at h; cases h
      | thing _ h hl => rw [hv] at h; cases h; exact lists_unique hl hx
    · rintro rfl
      exact .thing e' hv hx
  | some r =>
    constructor
    · intro h
      cases h with
      | own h hl => rw [e'] at h; cases h; exact lists_unique hl r
      | thing h _ _ => rw [e'] at h; cases h
    · rintro rfl
      exact .own e' r

theorem asks_congr {name : String} {w : Json} {d : Demand} (h1 : w.member "oneOf" = v.member "oneOf")
    (h2 : w.member "allOf" = v.member "allOf") (h : v.Asks name d) : w.Asks name d := by
  cases h with
  | nothing e => exact .nothing e
  | any e h hl => exact .any e (h1.trans h) hl
  | all e h hl => exact .all e (h2.trans h) hl
  | credentials e e' => exact .credentials e e'

/-! ### What is written -/

theorem asks_known {k : KnownScheme} {name : String} {w : Json} {d : Demand} (h1 : k ≠ .noSec) (h2 : ∀ c, k ≠ .combo c)
    (e1 : name ≠ "nosec") (e2 : name ≠ "combo") : w.Asks name d ↔ (SchemeSubtype.known k).Asks d := by
  constructor
  · intro h
    cases h with
    | nothing e => exact absurd e e1
    | any e | all e => exact absurd e e2
    | credentials => exact .credentials h1 h2
  · intro h
    cases h with
    | nosec => exact absurd rfl h1
    | oneOf | allOf => exact absurd rfl (h2 _)
    | credentials => exact .credentials e1 e2

theorem asks_nosec {w : Json} {d : Demand} : w.Asks "nosec" d ↔ (SchemeSubtype.known .noSec).Asks d := by
  constructor
  · intro h
    cases h with
    | nothing => exact .nosec
    | any e | all e => exact absurd e (by decide)
    | credentials e => exact absurd rfl e
  · intro h
    cases h with
    | nosec => exact .nothing rfl
    | credentials e => exact absurd rfl e

theorem asks_oneOf {w x : Json} {l : List String} {d : Demand} (h : w.member "oneOf" = some x) (hl : x.Lists l)
    (h' : w.member "allOf" = none) : w.Asks "combo" d ↔ (SchemeSubtype.known (.combo (.oneOf l))).Asks d := by
  constructor
  · intro ha
    cases ha with
    | nothing e => exact absurd e (by decide)
    | any _ e hm => rw [h] at e; cases e; rw [lists_unique hm hl]; exact .oneOf
    | all _ e _ => rw [h'] at e; cases e
    | credentials _ e => exact absurd rfl e
  · intro ha
    cases ha with
    | oneOf => exact .any rfl h hl
    | credentials _ e => exact absurd rfl (e _)

theorem asks_allOf {w x : Json} {l : List String} {d : Demand} (h : w.member "allOf" = some x) (hl : x.Lists l)
    (h' : w.member "oneOf" = none) : w.Asks "combo" d ↔ (SchemeSubtype.known (.combo (.allOf l))).Asks d := by
  constructor
  · intro ha
    cases ha with
    | nothing e => exact absurd e (by decide)
    | all _ e hm => rw [h] at e; cases e; rw [lists_unique hm hl]; exact .allOf
    | any _ e _ => rw [h'] at e; cases e
    | credentials _ e => exact absurd rfl e
  · intro ha
    cases ha with
    | allOf => exact .all rfl h hl
    | credentials _ e => exact absurd rfl (e _)

theorem asks_custom {name : String} {data w : Json} {d : Demand} (h1 : w.member "oneOf" = data.norm.member "oneOf")
    (h2 : w.member "allOf" = data.norm.member "allOf") : w.Asks name d ↔ (SchemeSubtype.unknown name data).Asks d := by
  constructor
  · intro h
    exact .custom (asks_congr h1.symm h2.symm h)
  · intro h
    cases h with
    | custom h => exact asks_congr h1 h2 h

/-- What a definition asks. -/
abbrev DefinitionAsks (s : SecurityScheme) (w : Json) : Prop :=
  ∃ name, w.member "scheme" = some (.str name) ∧ ∀ d, w.Asks name d ↔ s.subtype.Asks d

theorem definition_shown {s : SecurityScheme} {w : Json} (h : SecurityShown s w) : DefinitionAsks s w := by
  obtain ⟨names, hs, ho⟩ := h.scheme
  generalize e : s.subtype = st at hs
  unfold DefinitionAsks
  rw [e]
  cases hs with
  | @custom scheme m _ h hm =>
    refine ⟨_, h, fun d => ?_⟩
    have key : ∀ k ∈ ["oneOf", "allOf"], w.member k = (Json.obj m).norm.member k := by
      intro k hk
      by_cases hkm : k ∈ m.map (·.1)
      · exact hm k hkm
      · rw [Conform.not_named ho (by
          simp only [List.mem_append, List.mem_cons, not_or]
          have : k = "oneOf" ∨ k = "allOf" := by simpa using hk
          rcases this with rfl | rfl <;> exact ⟨by decide, by decide, hkm⟩), member_norm, written, occ_eq_nil.2 hkm]
        rfl
    exact asks_custom (key _ (by simp)) (key _ (by simp))
  | customNull h =>
    exact ⟨_, h, fun d => asks_custom (Conform.not_named ho (by decide)) (Conform.not_named ho (by decide))⟩
  | known hk =>
    cases hk with
    | noSec h => exact ⟨_, h, fun d => asks_nosec⟩
    | oneOf h h1 h2 =>
      exact ⟨_, h, fun d => asks_oneOf h1 (lists_shown h2) (Conform.not_named ho (by decide))⟩
    | allOf h h1 h2 =>
      exact ⟨_, h, fun d => asks_allOf h1 (lists_shown h2) (Conform.not_named ho (by decide))⟩
    | auto h | basic h | digest h | apiKey h | bearer h | psk h | oauth2 h =>
      exact ⟨_, h, fun d => asks_known (by nofun) (by nofun) (by decide) (by decide)⟩

theorem demands_of {o : Json} (hv : v.member "securityDefinitions" = some o)
    (h : ∀ n, OptRel DefinitionAsks (t.securityDefinitions.get? n) (o.member n)) (n : String) (d : Demand) :
    v.Demands n d ↔ t.Demands n d := by
  have hn := h n
  unfold Json.Demands Thing.Demands
  generalize t.securityDefinitions.get? n = x at hn
  generalize ey : o.member n = y at hn
  cases hn with
  | none =>
    refine iff_of_false ?_ (by rintro ⟨_, h, _⟩; cases h)
    rintro ⟨_, _, _, h, h', _⟩
    rw [hv] at h
    cases h
    rw [ey] at h'
    cases h'
  | @some s w r =>
    obtain ⟨name, hname, r⟩ := r
    constructor
    · rintro ⟨_, _, _, h, h', hs, ha⟩
      rw [hv] at h
      cases h
      rw [ey] at h'
      cases h'
      rw [hname] at hs
      cases hs
      exact ⟨s, rfl, (r d).1 ha⟩
    · rintro ⟨_, h, ha⟩
      cases h
      exact ⟨o, w, name, hv, ey, hname, (r d).2 ha⟩

theorem map_shown_get {A : Type} {R : A → Json → Prop} {m : HMap A} {o : Json} (h : MapShown R m o) (n : String) :
    OptRel R (m.get? n) (o.member n) := by
  obtain ⟨_, h⟩ := h
  exact h n

theorem list_shown_index {A : Type} {R : A → Json → Prop} {l : List A} {o : Json} (h : ListShown R l o) (i : Nat) :
    OptRel R l[i]? (o.element i) := by
  obtain ⟨h⟩ := h
  exact pointwise_index h i

theorem forms_shown {env : SerdeEnv} (h : ThingShown C env t v) (p : Place) :
    OptRel (FormShown C) (t.formAt p) (v.formAt p) := by
  have hint : ∀ (i : Interaction X) (a : Json) (j : Nat), InteractionShown C i a →
      OptRel (FormShown C) i.forms[j]? ((a.member "forms").bind (·.element j)) := by
    intro i a j hi
    obtain ⟨w, hw, hl⟩ := hi.forms
    rw [hw]
    exact list_shown_index hl j
  cases p with
  | thing i => exact optRel_bind h.forms fun l w hl => list_shown_index hl i
  | property n i =>
    exact optRel_bind h.properties fun m w hm => optRel_bind (map_shown_get hm n) fun a b r =>
      hint a.merged.interaction b i r.interaction
  | action n i =>
    exact optRel_bind h.actions fun m w hm => optRel_bind (map_shown_get hm n) fun a b r => hint _ _ i r.interaction
  | event n i =>
    exact optRel_bind h.events fun m w hm => optRel_bind (map_shown_get hm n) fun a b r => hint _ _ i r.interaction

theorem opens_shown {env : SerdeEnv} (h : ThingShown C env t v) {has : String → Prop} {p : Place} :
    v.Opens has p ↔ t.Opens has p := by
  obtain ⟨o, ho, hd⟩ := h.securityDefinitions
  obtain ⟨x, hx, hs⟩ := h.security
  exact opens_iff (demands_of ho fun n => optRel_mono (map_shown_get hd n) fun _ _ => definition_shown) fun p =>
    optRel_mono (forms_shown h p) fun f w hf =>
      names_of (optRel_mono hf.security fun _ _ => lists_shown) hx (lists_shown hs)

/-! ### What is read -/

namespace Conform
variable {F : Formats} {env : SerdeEnv} {es : Members} {k : String} {A : Type} {Is : Json → A → Prop} {P : Json → Prop}

/-- A value that has been read, and is as it should be. -/
abbrev ReadAs (Is : Json → A → Prop) (P : Json → Prop) (x : A) (w : Json) : Prop := Is w x ∧ P w ∧ Fine w

theorem may_read {o : Option A} (h : Doc.May k Is es o) (hv : May k P (.obj es)) (hP : ¬ P .null) (hf : Fine (.obj es)) :
    OptRel (ReadAs Is P) o ((Json.obj es).member k) := by
  cases h with
  | absent h => rw [member_occ, h]; exact .none
  | @given _ w _ h ho =>
    have hw : (Json.obj es).member k = some w := by rw [member_occ, h]; rfl
    rw [hw]
    cases ho with
    | null => exact absurd (hv _ hw) hP
    | value _ hi => exact .some ⟨hi, hv _ hw, hf.member hw⟩

theorem map_read {m : HMap A} {v : Json} (h : Doc.IsMapOf Is v m) (hv : Map P v) (hf : Fine v) (n : String) :
    OptRel (ReadAs Is P) (m.get? n) (v.member n) := by
  obtain ⟨_, _, h⟩ := h
  have := h n
  rw [occ_get? hf.1.1] at this
  generalize e : m.get? n = y at this
  generalize e' : HMap.get? _ n = z at this
  unfold Json.member
  simp only
  rw [e']
  cases this with
  | none => exact .none
  | some r => exact .some ⟨r, hv.2 n _ e', hf.member (k := n) e'⟩

theorem array_read {l : List A} {v : Json} (h : Doc.IsArray Is v l) (hv : ∀ ws, v = .arr ws → ∀ w ∈ ws, P w) (hf : Fine v)
    (i : Nat) : OptRel (ReadAs Is P) l[i]? (v.element i) := by
  obtain ⟨h⟩ := h
  rename_i ws
  have hp : Pointwise (ReadAs Is P) l ws := by
    have h1 : ∀ w ∈ ws, P w ∧ Fine w := fun w hw => ⟨hv _ rfl w hw, hf.elem hw⟩
    clear hv hf
    induction h with
    | nil => exact .nil
    | cons r _ ih =>
      exact .cons ⟨r, h1 _ List.mem_cons_self⟩ (ih fun w hw => h1 w (List.mem_cons_of_mem _ hw))
  exact pointwise_index hp i

theorem schemeMembers_norm (hf : Fine (.obj es)) (hk : k ∉ "scheme" :: Names.security) :
    (Json.obj (Doc.schemeMembers es)).norm.member k = ((Json.obj es).member k).map Json.norm := by
  rw [member_norm, written, occ_scheme hk, occ_get? hf.1.1]
  rfl

theorem lists_norm {w : Json} {l : List String} (h : w.norm.Lists l) : w.Lists l := by
  cases w with
  | str s =>
    rw [Json.norm] at h
    exact h
  | arr ws =>
    rw [Json.norm, normList_eq] at h
    generalize e : Json.arr (ws.map Json.norm) = x at h
    cases h with
    | one => cases e
    | many =>
      have : ∀ (ws : List Json) (l : List String), ws.map Json.norm = l.map Json.str → ws = l.map Json.str := by
        intro ws
        induction ws with
        | nil => intro l h; cases l with | nil => rfl | cons => cases h
        | cons a ws ih =>
          intro l h
          cases l with
          | nil => cases h
          | cons b l =>
            simp only [List.map_cons, List.cons.injEq] at h
            have ha : a = .str b := by
              cases a with
              | str => exact h.1
              | _ => rw [Json.norm] at h; cases h.1
            rw [ha, ih l h.2]
            rfl
      rw [this ws l (by injection e)]
      exact .many
  | null | bool | num | obj => rw [Json.norm] at h; cases h

theorem lists_of_norm {w : Json} {l : List String} : w.norm.Lists l ↔ w.Lists l := by
  refine ⟨lists_norm, fun h => ?_⟩
  cases h with
  | one => exact .one
  | many => rw [Json.norm, normList_strings]; exact .many

theorem asks_norm {name : String} {v w : Json} {d : Demand} (h : ∀ k ∈ ["oneOf", "allOf"], w.member k = (v.member k).map Json.norm) :
    v.Asks name d ↔ w.Asks name d := by
  have h1 := h "oneOf" (by simp)
  have h2 := h "allOf" (by simp)
  constructor
  · intro h
    cases h with
    | nothing e => exact .nothing e
    | any e h hl => rw [h] at h1; exact .any e h1 (lists_of_norm.2 hl)
    | all e h hl => rw [h] at h2; exact .all e h2 (lists_of_norm.2 hl)
    | credentials e e' => exact .credentials e e'
  · intro h
    cases h with
    | nothing e => exact .nothing e
    | any e h hl =>
      rw [h] at h1
      obtain ⟨x, hx, rfl⟩ := Option.map_eq_some_iff.1 h1.symm
      exact .any e hx (lists_of_norm.1 hl)
    | all e h hl =>
      rw [h] at h2
      obtain ⟨x, hx, rfl⟩ := Option.map_eq_some_iff.1 h2.symm
      exact .all e hx (lists_of_norm.1 hl)
    | credentials e e' => exact .credentials e e'

theorem definition_read {D : String → Prop} {s : SecurityScheme} {w : Json} (h : Doc.IsSecurity env w s)
    (hv : Security F D w) (hf : Fine w) : DefinitionAsks s w := by
  obtain ⟨h⟩ := h
  rename_i es
  obtain ⟨w, hw, n, rfl, -⟩ := hv.scheme
  have hst := h.subtype
  refine ⟨n, hw, fun d => ?_⟩
  generalize s.subtype = st at hst
  cases hst with
  | known ho hn hp =>
    rw [member_occ, ho] at hw
    cases hw
    rcases hn with e | ⟨_, e, _⟩
    · cases e
      have key : ∀ k ∈ ["oneOf", "allOf"], (Json.obj es).member k = (Json.obj (Doc.schemeMembers es)).member k := by
        intro k hk
        rw [member_occ, member_occ, occ_scheme (by revert k; decide)]
      have k1 := key "oneOf" (by simp)
      have k2 := key "allOf" (by simp)
      generalize Doc.schemeMembers es = ms at hp k1 k2
      cases hp with
      | nosec => exact asks_nosec
      | oneOf hl => exact asks_oneOf k1 (lists_read hl) k2
      | allOf hl => exact asks_allOf k2 (lists_read hl) k1
      | auto | basic | digest | apikey | bearer | psk | oauth2 =>
        exact asks_known (by nofun) (by nofun) (by decide) (by decide)
    · cases e
  | @custom name data ho _ hd =>
    rw [member_occ, ho] at hw
    cases hw
    rw [asks_norm (w := data.norm) fun k hk => by
      rw [hd, norm_norm]; exact schemeMembers_norm hf (by revert k; decide)]
    exact ⟨.custom, fun h => by cases h with | custom h => exact h⟩

/-- What should be in a place of the document `d`. -/
abbrev FormOf (d : Json) (p : Place) : Json → Prop :=
  Form p.context (Defined "securityDefinitions" d) (Defined "schemaDefinitions" d)

theorem forms_read {d : Json} {t : Wot.Thing X} (h : Doc.IsThing env C d t) (hv : Thing F d) (hf : Fine d) (p : Place) :
    OptRel (ReadAs (Doc.IsForm C) (FormOf d p)) (t.formAt p) (d.formAt p) := by
  obtain ⟨h⟩ := h
  rename_i es
  have hint : ∀ (K : List String) (ctx : FormContext) (i : Wot.Interaction X) (a : Members) (j : Nat),
      Doc.IsInteraction env C K a i →
      Interaction F ctx (Defined "securityDefinitions" (.obj es)) (Defined "schemaDefinitions" (.obj es)) (.obj a) →
      Fine (.obj a) → OptRel (ReadAs (Doc.IsForm C)
        (Form ctx (Defined "securityDefinitions" (.obj es)) (Defined "schemaDefinitions" (.obj es))))
        i.forms[j]? (((Json.obj a).member "forms").bind (·.element j)) := by
    intro K ctx i a j hi hw hfa
    obtain ⟨w, hw, hfw, ⟨ws, e, _, hp⟩, hi⟩ := mustGiven hi.forms hfa (must_may hw.forms)
    rw [hw]
    exact array_read hi (fun ws' e' => by rw [e] at e'; cases e'; exact hp) hfw j
  cases p with
  | thing i =>
    refine optRel_bind (may_read h.forms hv.forms array_null hf) fun l w hl => ?_
    obtain ⟨ws, e, hp⟩ := hl.2.1
    exact array_read hl.1 (fun ws' e' => by rw [e] at e'; cases e'; exact hp) hl.2.2 i
  | property n i =>
    refine optRel_bind (may_read h.properties hv.properties map_null hf) fun m w hm =>
      optRel_bind (map_read hm.1 hm.2.1 hm.2.2 n) fun a b r => ?_
    obtain ⟨⟨r⟩, h1, h2⟩ := r
    exact hint _ .property _ _ i r.interaction h1.interaction h2
  | action n i =>
    refine optRel_bind (may_read h.actions hv.actions map_null hf) fun m w hm =>
      optRel_bind (map_read hm.1 hm.2.1 hm.2.2 n) fun a b r => ?_
    obtain ⟨⟨r⟩, h1, h2⟩ := r
    exact hint _ .action _ _ i r.interaction h1.interaction h2
  | event n i =>
    refine optRel_bind (may_read h.events hv.events map_null hf) fun m w hm =>
      optRel_bind (map_read hm.1 hm.2.1 hm.2.2 n) fun a b r => ?_
    obtain ⟨⟨r⟩, h1, h2⟩ := r
    exact hint _ .event _ _ i r.interaction h1.interaction h2

theorem opens_read {d : Json} {t : Wot.Thing X} (h : Doc.IsThing env C d t) (hv : Thing F d) (hf : Fine d)
    {has : String → Prop} {p : Place} : d.Opens has p ↔ t.Opens has p := by
  have hforms := forms_read h hv hf
  obtain ⟨h⟩ := h
  rename_i es
  obtain ⟨o, ho, hfo, hmo, hdo⟩ := mustGiven h.securityDefinitions hf (must_may hv.securityDefinitions)
  obtain ⟨x, hx, -, -, hs⟩ := mustGiven h.security hf (must_may hv.security)
  refine opens_iff (demands_of ho fun n => optRel_mono (map_read hdo hmo hfo n) fun _ _ r => definition_read r.1 r.2.1 r.2.2)
    fun p => optRel_mono (hforms p) ?_
  rintro f w ⟨hi, hw, hfw⟩
  obtain ⟨hi⟩ := hi
  refine names_of (optRel_mono (may_read hi.security hw.security ?_ hfw) fun _ _ r => lists_read r.1) hx (lists_read hs)
  rintro (⟨_, e, _⟩ | ⟨_, e, _⟩) <;> cases e

end Conform

/-! ### What cannot be met -/

theorem met_locked {has : String → Prop} {n : String} : Met t.Demands has n ↔ ∀ S, t.Locked has S → ¬ S n := by
  constructor
  · intro h
    induction h with
    | nothing h => exact fun S hS hn => hS _ hn _ h
    | credentials h hh => exact fun S hS hn => hS _ hn _ h hh
    | any h hm _ ih => exact fun S hS hn => ih S hS (hS _ hn _ h _ hm)
    | all h _ ih =>
      intro S hS hn
      obtain ⟨m, hm, hs⟩ := hS _ hn _ h
      exact ih m hm S hS hs
  · intro h
    refine Classical.byContradiction fun hn => h (fun n => ¬ Met t.Demands has n) ?_ hn
    intro n hn d hd
    cases d with
    | nothing => exact hn (.nothing hd)
    | credentials => exact fun hh => hn (.credentials hd hh)
    | any l => exact fun m hm hmet => hn (.any hd hm hmet)
    | all l =>
      refine Classical.byContradiction fun hall => hn (.all hd fun m hm => ?_)
      exact Classical.byContradiction fun hmet => hall ⟨m, hm, hmet⟩

/-- The form in a place is a form of the Thing. -/
theorem hasForm_of_formAt {p : Place} {f : Form X} (h : t.formAt p = some f) : t.HasForm p.context f := by
  cases p with
  | thing i =>
    obtain ⟨l, hl, h⟩ := Option.bind_eq_some_iff.1 h
    exact .thing hl (List.mem_of_getElem? h)
  | property n i =>
    obtain ⟨m, hm, h⟩ := Option.bind_eq_some_iff.1 h
    obtain ⟨a, ha, h⟩ := Option.bind_eq_some_iff.1 h
    exact .property hm (HMap.mem_of_get? ha) (List.mem_of_getElem? h)
  | action n i =>
    obtain ⟨m, hm, h⟩ := Option.bind_eq_some_iff.1 h
    obtain ⟨a, ha, h⟩ := Option.bind_eq_some_iff.1 h
    exact .action hm (HMap.mem_of_get? ha) (List.mem_of_getElem? h)
  | event n i =>
    obtain ⟨m, hm, h⟩ := Option.bind_eq_some_iff.1 h
    obtain ⟨a, ha, h⟩ := Option.bind_eq_some_iff.1 h
    exact .event hm (HMap.mem_of_get? ha) (List.mem_of_getElem? h)

end Wot
