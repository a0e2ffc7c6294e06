import Verif.Lemmas.Serde
import Verif.Lemmas.Built
import Verif.Spec.Storable
/-
Security schemes are read back from what they are written as.
-/
namespace Wot

/-- Distinct literal names. -/
macro "names" : tactic => `(tactic| (simp only [List.map_cons, List.map_nil]; decide))

theorem occ_none_of_keys {K : List String} {m : Members} (h : ∀ kv ∈ m, kv.1 ∈ K) {k : String}
    (hk : k ∉ K) : occ k m = [] :=
  occ_eq_nil.2 fun hm => by
    obtain ⟨kv, hkv, rfl⟩ := List.mem_map.1 hm
    exact hk (h kv hkv)

theorem members_keys {L : List (String × Option Json)} {K : List String}
    (h : L.map (·.1) = K) : ∀ kv ∈ members L, kv.1 ∈ K := fun _ hkv => h ▸ mem_members hkv

/-- The fields of a struct, of which other members are written after it. -/
theorem Carries.left {es a b : Members} {k : String} (h : Carries es (a ++ b) k)
    (hb : occ k b = []) : Carries es a k :=
  h.congr (by rw [occ_append, hb, List.append_nil])

theorem Carries.right {es a b : Members} {k : String} (h : Carries es (a ++ b) k)
    (ha : occ k a = []) : Carries es b k :=
  h.congr (by rw [occ_append, ha, List.nil_append])

/-- The written value of one field. -/
theorem Carries.field {es : Members} {L : List (String × Option Json)} {k : String}
    (_ : Carries es (members L) k) (hn : (L.map (·.1)).Nodup) {j : Option Json}
    (hj : fieldOf k L = j) : lastOf (occ k (members L)) = j :=
  (last_members hn k).trans hj

/-- Members with at most one entry each, carrying a single member. -/
theorem Carries.single {es : Members} {k : String} {v : Json} (hn : (es.map (·.1)).Nodup)
    (h : ∀ k', Carries es [(k, v)] k') : ∃ v', es = [(k, v')] ∧ Represents v' v := by
  have hk := h k
  unfold Carries at hk
  simp only [occ_cons, occ_nil, if_true, lastOf] at hk
  obtain ⟨v', h1, h2⟩ := hk
  have hm : (k, v') ∈ es := mem_occ.1 (by simp [h1])
  have hall : ∀ kv ∈ es, kv.1 = k := by
    rintro ⟨k', w⟩ hkv
    have hk' := h k'
    unfold Carries at hk'
    simp only [occ_cons, occ_nil] at hk'
    by_cases e : k = k'
    · exact e.symm
    · rw [if_neg e] at hk'
      have : w ∈ occ k' es := mem_occ.2 hkv
      simp only [lastOf] at hk'
      rw [hk'] at this
      cases this
  cases es with
  | nil => cases hm
  | cons e es =>
    have he := hall e (by simp)
    cases es with
    | nil =>
      refine ⟨v', ?_, h2⟩
      rcases List.mem_cons.1 hm with rfl | hm
      · rfl
      · cases hm
    | cons e' es =>
      have he' := hall e' (by simp)
      simp only [List.map_cons, List.nodup_cons, List.mem_cons, not_or] at hn
      exact absurd (he.trans he'.symm) hn.1.1

theorem rest_nodup {es : Members} (hn : (es.map (·.1)).Nodup) (K : List String) :
    ((rest K es).map (·.1)).Nodup :=
  List.Sublist.nodup (List.Sublist.map _ List.filter_sublist) hn

theorem occ_absent {k : String} {m : Members} (h : k ∉ m.map (·.1)) : occ k m = [] := occ_eq_nil.2 h

theorem location_rt (l : SecLocation) : RT (serLocation l) deLocation l := by
  cases l <;> exact enum_rt_buffered rfl

theorem qop_rt (q : QoP) : RT (serQoP q) deQoP q := by
  cases q <;> exact enum_rt_buffered rfl

theorem Option.map_str_rt {x : Option String} :
    ∀ a, x = some a → Json.str a ≠ .null ∧ RT (.str a) deStr a := fun a _ => ⟨nofun, str_rt a⟩

theorem strings_field {x : Option (List String)} :
    ∀ a, x = some a → serStrings a ≠ .null ∧ RT (serStrings a) deStrings a :=
  fun a _ => ⟨serStrings_ne_null a, strings_rt a⟩

theorem bool_field {x : Option Bool} :
    ∀ a, x = some a → Json.bool a ≠ .null ∧ RT (Json.bool a) deBool a := fun a _ => ⟨nofun, bool_rt a⟩

theorem lang_field {env : SerdeEnv} {x : Option MultiLanguage} (h : LangKept env x) :
    ∀ a, x = some a → serLang env.toEnv a ≠ .null ∧ RT (serLang env.toEnv a) (deLang env) a :=
  fun a ha => ⟨serLang_ne_null _ a, lang_rt (h a ha).1 (h a ha).2⟩

/-- The member names of a predefined scheme other than the tag. -/
def knownNames : KnownScheme → List String
  | .noSec => []
  | .auto => []
  | .combo (.oneOf _) => ["oneOf"]
  | .combo (.allOf _) => ["allOf"]
  | .basic _ => ["in", "name"]
  | .digest _ => ["qop", "in", "name"]
  | .bearer _ => ["authorization", "alg", "format", "in", "name"]
  | .psk _ => ["identity"]
  | .oauth2 _ => ["authorization", "token", "refresh", "scopes", "flow"]
  | .apiKey _ => ["in", "name"]

theorem known_rt {es : Members} (hn : (es.map (·.1)).Nodup) (s : KnownScheme)
    (hc : ∀ k, k ∉ securityKeys → Carries es (serKnown s) k) (hs : ∀ k ∈ securityKeys, occ k es = []) :
    deKnown es = some s := by
  have hr : ∀ {L : List (String × Option Json)} {k : String} {v : Option Json},
      serKnown s = members L → k ∉ "scheme" :: securityKeys → (L.map (·.1)).Nodup → fieldOf k L = v →
      Carries (rest ["scheme"] es) (members L) k ∧ lastOf (occ k (members L)) = v := by
    intro L k v h1 h2 h3 h4
    simp only [List.mem_cons, not_or] at h2
    have := (hc k h2.2).rest (known := ["scheme"]) (by simpa using h2.1)
    rw [h1] at this
    exact ⟨this, this.field h3 h4⟩
  have tag : ∀ {t : String} {a : SchemeTag}, lastOf (occ "scheme" (serKnown s)) = some (.str t) →
      nameOf? schemeTable t = some a → required "scheme" (deTag schemeTable) es = some a :=
    fun h1 h2 => required_rt (hc "scheme" (by decide)) h1 (tag_rt h2)
  cases s with
  | noSec =>
    have ht := tag (t := "nosec") (a := .noSec) rfl (by rfl)
    simp only [deKnown, ht, Option.bind_some, bind, pure]
  | auto =>
    have ht := tag (t := "auto") (a := .auto) rfl (by rfl)
    simp only [deKnown, ht, Option.bind_some, bind, pure]
  | combo c =>
    have ht : required "scheme" (deTag schemeTable) es = some .combo := by
      cases c <;> exact tag (t := "combo") (by simp [serKnown, occ_cons, occ_nil, lastOf]) (by rfl)
    have hcombo : ∀ (k : String) (l : List String), k ≠ "scheme" →
        serKnown (.combo c) = [("scheme", .str "combo"), (k, serStrings l)] →
        ∃ v', rest ["scheme"] es = [(k, v')] ∧ Represents v' (serStrings l) := by
      intro k l hk he
      refine Carries.single (rest_nodup hn _) fun k' => ?_
      by_cases e : k' = "scheme"
      · subst e
        unfold Carries
        rw [occ_rest, occ_cons, occ_nil, if_neg hk, if_pos (by simp)]
        rfl
      · by_cases e2 : k' ∈ securityKeys
        · have : k ≠ k' := by
            rintro rfl
            cases c <;> simp only [serKnown, List.cons.injEq, Prod.mk.injEq] at he
            · rw [← he.2.1.1] at e2; exact absurd e2 (by decide)
            · rw [← he.2.1.1] at e2; exact absurd e2 (by decide)
          unfold Carries
          rw [occ_rest, occ_cons, occ_nil, if_neg this, hs k' e2, ite_self]
          rfl
        · have h1 := hc k' e2
          rw [he] at h1
          refine (h1.rest (by simpa using e)).congr ?_
          rw [occ_cons, if_neg (Ne.symm e)]
    cases c with
    | oneOf l =>
      obtain ⟨v', h1, h2⟩ := hcombo "oneOf" l (by decide) rfl
      simp only [deKnown, ht, Option.bind_some, bind, h1, deCombo, if_true, strings_rt l v' h2,
        Option.map_some]
    | allOf l =>
      obtain ⟨v', h1, h2⟩ := hcombo "allOf" l (by decide) rfl
      have : ("allOf" : String) ≠ "oneOf" := by decide
      simp only [deKnown, ht, Option.bind_some, bind, h1, deCombo, if_true, if_neg this,
        strings_rt l v' h2, Option.map_some]
  | basic s =>
    have ht := tag (t := "basic") (a := .basic)
      ((last_members (by names) _).trans (by simp [fieldOf])) (by rfl)
    have h1 := hr (k := "in") rfl (by decide) (by names) (by simp [fieldOf]; rfl)
    have h2 := hr (k := "name") rfl (by decide) (by names) (by simp [fieldOf]; rfl)
    have g1 := defaulted_rt (d := SecLocation.header) h1.1 h1.2 (location_rt s.location)
    have g2 := optional_field h2.1 h2.2 Option.map_str_rt
    simp only [deKnown, ht, Option.bind_some, bind, deBasic, g1, g2, pure, Option.map_some]
  | digest s =>
    have ht := tag (t := "digest") (a := .digest)
      ((last_members (by names) _).trans (by simp [fieldOf])) (by rfl)
    have h1 := hr (k := "in") rfl (by decide) (by names) (by simp [fieldOf]; rfl)
    have h2 := hr (k := "name") rfl (by decide) (by names) (by simp [fieldOf]; rfl)
    have h3 := hr (k := "qop") rfl (by decide) (by names) (by simp [fieldOf]; rfl)
    have g1 := defaulted_rt (d := SecLocation.header) h1.1 h1.2 (location_rt s.location)
    have g2 := optional_field h2.1 h2.2 Option.map_str_rt
    have g3 := required_rt h3.1 h3.2 (qop_rt s.qop)
    simp only [deKnown, ht, Option.bind_some, bind, deDigest, g1, g2, g3, pure, Option.map_some]
  | bearer s =>
    have ht := tag (t := "bearer") (a := .bearer)
      ((last_members (by names) _).trans (by simp [fieldOf])) (by rfl)
    have h1 := hr (k := "in") rfl (by decide) (by names) (by simp [fieldOf]; rfl)
    have h2 := hr (k := "name") rfl (by decide) (by names) (by simp [fieldOf]; rfl)
    have h3 := hr (k := "authorization") rfl (by decide) (by names) (by simp [fieldOf]; rfl)
    have h4 := hr (k := "alg") rfl (by decide) (by names) (by simp [fieldOf]; rfl)
    have h5 := hr (k := "format") rfl (by decide) (by names) (by simp [fieldOf]; rfl)
    have g1 := defaulted_rt (d := SecLocation.header) h1.1 h1.2 (location_rt s.location)
    have g2 := optional_field h2.1 h2.2 Option.map_str_rt
    have g3 := optional_field h3.1 h3.2 Option.map_str_rt
    have g4 := defaulted_rt (d := "ES256") h4.1 h4.2 (str_rt s.alg)
    have g5 := defaulted_rt (d := "jwt") h5.1 h5.2 (str_rt s.format)
    simp only [deKnown, ht, Option.bind_some, bind, deBearer, g1, g2, g3, g4, g5, pure,
      Option.map_some]
  | psk s =>
    have ht := tag (t := "psk") (a := .psk)
      ((last_members (by names) _).trans (by simp [fieldOf])) (by rfl)
    have h1 := hr (k := "identity") rfl (by decide) (by names) (by simp [fieldOf]; rfl)
    have g1 := optional_field h1.1 h1.2 Option.map_str_rt
    simp only [deKnown, ht, Option.bind_some, bind, dePsk, g1, pure, Option.map_some]
  | oauth2 s =>
    have ht := tag (t := "oauth2") (a := .oauth2)
      ((last_members (by names) _).trans (by simp [fieldOf])) (by rfl)
    have h1 := hr (k := "authorization") rfl (by decide) (by names) (by simp [fieldOf]; rfl)
    have h2 := hr (k := "token") rfl (by decide) (by names) (by simp [fieldOf]; rfl)
    have h3 := hr (k := "refresh") rfl (by decide) (by names) (by simp [fieldOf]; rfl)
    have h4 := hr (k := "scopes") rfl (by decide) (by names) (by simp [fieldOf]; rfl)
    have h5 := hr (k := "flow") rfl (by decide) (by names) (by simp [fieldOf]; rfl)
    have g1 := optional_field h1.1 h1.2 Option.map_str_rt
    have g2 := optional_field h2.1 h2.2 Option.map_str_rt
    have g3 := optional_field h3.1 h3.2 Option.map_str_rt
    have g4 := optional_field h4.1 h4.2 strings_field
    have g5 := required_rt h5.1 h5.2 (str_rt s.flow)
    simp only [deKnown, ht, Option.bind_some, bind, deOAuth2, g1, g2, g3, g4, g5, pure,
      Option.map_some]
  | apiKey s =>
    have ht := tag (t := "apikey") (a := .apiKey)
      ((last_members (by names) _).trans (by simp [fieldOf])) (by rfl)
    have h1 := hr (k := "in") rfl (by decide) (by names) (by simp [fieldOf]; rfl)
    have h2 := hr (k := "name") rfl (by decide) (by names) (by simp [fieldOf]; rfl)
    have g1 := defaulted_rt (d := SecLocation.query) h1.1 h1.2 (location_rt s.location)
    have g2 := optional_field h2.1 h2.2 Option.map_str_rt
    simp only [deKnown, ht, Option.bind_some, bind, deApiKey, g1, g2, pure, Option.map_some]

theorem norm_obj_eq {a b : Members}
    (h : ∀ k, (lastOf (occ k a)).map Json.norm = (lastOf (occ k b)).map Json.norm) :
    Json.norm (.obj a) = Json.norm (.obj b) := by
  simp only [Json.norm, Json.obj.injEq]
  refine (HMap.collect_sorted _).ext (HMap.collect_sorted _) fun k => ?_
  rw [get?_norm, get?_norm, h]

theorem Carries.norm_eq {es m : Members} {k : String} (h : Carries es m k) :
    (lastOf (occ k es)).map Json.norm = (lastOf (occ k m)).map Json.norm := by
  unfold Carries at h
  cases e : lastOf (occ k m) with
  | none => rw [e] at h; rw [h]; rfl
  | some v =>
    rw [e] at h
    obtain ⟨v', h1, h2⟩ := h
    rw [h1]
    simp only [lastOf, Option.map_some, h2.2]

theorem nameOf?_none {α : Type} {table : List (String × α)} {s : String}
    (h : s ∉ table.map (·.1)) : nameOf? table s = none := by
  unfold nameOf?
  rw [List.find?_eq_none.2]
  · rfl
  · intro e he
    simp only [decide_eq_true_eq]
    rintro rfl
    exact h (List.mem_map.2 ⟨e, he, rfl⟩)

/-- What is read for a custom scheme that is not taken for a predefined one. -/
theorem deUnknown_rt {es m : Members} {scheme : String}
    (hc : ∀ k, k ∉ securityKeys → Carries es (("scheme", .str scheme) :: m) k)
    (hs : ∀ k ∈ securityKeys, occ k es = []) (hv : (Json.obj m).IsValue)
    (hm : ∀ kv ∈ m, kv.1 ∉ "scheme" :: Names.security) :
    deUnknown es = some (.unknown scheme (.obj m)) := by
  have habs : ∀ k, k ∈ "scheme" :: Names.security → occ k m = [] := fun k hk =>
    occ_eq_nil.2 fun h => by
      obtain ⟨kv, hkv, rfl⟩ := List.mem_map.1 h
      exact hm kv hkv hk
  have h1 : required "scheme" deStr es = some scheme :=
    required_rt (hc "scheme" (by decide))
      (by rw [occ_cons, if_pos rfl, habs _ (by simp)]; rfl) (str_rt scheme)
  have h2 : Json.norm (.obj (rest ["scheme"] es)) = .obj m := by
    refine Eq.trans (norm_obj_eq fun k => ?_) hv
    rw [occ_rest]
    by_cases e : k = "scheme"
    · rw [if_pos (by simpa using e), e, habs _ (by simp)]
    · rw [if_neg (by simpa using e)]
      by_cases e2 : k ∈ securityKeys
      · rw [hs k e2, habs k (List.mem_cons_of_mem _ e2)]
      · rw [(hc k e2).norm_eq, occ_cons, if_neg (Ne.symm e)]
  simp only [deUnknown, h1, Option.bind_some, bind, pure, h2]

/-! ### Custom schemes that look like predefined ones -/

/-- Reading succeeds on exactly the values with the property. -/
def Accepts {α : Type} (de : Json → Option α) (P : Json → Prop) : Prop :=
  ∀ v v', v.IsValue → Represents v' v → ((∃ a, de v' = some a) ↔ P v)

theorem isValue_eq {v v' : Json} (hv : v.IsValue) (h : Represents v' v) : v = v'.norm := by
  rw [h.2, hv]

theorem accepts_str : Accepts deStr IsText := by
  intro v v' hv h
  rw [isValue_eq hv h]
  cases v' <;> simp [deStr, IsText, Json.norm]

theorem mapOpt_str {l : List Json} : (∃ a, mapOpt deStr l = some a) ↔ ∃ s : List String, l = s.map .str := by
  induction l with
  | nil => exact ⟨fun _ => ⟨[], rfl⟩, fun _ => ⟨[], rfl⟩⟩
  | cons j l ih =>
    constructor
    · rintro ⟨a, ha⟩
      cases j with
      | str s =>
        simp only [mapOpt, deStr] at ha
        split at ha
        · cases ha
        · rename_i ss hss
          obtain ⟨s', rfl⟩ := ih.1 ⟨ss, hss⟩
          exact ⟨s :: s', rfl⟩
      | _ => cases ha
    · rintro ⟨s, hs⟩
      cases s with
      | nil => cases hs
      | cons s ss =>
        simp only [List.map_cons, List.cons.injEq] at hs
        obtain ⟨rfl, rfl⟩ := hs
        obtain ⟨a, ha⟩ := ih.2 ⟨ss, rfl⟩
        exact ⟨s :: a, by simp only [mapOpt, deStr, ha]⟩

theorem norm_strings {l : List Json} {s : List String} (h : Json.normList l = s.map .str) : l = s.map .str := by
  rw [normList_eq] at h
  induction l generalizing s with
  | nil => cases s <;> first | rfl | cases h
  | cons j l ih =>
    cases s with
    | nil => cases h
    | cons a s =>
      simp only [List.map_cons, List.cons.injEq] at h ⊢
      refine ⟨?_, ih h.2⟩
      have := h.1
      cases j <;> simp_all [Json.norm]

theorem normList_strings (s : List String) : Json.normList (s.map .str) = s.map .str := by
  rw [normList_eq]; simp [Json.norm]

theorem accepts_strings : Accepts deStrings IsTexts := by
  intro v v' hv h
  rw [isValue_eq hv h]
  unfold deStrings deOneOrMany IsTexts IsText
  cases v' with
  | str s => exact ⟨fun _ => .inl ⟨s, rfl⟩, fun _ => ⟨[s], rfl⟩⟩
  | arr l =>
    simp only [deStr, deVec, Json.norm, Json.arr.injEq, reduceCtorEq, exists_false, false_or]
    rw [mapOpt_str]
    constructor
    · rintro ⟨s, rfl⟩; exact ⟨s, normList_strings s⟩
    · rintro ⟨s, hs⟩; exact ⟨s, norm_strings hs⟩
  | _ => simp [deStr, deVec, Json.norm]

theorem nameOf?_some {α : Type} {table : List (String × α)} {s : String} :
    (∃ a, nameOf? table s = some a) ↔ s ∈ table.map (·.1) := by
  constructor
  · rintro ⟨a, ha⟩
    refine Classical.byContradiction fun hs => ?_
    rw [nameOf?_none hs] at ha
    cases ha
  · intro hs
    obtain ⟨e, he, rfl⟩ := List.mem_map.1 hs
    unfold nameOf?
    cases hf : table.find? fun e' => e'.1 = e.1 with
    | none => exact absurd (List.find?_eq_none.1 hf e he) (by simp)
    | some x => exact ⟨x.2, rfl⟩

theorem accepts_enum {α : Type} {table : List (String × α)} {names : List String}
    (ht : table.map (·.1) = names) : Accepts (deEnumBuffered table) (IsNameIn names) := by
  intro v v' hv h
  have e := isValue_eq hv h
  have hnd := h.1
  rw [e]
  unfold IsNameIn
  cases v' with
  | str s =>
    simp only [deEnumBuffered, nameOf?_some, ht, Json.norm, Json.str.injEq, reduceCtorEq, or_false]
    exact ⟨fun h => ⟨s, h, rfl⟩, fun ⟨n, hn, e⟩ => e ▸ hn⟩
  | obj m =>
    have hm : ∀ n, Json.norm (.obj m) = .obj [(n, .null)] ↔ m = [(n, .null)] := by
      intro n
      constructor
      · intro he
        obtain ⟨es, e1, hn1, hc⟩ := Represents.obj (m := [(n, .null)]) ⟨hnd, he⟩
        cases e1
        obtain ⟨w, rfl, hw⟩ := Carries.single hn1 hc
        rw [hw.null]
      · rintro rfl; rfl
    have hm' : ∀ n, Json.norm (.obj m) = .obj [(n, .obj [])] ↔ m = [(n, .obj [])] := by
      intro n
      constructor
      · intro he
        obtain ⟨es, e1, hn1, hc⟩ := Represents.obj (m := [(n, .obj [])]) ⟨hnd, he⟩
        cases e1
        obtain ⟨w, rfl, hw⟩ := Carries.single hn1 hc
        obtain ⟨es', rfl, -, hc'⟩ := hw.obj
        cases es' with
        | nil => rfl
        | cons x es' =>
          have := hc' x.1
          unfold Carries at this
          simp [occ, lastOf] at this
      · rintro rfl; rfl
    constructor
    · rintro ⟨a, ha⟩
      unfold deEnumBuffered at ha
      split at ha
      · cases ‹Json.obj m = _›
      · rename_i s he
        cases he
        exact ⟨s, ht ▸ nameOf?_some.1 ⟨a, ha⟩, .inr (.inl ((hm s).2 rfl))⟩
      · rename_i s he
        cases he
        exact ⟨s, ht ▸ nameOf?_some.1 ⟨a, ha⟩, .inr (.inr ((hm' s).2 rfl))⟩
      · cases ha
    · rintro ⟨n, hn, he | he | he⟩
      · simp [Json.norm] at he
      · rw [(hm n).1 he]
        exact nameOf?_some.2 (ht ▸ hn)
      · rw [(hm' n).1 he]
        exact nameOf?_some.2 (ht ▸ hn)
  | _ => simp [deEnumBuffered, Json.norm]

theorem Carries.absent {es m : Members} {k : String} (h : Carries es m k)
    (hm : lastOf (occ k m) = none) : occ k es = [] := by
  unfold Carries at h
  rwa [hm] at h

theorem Carries.present {es m : Members} {k : String} (h : Carries es m k) {v : Json}
    (hm : lastOf (occ k m) = some v) : ∃ v', occ k es = [v'] ∧ Represents v' v := by
  unfold Carries at h
  rwa [hm] at h

/-- The value of a member of an object without repeated members. -/
theorem mem_iff_last {m : Members} (hn : (m.map (·.1)).Nodup) {k : String} {v : Json} :
    (k, v) ∈ m ↔ lastOf (occ k m) = some v := by
  constructor
  · intro h; rw [occ_nodup hn h]; rfl
  · intro h; exact mem_occ.1 (lastOf_mem h)

section
variable {α : Type} {de : Json → Option α} {P : Json → Prop} {es m : Members} {k : String}

theorem isValue_member (hv : (Json.obj m).IsValue) : (m.map (·.1)).Nodup ∧ ∀ kv ∈ m, kv.2.IsValue := by
  have h1 : (m.map (·.1)).Nodup := by
    have := norm_noDup (.obj m)
    rw [hv] at this
    exact this.1
  refine ⟨h1, fun kv hkv => ?_⟩
  have h2 : HMap.collect (Json.normMembers m) = m := by simpa [Json.IsValue, Json.norm] using hv
  have h3 := get?_norm m kv.1
  have h4 : lastOf (occ kv.1 m) = some kv.2 := (mem_iff_last h1).1 hkv
  rw [h2, h4, ← occ_get? h1, h4] at h3
  simp only [Option.map_some, Option.some.injEq] at h3
  exact h3.symm

theorem accepts_defaulted (ha : Accepts de P) (hv : (Json.obj m).IsValue) (hc : Carries es m k) {d : α} :
    (∃ a, defaulted k d de es = some a) ↔ IfMember m k P := by
  obtain ⟨hn, hv'⟩ := isValue_member hv
  unfold IfMember
  simp only [mem_iff_last hn]
  cases e : lastOf (occ k m) with
  | none => rw [defaulted_absent hc e]; simp
  | some v =>
    obtain ⟨v', h1, h2⟩ := hc.present e
    unfold defaulted
    rw [h1]
    simp only [Option.some.injEq, forall_eq']
    exact ha v v' (hv' _ ((mem_iff_last hn).2 e)) h2

theorem accepts_required (ha : Accepts de P) (hv : (Json.obj m).IsValue) (hc : Carries es m k) :
    (∃ a, required k de es = some a) ↔ HasMember m k P := by
  obtain ⟨hn, hv'⟩ := isValue_member hv
  unfold HasMember
  simp only [mem_iff_last hn]
  cases e : lastOf (occ k m) with
  | none =>
    unfold required
    rw [hc.absent e]
    simp
  | some v =>
    obtain ⟨v', h1, h2⟩ := hc.present e
    unfold required
    rw [h1]
    simp only [Option.some.injEq, exists_eq_left']
    exact ha v v' (hv' _ ((mem_iff_last hn).2 e)) h2

theorem accepts_option (ha : Accepts de P) : Accepts (deOption de) fun v => v ≠ .null → P v := by
  intro v v' hv h
  by_cases hn : v = .null
  · subst hn
    rw [h.null]
    exact ⟨fun _ h => absurd rfl h, fun _ => ⟨none, rfl⟩⟩
  · have hn' := h.ne_null hn
    have : deOption de v' = (de v').map some := by cases v' <;> first | rfl | exact absurd rfl hn'
    rw [this]
    refine Iff.trans ?_ ((ha v v' hv h).trans ⟨fun h _ => h, fun h => h hn⟩)
    cases de v' <;> simp

theorem accepts_optional (ha : Accepts de P) (hv : (Json.obj m).IsValue) (hc : Carries es m k) :
    (∃ a, optional k de es = some a) ↔ IfNotNull m k P :=
  accepts_defaulted (accepts_option ha) hv hc

end

theorem located_iff {es m : Members} (hv : (Json.obj m).IsValue) (h1 : Carries es m "in")
    (h2 : Carries es m "name") {d : SecLocation} :
    ((∃ a, defaulted "in" d deLocation es = some a) ∧ ∃ a, optional "name" deStr es = some a) ↔
      LooksLocated m :=
  and_congr (accepts_defaulted (accepts_enum rfl) hv h1) (accepts_optional accepts_str hv h2)

/-- The remaining members are read as a combination just when they look like one. -/
theorem combo_iff {es m : Members} (hn : (es.map (·.1)).Nodup) (hv : (Json.obj m).IsValue)
    (hc : ∀ k, Carries es m k) :
    (∃ a, deCombo es = some a) ↔ LooksPredefined "combo" m := by
  obtain ⟨hnm, hvm⟩ := isValue_member hv
  constructor
  · rintro ⟨a, ha⟩
    unfold deCombo at ha
    split at ha
    · rename_i k v
      have hm : ∃ w, m = [(k, w)] ∧ Represents v w ∧ w.IsValue := by
        have hk := hc k
        unfold Carries at hk
        cases e : lastOf (occ k m) with
        | none => rw [e] at hk; simp [occ_cons] at hk
        | some w =>
          rw [e] at hk
          obtain ⟨v', h1, h2⟩ := hk
          have hv' : v = v' := by simpa [occ_cons, occ_nil] using h1
          have hmem := (mem_iff_last hnm).2 e
          refine ⟨w, ?_, hv' ▸ h2, hvm _ hmem⟩
          have hall : ∀ kv ∈ m, kv = (k, w) := by
            rintro ⟨k', w'⟩ h'
            have hk' := hc k'
            unfold Carries at hk'
            rw [(mem_iff_last hnm).1 h'] at hk'
            obtain ⟨v'', h3, _⟩ := hk'
            have : k = k' := by
              refine Classical.byContradiction fun hne => ?_
              simp [occ_cons, occ_nil, hne] at h3
            subst this
            rw [(mem_iff_last hnm).1 h'] at e
            simp only [Option.some.injEq] at e
            rw [e]
          match m, hmem, hall, hnm with
          | [x], _, hall, _ => rw [hall x (by simp)]
          | x :: y :: l, _, hall, hnm =>
            have h1 := hall x (by simp)
            have h2 := hall y (by simp)
            subst h1 h2
            simp at hnm
      obtain ⟨w, rfl, hw, hwv⟩ := hm
      split at ha
      · subst k
        obtain ⟨l, hl, rfl⟩ := Option.map_eq_some_iff.1 ha
        exact .oneOf ((accepts_strings w v hwv hw).1 ⟨l, hl⟩)
      · split at ha
        · subst k
          obtain ⟨l, hl, rfl⟩ := Option.map_eq_some_iff.1 ha
          exact .allOf ((accepts_strings w v hwv hw).1 ⟨l, hl⟩)
        · cases ha
    · cases ha
  · intro h
    have hm : ∃ v, IsTexts v ∧ (m = [("oneOf", v)] ∨ m = [("allOf", v)]) := by
      generalize hs : "combo" = s at h
      cases h with
      | oneOf h => exact ⟨_, h, .inl rfl⟩
      | allOf h => exact ⟨_, h, .inr rfl⟩
      | _ => exact absurd hs (by decide)
    obtain ⟨v, hx, rfl | rfl⟩ := hm
    · obtain ⟨v', rfl, hr⟩ := Carries.single hn hc
      obtain ⟨a, ha⟩ := (accepts_strings v v' (hvm _ (List.mem_singleton.2 rfl)) hr).2 hx
      exact ⟨.oneOf a, by simp [deCombo, ha]⟩
    · obtain ⟨v', rfl, hr⟩ := Carries.single hn hc
      obtain ⟨a, ha⟩ := (accepts_strings v v' (hvm _ (List.mem_singleton.2 rfl)) hr).2 hx
      exact ⟨.allOf a, by simp [deCombo, ha]⟩

theorem exists_map {α β : Type} {f : α → β} {o : Option α} : (∃ b, o.map f = some b) ↔ ∃ a, o = some a := by
  cases o <;> simp

theorem exists_bind {α β : Type} {f : α → Option β} {o : Option α} :
    (∃ b, o.bind f = some b) ↔ ∃ a, o = some a ∧ ∃ b, f a = some b := by
  cases o <;> simp

/-- A custom scheme is read as a predefined one just when it looks like one. -/
theorem deKnown_iff {es m : Members} {scheme : String} (hn : (es.map (·.1)).Nodup)
    (hv : (Json.obj m).IsValue) (hm : ∀ kv ∈ m, kv.1 ∉ "scheme" :: Names.security)
    (hc : ∀ k, k ∉ securityKeys → Carries es (("scheme", .str scheme) :: m) k)
    (hs : ∀ k ∈ securityKeys, occ k es = []) :
    (∃ a, deKnown es = some a) ↔ LooksPredefined scheme m := by
  have habs : ∀ k, k ∈ "scheme" :: Names.security → occ k m = [] := fun k hk =>
    occ_eq_nil.2 fun h => by
      obtain ⟨kv, hkv, rfl⟩ := List.mem_map.1 h
      exact hm kv hkv hk
  have h1 : required "scheme" (deTag schemeTable) es = nameOf? schemeTable scheme := by
    obtain ⟨v', h1, h2⟩ := (hc "scheme" (by decide)).present
      (by rw [occ_cons, if_pos rfl, habs _ (by simp)]; rfl)
    unfold required
    rw [h1]
    simp only [h2.str, deTag]
  have hr : ∀ k, Carries (rest ["scheme"] es) m k := by
    intro k
    by_cases e : k = "scheme"
    · unfold Carries
      rw [habs k (by simp [e]), occ_rest, if_pos (by simp [e])]
      rfl
    · by_cases e2 : k ∈ securityKeys
      · unfold Carries
        rw [habs k (List.mem_cons_of_mem _ e2), occ_rest, if_neg (by simpa using e), hs k e2]
        rfl
      · exact Carries.rest ((hc k e2).congr (by rw [occ_cons, if_neg (Ne.symm e)])) (by simpa using e)
  have hnr := rest_nodup hn ["scheme"]
  have hbasic : (∃ a, deBasic (rest ["scheme"] es) = some a) ↔ LooksLocated m := by
    rw [← located_iff hv (hr "in") (hr "name") (d := .header)]
    simp only [deBasic, bind, pure, exists_bind]
    simp
  have hapi : (∃ a, deApiKey (rest ["scheme"] es) = some a) ↔ LooksLocated m := by
    rw [← located_iff hv (hr "in") (hr "name") (d := .query)]
    simp only [deApiKey, bind, pure, exists_bind]
    simp
  have hdigest : (∃ a, deDigest (rest ["scheme"] es) = some a) ↔
      LooksLocated m ∧ HasMember m "qop" (IsNameIn ["auth", "auth-int"]) := by
    rw [← located_iff hv (hr "in") (hr "name") (d := .header),
      ← accepts_required (de := deQoP) (accepts_enum (names := ["auth", "auth-int"]) rfl) hv (hr "qop")]
    simp only [deDigest, bind, pure, exists_bind]
    simp [and_comm]
  have hbearer : (∃ a, deBearer (rest ["scheme"] es) = some a) ↔
      LooksLocated m ∧ IfNotNull m "authorization" IsText ∧ IfMember m "alg" IsText ∧
        IfMember m "format" IsText := by
    rw [← located_iff hv (hr "in") (hr "name") (d := .header),
      ← accepts_optional accepts_str hv (hr "authorization"),
      ← accepts_defaulted (d := "ES256") accepts_str hv (hr "alg"),
      ← accepts_defaulted (d := "jwt") accepts_str hv (hr "format")]
    simp only [deBearer, bind, pure, exists_bind]
    simp [and_comm, and_left_comm, and_assoc]
  have hpsk : (∃ a, dePsk (rest ["scheme"] es) = some a) ↔ IfNotNull m "identity" IsText := by
    rw [← accepts_optional accepts_str hv (hr "identity")]
    simp only [dePsk, bind, pure, exists_bind]
    simp
  have hoauth : (∃ a, deOAuth2 (rest ["scheme"] es) = some a) ↔
      IfNotNull m "authorization" IsText ∧ IfNotNull m "token" IsText ∧ IfNotNull m "refresh" IsText ∧
        IfNotNull m "scopes" IsTexts ∧ HasMember m "flow" IsText := by
    rw [← accepts_optional accepts_str hv (hr "authorization"),
      ← accepts_optional accepts_str hv (hr "token"), ← accepts_optional accepts_str hv (hr "refresh"),
      ← accepts_optional accepts_strings hv (hr "scopes"), ← accepts_required accepts_str hv (hr "flow")]
    simp only [deOAuth2, bind, pure, exists_bind]
    simp
  have hcombo := combo_iff hnr hv hr
  simp only [deKnown, bind, h1]
  constructor
  · rintro ⟨a, ha⟩
    obtain ⟨tag, ht, ha⟩ := Option.bind_eq_some_iff.1 ha
    have htab : (scheme, tag) ∈ schemeTable := by
      obtain ⟨e, he, rfl⟩ := Option.map_eq_some_iff.1 ht
      have h2 := List.find?_some he
      simp only [decide_eq_true_eq] at h2
      subst h2
      exact List.mem_of_find?_eq_some he
    have ha : ∃ a, _ = some a := ⟨a, ha⟩
    simp only [schemeTable, List.mem_cons, Prod.mk.injEq, List.not_mem_nil, or_false] at htab
    rcases htab with ⟨rfl, rfl⟩ | ⟨rfl, rfl⟩ | ⟨rfl, rfl⟩ | ⟨rfl, rfl⟩ | ⟨rfl, rfl⟩ | ⟨rfl, rfl⟩ |
      ⟨rfl, rfl⟩ | ⟨rfl, rfl⟩ | ⟨rfl, rfl⟩
    · exact .nosec
    · exact .auto
    · exact hcombo.1 (exists_map.1 ha)
    · exact .basic (hbasic.1 (exists_map.1 ha))
    · obtain ⟨h1, h2⟩ := hdigest.1 (exists_map.1 ha)
      exact .digest h1 h2
    · obtain ⟨h1, h2, h3, h4⟩ := hbearer.1 (exists_map.1 ha)
      exact .bearer h1 h2 h3 h4
    · exact .psk (hpsk.1 (exists_map.1 ha))
    · obtain ⟨h1, h2, h3, h4, h5⟩ := hoauth.1 (exists_map.1 ha)
      exact .oauth2 h1 h2 h3 h4 h5
    · exact .apikey (hapi.1 (exists_map.1 ha))
  · intro h
    cases h with
    | nosec => exact ⟨_, rfl⟩
    | auto => exact ⟨_, rfl⟩
    | oneOf h =>
      rw [show nameOf? schemeTable "combo" = some .combo from rfl]
      exact exists_map.2 (hcombo.2 (.oneOf h))
    | allOf h =>
      rw [show nameOf? schemeTable "combo" = some .combo from rfl]
      exact exists_map.2 (hcombo.2 (.allOf h))
    | basic h =>
      rw [show nameOf? schemeTable "basic" = some .basic from rfl]
      exact exists_map.2 (hbasic.2 h)
    | apikey h =>
      rw [show nameOf? schemeTable "apikey" = some .apiKey from rfl]
      exact exists_map.2 (hapi.2 h)
    | digest h h' =>
      rw [show nameOf? schemeTable "digest" = some .digest from rfl]
      exact exists_map.2 (hdigest.2 ⟨h, h'⟩)
    | bearer h h1 h2 h3 =>
      rw [show nameOf? schemeTable "bearer" = some .bearer from rfl]
      exact exists_map.2 (hbearer.2 ⟨h, h1, h2, h3⟩)
    | psk h =>
      rw [show nameOf? schemeTable "psk" = some .psk from rfl]
      exact exists_map.2 (hpsk.2 h)
    | oauth2 h h1 h2 h3 h4 =>
      rw [show nameOf? schemeTable "oauth2" = some .oauth2 from rfl]
      exact exists_map.2 (hoauth.2 ⟨h, h1, h2, h3, h4⟩)

theorem subtype_rt {es m : Members} {s : SchemeSubtype} (hn : (es.map (·.1)).Nodup)
    (hst : s.Kept) (hw : serSubtype s = some m)
    (hc : ∀ k, k ∉ securityKeys → Carries es m k) (hs : ∀ k ∈ securityKeys, occ k es = []) :
    deSubtype es = some s.stored := by
  cases s with
  | known s =>
    cases hw
    unfold deSubtype
    rw [known_rt hn s hc hs]
    rfl
  | unknown scheme data =>
    obtain ⟨h1, h2, rfl | ⟨d, rfl, h3⟩⟩ := hst
    · cases hw
      have hk : deKnown es = none :=
        Option.eq_none_iff_forall_ne_some.2 fun a ha => h1 ((deKnown_iff (m := []) hn rfl nofun hc hs).1 ⟨a, ha⟩)
      unfold deSubtype
      rw [hk]
      exact deUnknown_rt hc hs rfl nofun
    · cases hw
      have hk : deKnown es = none :=
        Option.eq_none_iff_forall_ne_some.2 fun a ha => h1 ((deKnown_iff hn h2 h3 hc hs).1 ⟨a, ha⟩)
      unfold deSubtype
      rw [hk]
      exact deUnknown_rt hc hs h2 h3

theorem serKnown_keys (s : KnownScheme) : ∀ kv ∈ serKnown s, kv.1 ∉ securityKeys := by
  cases s with
  | noSec => intro kv h; simp only [serKnown, List.mem_singleton] at h; subst h; decide
  | auto => intro kv h; simp only [serKnown, List.mem_singleton] at h; subst h; decide
  | combo c =>
    intro kv h
    cases c <;> simp only [serKnown, List.mem_cons, List.not_mem_nil, or_false] at h <;>
      rcases h with rfl | rfl <;> simp only <;> decide
  | _ =>
    intro kv h hk
    have := mem_members h
    simp only [List.map_cons, List.map_nil] at this
    revert hk
    generalize kv.1 = k at this
    simp only [List.mem_cons, List.not_mem_nil, or_false] at this
    revert this
    rintro (rfl | rfl | rfl | rfl | rfl | rfl) <;> decide

theorem serSubtype_keys {s : SchemeSubtype} {m : Members} (hst : s.Kept)
    (hw : serSubtype s = some m) : ∀ kv ∈ m, kv.1 ∉ securityKeys := by
  cases s with
  | known s => cases hw; exact serKnown_keys s
  | unknown scheme data =>
    obtain ⟨h1, h2, rfl | ⟨d, rfl, h3⟩⟩ := hst
    · cases hw
      intro kv hkv
      rw [List.mem_singleton.1 hkv]
      simp only; decide
    · cases hw
      intro kv hkv
      rcases List.mem_cons.1 hkv with rfl | hkv
      · simp only; decide
      · exact fun h => h3 kv hkv (List.mem_cons_of_mem _ h)

/-- A security definition is read back from what it is written as. -/
theorem security_rt {env : SerdeEnv} {s : SecurityScheme} {j : Json} (hst : s.Kept env)
    (hw : serSecurity env.toEnv s = some j) : RT j (deSecurity env) s.stored := by
  intro d hd
  obtain ⟨m, hm, rfl⟩ := Option.map_eq_some_iff.1 hw
  obtain ⟨es, rfl, hn, hc⟩ := hd.obj
  have hk := serSubtype_keys hst.subtype hm
  have hk' : ∀ k ∈ securityKeys, occ k m = [] := fun k hk1 => occ_eq_nil.2 fun h => by
    obtain ⟨kv, hkv, rfl⟩ := List.mem_map.1 h
    exact hk kv hkv hk1
  have hf : ∀ {k : String} {v : Option Json}, k ∈ securityKeys →
      fieldOf k [("@type", s.attype.map serStrings), ("description", s.description.map .str),
        ("descriptions", s.descriptions.map (serLang env.toEnv)), ("proxy", s.proxy.map .str)] = v →
      _ ∧ _ := fun {k v} h1 h2 =>
    have := (hc k).left (hk' k h1)
    And.intro this (this.field (by names) h2)
  have h1 := hf (k := "@type") (by decide) (by simp [fieldOf]; rfl)
  have h2 := hf (k := "description") (by decide) (by simp [fieldOf]; rfl)
  have h3 := hf (k := "descriptions") (by decide) (by simp [fieldOf]; rfl)
  have h4 := hf (k := "proxy") (by decide) (by simp [fieldOf]; rfl)
  have g1 := optional_field h1.1 h1.2 strings_field
  have g2 := optional_field h2.1 h2.2 Option.map_str_rt
  have g3 := optional_field h3.1 h3.2 (lang_field hst.descriptions)
  have g4 := optional_field h4.1 h4.2 Option.map_str_rt
  have g5 : deSubtype (rest securityKeys es) = some s.subtype.stored := by
    refine subtype_rt (rest_nodup hn _) hst.subtype hm (fun k hk1 => ?_) fun k hk1 => ?_
    · refine Carries.rest ((hc k).right ?_) hk1
      exact occ_none_of_keys (members_keys rfl) hk1
    · rw [occ_rest, if_pos hk1]
  simp only [deSecurity, g1, g2, g3, g4, g5, bind, Option.bind_some, pure, SecurityScheme.stored]

end Wot
