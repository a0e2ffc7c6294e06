import Verif.Lemmas.Inversion
import Verif.Lemmas.Reading
import Verif.Spec.Grammar
/-
Which documents can be read.
-/
namespace Wot

variable {α β : Type}

/-- The values that can be read are those with `P`. -/
def Acc (de : Json → Option α) (P : Json → Prop) : Prop := ∀ v, (∃ a, de v = some a) ↔ P v

variable {de : Json → Option α} {P : Json → Prop} {k : String} {es : Members}

theorem Acc.required (h : Acc de P) : (∃ a, required k de es = some a) ↔ HasOne k es P := by
  unfold Wot.required HasOne
  generalize occ k es = l
  match l with
  | [] => simp
  | [v] => simpa using h v
  | _ :: _ :: _ => simp

theorem Acc.defaulted (h : Acc de P) {d : α} : (∃ a, defaulted k d de es = some a) ↔ Doc.Given k es P := by
  unfold Wot.defaulted Doc.Given
  generalize occ k es = l
  match l with
  | [] => simp
  | [v] => simpa using h v
  | _ :: _ :: _ => simp

theorem Acc.option (h : Acc de P) : Acc (deOption de) (Doc.OrNull P) := by
  intro v
  cases v <;> simp only [deOption, exists_map, h _, Doc.OrNull] <;> simp

theorem Acc.optional (h : Acc de P) : (∃ a, optional k de es = some a) ↔ AtMostOne k es P :=
  h.option.defaulted

theorem Acc.str : Acc deStr IsText := by intro v; cases v <;> simp [deStr, IsText]
theorem Acc.bool : Acc deBool Doc.Flag := by intro v; cases v <;> simp [deBool, Doc.Flag]
theorem Acc.value : Acc deValue Doc.Any := by intro v; simp [deValue, Doc.Any]

theorem mapOpt_acc {A : Type} {f : A → Option β} {P : A → Prop} (h : ∀ a, (∃ b, f a = some b) ↔ P a) (l : List A) :
    (∃ bs, mapOpt f l = some bs) ↔ ∀ a ∈ l, P a := by
  induction l with
  | nil => simp [mapOpt]
  | cons a l ih =>
    simp only [mapOpt, List.mem_cons, forall_eq_or_imp, ← ih]
    rw [← h]
    cases f a with
    | none => simp
    | some b => cases mapOpt f l <;> simp

theorem Acc.vec (h : Acc de P) : Acc (deVec de) (Doc.ArrayOf P) := by
  intro v
  cases v <;> simp [deVec, Doc.ArrayOf, mapOpt_acc h]

theorem Acc.oneOrMany (h : Acc de P) : Acc (deOneOrMany de) (Doc.OneOrMany P) := by
  intro v
  rw [Doc.OneOrMany, ← h v, ← h.vec v]
  unfold deOneOrMany
  cases de v <;> simp

theorem Acc.strings : Acc deStrings IsTexts := by
  intro v
  have := Acc.str.oneOrMany v
  unfold deStrings
  rw [this]
  unfold Doc.OneOrMany IsTexts
  refine or_congr Iff.rfl ⟨?_, ?_⟩
  · rintro ⟨l, rfl, h⟩
    obtain ⟨s, rfl⟩ := mapOpt_str.1 ((mapOpt_acc Acc.str l).2 h)
    exact ⟨s, rfl⟩
  · rintro ⟨l, rfl⟩
    exact ⟨_, rfl, (mapOpt_acc Acc.str _).1 (mapOpt_str.2 ⟨l, rfl⟩)⟩

theorem Acc.map (h : Acc de P) : Acc (deMap de) (Doc.MapOf P) := by
  intro v
  cases v <;> simp only [deMap, Doc.MapOf, exists_map, reduceCtorEq, false_and, exists_false, Json.obj.injEq,
    exists_eq_left']
  rw [mapOptVals, mapOpt_acc (P := fun kv : String × Json => P kv.2)]
  intro kv
  rw [exists_map, h]

theorem Acc.lang {env : SerdeEnv} : Acc (deLang env) (Doc.Translations env) := by
  intro v
  cases v <;> simp only [deLang, Doc.Translations, exists_map, reduceCtorEq, false_and, exists_false,
    Json.obj.injEq, exists_eq_left']
  rw [mapOpt_acc (P := fun kv : String × Json => (∃ tag, env.langRead kv.1 = some tag) ∧ IsText kv.2)]
  intro kv
  rw [exists_bind]
  simp only [exists_map, Acc.str kv.2, exists_and_right]

theorem Acc.time {env : SerdeEnv} : Acc (deTime env) (Doc.Instant env) := by
  intro v
  cases v <;> simp [deTime, Doc.Instant]

theorem Acc.tag {env : SerdeEnv} : Acc (deTagText env) (Doc.Tag env) := by
  intro v
  cases v <;> simp [deTagText, Doc.Tag]

theorem Acc.enum {table : List (String × α)} {names : List String} (ht : table.map (·.1) = names) :
    Acc (deEnum table) (fun v => ∃ n ∈ names, v = .str n ∨ v = .obj [(n, .null)]) := by
  intro v
  constructor
  · rintro ⟨a, ha⟩
    unfold deEnum at ha
    split at ha
    · rename_i s
      exact ⟨s, ht ▸ nameOf?_some.1 ⟨a, ha⟩, .inl rfl⟩
    · rename_i s
      exact ⟨s, ht ▸ nameOf?_some.1 ⟨a, ha⟩, .inr rfl⟩
    · cases ha
  · rintro ⟨n, hn, rfl | rfl⟩
    · exact nameOf?_some.2 (ht ▸ hn)
    · exact nameOf?_some.2 (ht ▸ hn)

theorem Acc.buffered {table : List (String × α)} {names : List String} (ht : table.map (·.1) = names) :
    Acc (deEnumBuffered table) (IsNameIn names) := by
  intro v
  unfold IsNameIn
  constructor
  · rintro ⟨a, ha⟩
    unfold deEnumBuffered at ha
    split at ha
    · rename_i s
      exact ⟨s, ht ▸ nameOf?_some.1 ⟨a, ha⟩, .inl rfl⟩
    · rename_i s
      exact ⟨s, ht ▸ nameOf?_some.1 ⟨a, ha⟩, .inr (.inl rfl)⟩
    · rename_i s
      exact ⟨s, ht ▸ nameOf?_some.1 ⟨a, ha⟩, .inr (.inr rfl)⟩
    · cases ha
  · rintro ⟨n, hn, rfl | rfl | rfl⟩
    · exact nameOf?_some.2 (ht ▸ hn)
    · exact nameOf?_some.2 (ht ▸ hn)
    · exact nameOf?_some.2 (ht ▸ hn)

theorem Acc.operation : Acc deOperation Doc.Operation := Acc.enum rfl
theorem Acc.location : Acc deLocation (IsNameIn ["header", "query", "body", "cookie", "uri"]) := Acc.buffered rfl
theorem Acc.qop : Acc deQoP (IsNameIn ["auth", "auth-int"]) := Acc.buffered rfl

/-! ### Security schemes -/

theorem acc_basic : (∃ a, deBasic es = some a) ↔ Doc.Located es := by
  simp only [deBasic, bind, pure, exists_bind, exists_and_right, Option.some.injEq, exists_eq', and_true,
    Acc.location.defaulted, Acc.str.optional, Doc.Located]

theorem acc_apiKey : (∃ a, deApiKey es = some a) ↔ Doc.Located es := by
  simp only [deApiKey, bind, pure, exists_bind, exists_and_right, Option.some.injEq, exists_eq', and_true,
    Acc.location.defaulted, Acc.str.optional, Doc.Located]

theorem acc_digest : (∃ a, deDigest es = some a) ↔
    HasOne "qop" es (IsNameIn ["auth", "auth-int"]) ∧ Doc.Located es := by
  simp only [deDigest, bind, pure, exists_bind, exists_and_right, Option.some.injEq, exists_eq', and_true,
    Acc.location.defaulted, Acc.str.optional, Doc.Located, Acc.qop.required]

theorem acc_bearer : (∃ a, deBearer es = some a) ↔ AtMostOne "authorization" es IsText ∧
    Doc.Given "alg" es IsText ∧ Doc.Given "format" es IsText ∧ Doc.Located es := by
  simp only [deBearer, bind, pure, exists_bind, exists_and_right, Option.some.injEq, exists_eq', and_true,
    Acc.location.defaulted, Acc.str.optional, Doc.Located, Acc.str.defaulted]

theorem acc_psk : (∃ a, dePsk es = some a) ↔ AtMostOne "identity" es IsText := by
  simp only [dePsk, bind, pure, exists_bind, Option.some.injEq, exists_eq', and_true,
    Acc.str.optional]

theorem acc_oauth2 : (∃ a, deOAuth2 es = some a) ↔ AtMostOne "authorization" es IsText ∧
    AtMostOne "token" es IsText ∧ AtMostOne "refresh" es IsText ∧ AtMostOne "scopes" es IsTexts ∧
    HasOne "flow" es IsText := by
  simp only [deOAuth2, bind, pure, exists_bind, exists_and_right, Option.some.injEq, exists_eq', and_true,
    Acc.str.optional, Acc.strings.optional, Acc.str.required]

theorem acc_combo : (∃ a, deCombo es = some a) ↔ ∃ k v, es = [(k, v)] ∧ (k = "oneOf" ∨ k = "allOf") ∧ IsTexts v := by
  unfold deCombo
  split
  · rename_i k v
    split
    · subst k
      rw [exists_map, Acc.strings]
      exact ⟨fun h => ⟨_, _, rfl, .inl rfl, h⟩, fun ⟨_, _, e, _, h⟩ => by cases e; exact h⟩
    · split
      · subst k
        rw [exists_map, Acc.strings]
        exact ⟨fun h => ⟨_, _, rfl, .inr rfl, h⟩, fun ⟨_, _, e, _, h⟩ => by cases e; exact h⟩
      · rename_i h1 h2
        refine ⟨nofun, ?_⟩
        rintro ⟨_, _, e, h, _⟩
        cases e
        exact absurd h (not_or.2 ⟨h1, h2⟩)
  · rename_i h1
    refine ⟨nofun, ?_⟩
    rintro ⟨k, v, e, _⟩
    exact absurd e (h1 k v)


/-- The name of a predefined scheme. -/
def SchemeTag.text : SchemeTag → String
  | .noSec => "nosec"
  | .auto => "auto"
  | .combo => "combo"
  | .basic => "basic"
  | .digest => "digest"
  | .bearer => "bearer"
  | .psk => "psk"
  | .oauth2 => "oauth2"
  | .apiKey => "apikey"

theorem nameOf?_scheme {s : String} {tag : SchemeTag} : nameOf? schemeTable s = some tag ↔ s = tag.text := by
  constructor
  · intro h
    have hs : s ∈ schemeTable.map (·.1) := nameOf?_some.1 ⟨_, h⟩
    simp only [schemeTable, List.map_cons, List.map_nil, List.mem_cons, List.not_mem_nil, or_false] at hs
    rcases hs with rfl | rfl | rfl | rfl | rfl | rfl | rfl | rfl | rfl <;> (cases h; rfl)
  · rintro rfl
    cases tag <;> rfl

theorem schemeTable_get {n : Nat} {tag : SchemeTag} :
    (schemeTable[n]?).map (·.2) = some tag ↔ Doc.schemes[n]? = some tag.text := by
  have : Doc.schemes = schemeTable.map (·.2.text) := rfl
  rw [this, List.getElem?_map]
  cases schemeTable[n]? with
  | none => simp
  | some e =>
    simp only [Option.map_some, Option.some.injEq]
    refine ⟨fun h => h ▸ rfl, fun h => ?_⟩
    revert h
    cases e.2 <;> cases tag <;> first | (intro; rfl) | (intro h; exact absurd h (by decide))

theorem deTag_scheme {v : Json} {tag : SchemeTag} : deTag schemeTable v = some tag ↔
    v = .str tag.text ∨ ∃ n, v = .num (.pos n) ∧ Doc.schemes[n]? = some tag.text := by
  unfold deTag
  split
  · rename_i s
    rw [nameOf?_scheme]
    simp
  · rename_i n
    rw [schemeTable_get]
    simp
  · rename_i h1 h2
    refine ⟨nofun, ?_⟩
    rintro (rfl | ⟨n, rfl, _⟩)
    · exact absurd rfl (h1 _)
    · exact absurd rfl (h2 _)

/-- The reader of a predefined scheme. -/
def readTag (es : Members) : SchemeTag → Option KnownScheme
  | .noSec => pure .noSec
  | .auto => pure .auto
  | .combo => (deCombo es).map .combo
  | .basic => (deBasic es).map .basic
  | .digest => (deDigest es).map .digest
  | .bearer => (deBearer es).map .bearer
  | .psk => (dePsk es).map .psk
  | .oauth2 => (deOAuth2 es).map .oauth2
  | .apiKey => (deApiKey es).map .apiKey

theorem deKnown_eq : deKnown es =
    (required "scheme" (deTag schemeTable) es).bind (readTag (rest ["scheme"] es)) := by
  simp only [deKnown, bind]
  rfl

theorem predefined_iff (tag : SchemeTag) : Doc.Predefined tag.text es ↔ ∃ k, readTag es tag = some k := by
  generalize ht : tag.text = s
  constructor
  · intro h
    cases h <;> cases tag <;> (first | (exfalso; revert ht; decide) | skip) <;> simp only [readTag, exists_map, pure]
    · simp
    · simp
    · exact acc_combo.2 ⟨_, _, rfl, .inl rfl, ‹_›⟩
    · exact acc_combo.2 ⟨_, _, rfl, .inr rfl, ‹_›⟩
    · exact acc_basic.2 ‹_›
    · exact acc_apiKey.2 ‹_›
    · exact acc_digest.2 ⟨‹_›, ‹_›⟩
    · exact acc_bearer.2 ⟨‹_›, ‹_›, ‹_›, ‹_›⟩
    · exact acc_psk.2 ‹_›
    · exact acc_oauth2.2 ⟨‹_›, ‹_›, ‹_›, ‹_›, ‹_›⟩
  · subst ht
    cases tag <;> simp only [readTag, exists_map]
    · exact fun _ => .nosec
    · exact fun _ => .auto
    · intro h
      obtain ⟨k, v, rfl, rfl | rfl, h'⟩ := acc_combo.1 h
      · exact .oneOf h'
      · exact .allOf h'
    · exact fun h => .basic (acc_basic.1 h)
    · exact fun h => let ⟨h1, h2⟩ := acc_digest.1 h; .digest h1 h2
    · exact fun h => let ⟨h1, h2, h3, h4⟩ := acc_bearer.1 h; .bearer h1 h2 h3 h4
    · exact fun h => .psk (acc_psk.1 h)
    · exact fun h => let ⟨h1, h2, h3, h4, h5⟩ := acc_oauth2.1 h; .oauth2 h1 h2 h3 h4 h5
    · exact fun h => .apikey (acc_apiKey.1 h)

/-- Which members are read as a predefined scheme. -/
theorem acc_known : (∃ a, deKnown es = some a) ↔ ∃ s v, occ "scheme" es = [v] ∧
    (v = .str s ∨ ∃ n, v = .num (.pos n) ∧ Doc.schemes[n]? = some s) ∧ Doc.Predefined s (rest ["scheme"] es) := by
  have text : ∀ {s es}, Doc.Predefined s es → ∃ tag : SchemeTag, s = tag.text := by
    intro s es h
    cases h with
    | nosec => exact ⟨.noSec, rfl⟩
    | auto => exact ⟨.auto, rfl⟩
    | oneOf | allOf => exact ⟨.combo, rfl⟩
    | basic => exact ⟨.basic, rfl⟩
    | apikey => exact ⟨.apiKey, rfl⟩
    | digest => exact ⟨.digest, rfl⟩
    | bearer => exact ⟨.bearer, rfl⟩
    | psk => exact ⟨.psk, rfl⟩
    | oauth2 => exact ⟨.oauth2, rfl⟩
  rw [deKnown_eq, exists_bind]
  constructor
  · rintro ⟨tag, h1, h2⟩
    unfold required at h1
    split at h1
    · rename_i v hv
      exact ⟨tag.text, v, hv, deTag_scheme.1 h1, (predefined_iff tag).2 h2⟩
    · cases h1
  · rintro ⟨s, v, hv, h1, h2⟩
    obtain ⟨tag, rfl⟩ := text h2
    exact ⟨tag, by simp only [required, hv]; exact deTag_scheme.2 h1, (predefined_iff tag).1 h2⟩

theorem occ_rest_of {K : List String} (hk : k ∉ K) : occ k (rest K es) = occ k es := by
  rw [occ_rest, if_neg hk]

theorem rest_rest (K K' : List String) : rest K (rest K' es) = rest (K' ++ K) es := by
  simp only [rest, List.filter_filter, List.contains_eq_mem, List.mem_append]
  congr 1
  funext kv
  by_cases h : kv.1 ∈ K <;> by_cases h' : kv.1 ∈ K' <;> simp [h, h']

theorem rest_congr {K K' : List String} (h : ∀ k, k ∈ K ↔ k ∈ K') : rest K es = rest K' es := by
  simp only [rest, List.contains_eq_mem]
  congr 1
  funext kv
  simp [h]

theorem schemeMembers_eq : rest ["scheme"] (rest securityKeys es) = Doc.schemeMembers es := by
  rw [rest_rest]
  exact rest_congr fun k => by
    rw [List.mem_append, List.mem_cons (l := Names.security), List.mem_singleton, or_comm]
    rfl

theorem acc_subtype : (∃ a, deSubtype (rest securityKeys es) = some a) ↔ Doc.SchemeName es := by
  have o : occ "scheme" (rest securityKeys es) = occ "scheme" es := occ_rest_of (by decide)
  have h1 : (∃ a, deSubtype (rest securityKeys es) = some a) ↔
      (∃ a, deKnown (rest securityKeys es) = some a) ∨ ∃ a, deUnknown (rest securityKeys es) = some a := by
    unfold deSubtype
    cases deKnown (rest securityKeys es) <;> simp
  have h2 : (∃ a, deUnknown (rest securityKeys es) = some a) ↔ HasOne "scheme" es IsText := by
    simp only [deUnknown, bind, pure, exists_bind, Option.some.injEq, exists_eq', and_true, Acc.str.required,
      HasOne, o]
  rw [h1, h2, acc_known, schemeMembers_eq, o]
  constructor
  · rintro (⟨s, v, hv, rfl | ⟨n, rfl, hn⟩, hp⟩ | h)
    · exact .text ⟨_, hv, s, rfl⟩
    · exact .number n s ⟨_, hv, rfl⟩ hn hp
    · exact .text h
  · rintro (h | ⟨n, s, ⟨v, hv, rfl⟩, hn, hp⟩)
    · exact .inr h
    · exact .inl ⟨s, _, hv, .inr ⟨n, rfl, hn⟩, hp⟩

theorem acc_obj {f : Json → Option α} {P : Members → Prop} (h : ∀ es, (∃ a, f (.obj es) = some a) ↔ P es)
    (h0 : ∀ v, (∀ es, v ≠ .obj es) → f v = none) : Acc f (Doc.Object P) := by
  intro v
  unfold Doc.Object
  by_cases hv : ∃ es, v = .obj es
  · obtain ⟨es, rfl⟩ := hv
    simp [h]
  · rw [h0 v fun es e => hv ⟨es, e⟩]
    simp only [reduceCtorEq, exists_false, false_iff]
    rintro ⟨es, e, _⟩
    exact hv ⟨es, e⟩

theorem Acc.security {env : SerdeEnv} : Acc (deSecurity env) (Doc.Object (Doc.Security env)) := by
  refine acc_obj (fun es => ?_) (fun v hv => ?_)
  · simp only [deSecurity, bind, pure, exists_bind, exists_and_right, Option.some.injEq, exists_eq', and_true,
      Acc.strings.optional, Acc.str.optional, Acc.lang.optional, acc_subtype]
    exact ⟨fun ⟨h1, h2, h3, h4, h5⟩ => ⟨h1, h2, h3, h4, h5⟩, fun ⟨h1, h2, h3, h4, h5⟩ => ⟨h1, h2, h3, h4, h5⟩⟩
  · cases v <;> first | rfl | exact absurd rfl (hv _)

/-! ### Data schemas -/

theorem acc_schemaMembers {DSx AS OS : Type} {C : ExtCodec DSx} {CA : ExtCodec AS} {CO : ExtCodec OS}
    {env : SerdeEnv} {sub : Json → Option (DataSchema DSx AS OS)} {P : Json → Prop}
    (hs : ∀ l v, ("oneOf", .arr l) ∈ es → v ∈ l → ((∃ a, sub v = some a) ↔ P v)) :
    (∃ s, deSchemaMembers C CA CO env sub es = some s) ↔ Doc.SchemaHead env es ∧ Doc.Extra C Names.schemaHead es ∧
      ∀ l v, ("oneOf", .arr l) ∈ es → v ∈ l → P v := by
  have h1 : (∃ a, optional "oneOf" (deVec sub) es = some a) ↔ AtMostOne "oneOf" es (Doc.ArrayOf Doc.Any) ∧
      ∀ l v, ("oneOf", .arr l) ∈ es → v ∈ l → P v := by
    unfold optional defaulted AtMostOne
    have mem : ∀ v, ("oneOf", v) ∈ es ↔ v ∈ occ "oneOf" es := by
      intro v
      simp only [occ, List.mem_filterMap]
      constructor
      · intro h
        exact ⟨_, h, by simp⟩
      · rintro ⟨⟨k, v⟩, h, e⟩
        split at e
        · rename_i hk
          simp only at hk
          cases e
          subst hk
          exact h
        · cases e
    simp only [mem] at hs ⊢
    generalize occ "oneOf" es = o at hs ⊢
    match o with
    | [] => simp
    | _ :: _ :: _ => simp
    | [v] =>
      cases v with
      | arr l =>
        simp only [deOption, exists_map, deVec]
        have hl : ∀ v ∈ l, ((∃ a, sub v = some a) ↔ P v) := fun v hv => hs l v (by simp) hv
        have : (∃ a, mapOpt sub l = some a) ↔ ∀ v ∈ l, P v := by
          rw [mapOpt_acc (fun _ => Iff.rfl)]
          exact ⟨fun h v hv => (hl v hv).1 (h v hv), fun h v hv => (hl v hv).2 (h v hv)⟩
        rw [this]
        simp only [List.mem_singleton, Json.arr.injEq, List.cons.injEq, and_true, reduceCtorEq, false_or,
          exists_eq_left', Doc.ArrayOf, Doc.Any, implies_true, exists_eq']
        exact ⟨fun h => ⟨trivial, fun l' v e hv => h v (e ▸ hv)⟩, fun h v hv => h.2 l v rfl hv⟩
      | _ => simp [deOption, deVec, Doc.ArrayOf]
  simp only [deSchemaMembers, bind, pure, exists_bind, exists_and_right, Option.some.injEq, exists_eq', and_true,
    Acc.strings.optional, Acc.str.optional, Acc.lang.optional, Acc.value.optional, Acc.value.vec.optional,
    Acc.bool.defaulted, h1]
  exact ⟨fun ⟨a1, a2, a3, a4, a5, a6, a7, a8, ⟨a9, a10⟩, a11, a12, a13, a14, a15⟩ =>
      ⟨⟨a1, a2, a3, a4, a5, a6, a7, a8, a9, a11, a12, a13, a14⟩, a15, a10⟩,
    fun ⟨⟨a1, a2, a3, a4, a5, a6, a7, a8, a9, a11, a12, a13, a14⟩, a15, a10⟩ =>
      ⟨a1, a2, a3, a4, a5, a6, a7, a8, ⟨a9, a10⟩, a11, a12, a13, a14, a15⟩⟩

theorem Acc.schema {DSx AS OS : Type} {C : ExtCodec DSx} {CA : ExtCodec AS} {CO : ExtCodec OS} {env : SerdeEnv} :
    Acc (deSchema C CA CO env) (Doc.Schema env C) := by
  have key : ∀ n v, v.depth ≤ n → ((∃ a, deSchema C CA CO env v = some a) ↔ Doc.Schema env C v) := by
    intro n
    induction n with
    | zero => intro v hv; exact absurd (depth_pos v) (by omega)
    | succ n ih =>
      intro v hv
      by_cases ho : ∃ es, v = .obj es
      · obtain ⟨es, rfl⟩ := ho
        rw [deSchema_obj, acc_schemaMembers (P := Doc.Schema env C)]
        · exact ⟨fun ⟨h1, h2, h3⟩ => .mk h1 h2 h3, fun ⟨h1, h2, h3⟩ => ⟨h1, h2, h3⟩⟩
        · intro l v hl hv'
          refine ih v ?_
          have h1 := depthMembers_mem hl
          have h2 := depthList_mem hv'
          simp only [Json.depth] at hv h1
          omega
      · rw [deSchema_other fun es e => ho ⟨es, e⟩]
        refine ⟨nofun, fun h => ?_⟩
        cases h
        exact absurd ⟨_, rfl⟩ ho
  exact fun v => key _ v (Nat.le_refl _)

/-! ### Forms and links -/

theorem Acc.operations : Acc deOperations Doc.Operations := by
  intro v
  have h1 := Acc.operation v
  have h2 := (Acc.buffered (table := operationTable) rfl).vec v
  unfold deOperations Doc.Operations
  split
  · rename_i o ho
    exact ⟨fun _ => .inl (h1.1 ⟨o, ho⟩), fun _ => ⟨_, rfl⟩⟩
  · rename_i ho
    rw [h2]
    refine ⟨.inr, fun h => h.resolve_left fun h => ?_⟩
    obtain ⟨o, e⟩ := h1.2 h
    rw [ho] at e
    cases e

theorem Acc.ops : Acc deOps (Doc.OrNull Doc.Operations) := by
  intro v
  rw [← Acc.operations.option v]
  unfold deOps
  rw [exists_map]

theorem Acc.response {A : Type} {C : ExtCodec A} : Acc (deResponse C) (Doc.Object (Doc.Response C)) := by
  refine acc_obj (fun es => ?_) (fun v hv => ?_)
  · simp only [deResponse, bind, pure, exists_bind, exists_and_right, Option.some.injEq, exists_eq', and_true,
      Acc.str.required]
    exact ⟨fun ⟨h1, h2⟩ => ⟨h1, h2⟩, fun ⟨h1, h2⟩ => ⟨h1, h2⟩⟩
  · cases v <;> first | rfl | exact absurd rfl (hv _)

theorem Acc.additional : Acc deAdditional Doc.Additional := by
  intro v
  unfold deAdditional Doc.Additional
  split
  · simp only [bind, pure, exists_bind, exists_and_right, Option.some.injEq, exists_eq', and_true,
      Acc.bool.defaulted, Acc.str.optional, Json.obj.injEq, exists_eq_left', reduceCtorEq, false_and, exists_false,
      or_false]
  · rename_i a b c
    simp only [bind, pure, exists_bind, exists_and_right, Option.some.injEq, exists_eq', and_true,
      Acc.bool a, Acc.str.option b, Acc.str.option c, reduceCtorEq, false_and, exists_false, false_or, Json.arr.injEq,
      List.cons.injEq]
    exact ⟨fun ⟨h1, h2, h3⟩ => ⟨a, b, c, ⟨rfl, rfl, rfl⟩, h1, h2, h3⟩,
      fun ⟨_, _, _, ⟨e1, e2, e3⟩, h1, h2, h3⟩ => by subst e1 e2 e3; exact ⟨h1, h2, h3⟩⟩
  · rename_i h1 h2
    refine ⟨nofun, ?_⟩
    rintro (⟨es, rfl, _⟩ | ⟨a, b, c, rfl, _⟩)
    · exact absurd rfl (h1 _)
    · exact absurd rfl (h2 _ _ _)

theorem Acc.link {env : SerdeEnv} : Acc (deLink env) (Doc.Link env) := by
  intro v
  unfold deLink Doc.Link
  split
  · simp only [bind, pure, exists_bind, exists_and_right, Option.some.injEq, exists_eq', and_true,
      Acc.str.required, Acc.str.optional, Acc.tag.oneOrMany.optional, Json.obj.injEq, exists_eq_left', reduceCtorEq,
      false_and, exists_false, or_false]
  · rename_i h t r a s last
    rw [show (∃ h' t' r' a' s' last', Json.arr (h :: t :: r :: a :: s :: last) =
        .arr (h' :: t' :: r' :: a' :: s' :: last') ∧ IsText h' ∧ Doc.OrNull IsText t' ∧ Doc.OrNull IsText r' ∧
        Doc.OrNull IsText a' ∧ Doc.OrNull IsText s' ∧
        (last' = [] ∨ ∃ l, last' = [l] ∧ Doc.OrNull (Doc.OneOrMany (Doc.Tag env)) l)) ↔
        IsText h ∧ Doc.OrNull IsText t ∧ Doc.OrNull IsText r ∧ Doc.OrNull IsText a ∧ Doc.OrNull IsText s ∧
        (last = [] ∨ ∃ l, last = [l] ∧ Doc.OrNull (Doc.OneOrMany (Doc.Tag env)) l) from
      ⟨fun ⟨_, _, _, _, _, _, e, h'⟩ => by cases e; exact h', fun h' => ⟨h, t, r, a, s, last, rfl, h'⟩⟩]
    match last with
    | [] =>
      simp only [bind, pure, exists_bind, exists_and_right, Option.some.injEq, exists_eq', and_true,
        Acc.str h, Acc.str.option t, Acc.str.option r, Acc.str.option a, Acc.str.option s, reduceCtorEq, false_and,
        exists_false, false_or, or_false]
    | [l] =>
      simp only [bind, pure, exists_bind, exists_and_right, Option.some.injEq, exists_eq', and_true,
        Acc.str h, Acc.str.option t, Acc.str.option r, Acc.str.option a, Acc.str.option s, reduceCtorEq, false_and,
        exists_false, false_or, Acc.tag.oneOrMany.option l, List.cons.injEq, exists_eq_left']
    | _ :: _ :: _ =>
      simp only [bind, pure, exists_bind, Option.some.injEq, exists_eq', and_true, reduceCtorEq, false_and,
        exists_false, or_false, and_false, List.cons.injEq]
  · rename_i h1 h2
    refine ⟨nofun, ?_⟩
    rintro (⟨es, rfl, _⟩ | ⟨a, b, c, d, e, f, rfl, _⟩)
    · exact absurd rfl (h1 _)
    · exact absurd rfl (h2 _ _ _ _ _ _)

variable {X : ExtTypes} {C : ExtCodecs X} {env : SerdeEnv}

theorem Acc.form : Acc (deForm C) (Doc.Object (Doc.Form C)) := by
  refine acc_obj (fun es => ?_) (fun v hv => ?_)
  · have h : (∃ a, Wot.defaulted "op" .default deOps es = some a) ↔ AtMostOne "op" es Doc.Operations :=
      Acc.ops.defaulted
    simp only [deForm, bind, pure, exists_bind, exists_and_right, Option.some.injEq, exists_eq', and_true, h,
      Acc.str.required, Acc.str.optional, Acc.strings.optional, Acc.response.optional, Acc.additional.oneOrMany.optional]
    exact ⟨fun ⟨h1, h2, h3, h4, h5, h6, h7, h8, h9, h10⟩ => ⟨h1, h2, h3, h4, h5, h6, h7, h8, h9, h10⟩,
      fun ⟨h1, h2, h3, h4, h5, h6, h7, h8, h9, h10⟩ => ⟨h1, h2, h3, h4, h5, h6, h7, h8, h9, h10⟩⟩
  · cases v <;> first | rfl | exact absurd rfl (hv _)

/-! ### Affordances -/

theorem Acc.ds : Acc (deDS C env) (Doc.DS env C) := Acc.schema

theorem Given.rest {K : List String} (hk : k ∉ K) : Doc.Given k (rest K es) P ↔ Doc.Given k es P := by
  unfold Doc.Given
  rw [occ_rest_of hk]

theorem AtMostOne.rest {K : List String} (hk : k ∉ K) : AtMostOne k (rest K es) P ↔ AtMostOne k es P := by
  unfold AtMostOne
  rw [occ_rest_of hk]

theorem HasOne.rest {K : List String} (hk : k ∉ K) : HasOne k (rest K es) P ↔ HasOne k es P := by
  unfold HasOne
  rw [occ_rest_of hk]

theorem acc_interaction {K : List String} (hK : ∀ k ∈ Names.interaction, k ∉ K) :
    (∃ a, deInteraction C env (rest K es) = some a) ↔ Doc.Interaction env C K es := by
  simp only [deInteraction, bind, pure, exists_bind, exists_and_right, Option.some.injEq, exists_eq', and_true,
    Acc.str.optional, Acc.strings.optional, Acc.lang.optional, Acc.form.vec.required, Acc.ds.map.optional]
  rw [AtMostOne.rest (hK _ (by decide)), AtMostOne.rest (hK _ (by decide)), AtMostOne.rest (hK _ (by decide)),
    AtMostOne.rest (hK _ (by decide)), AtMostOne.rest (hK _ (by decide)), HasOne.rest (hK _ (by decide)),
    AtMostOne.rest (hK _ (by decide)), rest_rest]
  exact ⟨fun ⟨h1, h2, h3, h4, h5, h6, h7, h8⟩ => ⟨h1, h2, h3, h4, h5, h6, h7, h8⟩,
      fun ⟨h1, h2, h3, h4, h5, h6, h7, h8⟩ => ⟨h1, h2, h3, h4, h5, h6, h7, h8⟩⟩

theorem Acc.action : Acc (deAction C env) (Doc.Object (Doc.Action env C)) := by
  refine acc_obj (fun es => ?_) (fun v hv => ?_)
  · have h : (∃ a, deInteraction C env (Wot.rest actionKeys es) = some a) ↔ Doc.Interaction env C Names.action es :=
      acc_interaction (by decide)
    simp only [deAction, bind, pure, exists_bind, exists_and_right, Option.some.injEq, exists_eq', and_true, h,
      Acc.ds.optional, Acc.bool.defaulted, Acc.bool.optional]
    exact ⟨fun ⟨h1, h2, h3, h4, h5, h6, h7⟩ => ⟨h6, h1, h2, h3, h4, h5, h7⟩,
      fun ⟨h6, h1, h2, h3, h4, h5, h7⟩ => ⟨h1, h2, h3, h4, h5, h6, h7⟩⟩
  · cases v <;> first | rfl | exact absurd rfl (hv _)

theorem Acc.event : Acc (deEvent C env) (Doc.Object (Doc.Event env C)) := by
  refine acc_obj (fun es => ?_) (fun v hv => ?_)
  · have h : (∃ a, deInteraction C env (Wot.rest eventKeys es) = some a) ↔ Doc.Interaction env C Names.event es :=
      acc_interaction (by decide)
    simp only [deEvent, bind, pure, exists_bind, exists_and_right, Option.some.injEq, exists_eq', and_true, h,
      Acc.ds.optional]
    exact ⟨fun ⟨h1, h2, h3, h4, h6, h7⟩ => ⟨h6, h1, h2, h3, h4, h7⟩,
      fun ⟨h6, h1, h2, h3, h4, h7⟩ => ⟨h1, h2, h3, h4, h6, h7⟩⟩
  · cases v <;> first | rfl | exact absurd rfl (hv _)

theorem mem_rest_iff {K : List String} {kv : String × Json} (hk : kv.1 ∉ K) : kv ∈ rest K es ↔ kv ∈ es := by
  simp [rest, hk]

theorem Acc.property : Acc (deProperty C env) (Doc.Object (Doc.Property env C)) := by
  refine acc_obj (fun es => ?_) (fun v hv => ?_)
  · have h : (∃ a, deInteraction C env (Wot.rest ["observable"] es) = some a) ↔
        Doc.Interaction env C ["observable"] es :=
      acc_interaction (by decide)
    have h2 : (∃ a, deSchemaMembers C.dataSchema C.arraySchema C.objectSchema env (deDS C env)
        (Wot.rest ["observable"] es) = some a) ↔ Doc.SchemaHead env es ∧
        Doc.Extra C.dataSchema ("observable" :: Names.schemaHead) es ∧
        ∀ l v, ("oneOf", .arr l) ∈ es → v ∈ l → Doc.DS env C v := by
      rw [acc_schemaMembers (P := Doc.DS env C) fun _ v _ _ => Acc.ds v]
      refine and_congr ?_ (and_congr ?_ ?_)
      · constructor
        · rintro ⟨h1, h2, h3, h4, h5, h6, h7, h8, h9, h10, h11, h12, h13⟩
          exact ⟨(AtMostOne.rest (by decide)).1 h1, (AtMostOne.rest (by decide)).1 h2,
            (AtMostOne.rest (by decide)).1 h3, (AtMostOne.rest (by decide)).1 h4,
            (AtMostOne.rest (by decide)).1 h5, (AtMostOne.rest (by decide)).1 h6,
            (AtMostOne.rest (by decide)).1 h7, (AtMostOne.rest (by decide)).1 h8,
            (AtMostOne.rest (by decide)).1 h9, (AtMostOne.rest (by decide)).1 h10,
            (Given.rest (by decide)).1 h11, (Given.rest (by decide)).1 h12, (AtMostOne.rest (by decide)).1 h13⟩
        · rintro ⟨h1, h2, h3, h4, h5, h6, h7, h8, h9, h10, h11, h12, h13⟩
          exact ⟨(AtMostOne.rest (by decide)).2 h1, (AtMostOne.rest (by decide)).2 h2,
            (AtMostOne.rest (by decide)).2 h3, (AtMostOne.rest (by decide)).2 h4,
            (AtMostOne.rest (by decide)).2 h5, (AtMostOne.rest (by decide)).2 h6,
            (AtMostOne.rest (by decide)).2 h7, (AtMostOne.rest (by decide)).2 h8,
            (AtMostOne.rest (by decide)).2 h9, (AtMostOne.rest (by decide)).2 h10,
            (Given.rest (by decide)).2 h11, (Given.rest (by decide)).2 h12, (AtMostOne.rest (by decide)).2 h13⟩
      · have := rest_rest (es := es) Names.schemaHead ["observable"]
        unfold Doc.Extra
        simp only [Wot.rest] at this ⊢
        rw [this]
        rfl
      · refine forall_congr' fun l => forall_congr' fun v => ?_
        rw [mem_rest_iff (by simp)]
    simp only [deProperty, bind, pure, exists_bind, exists_and_right, Option.some.injEq, exists_eq', and_true, h, h2,
      Acc.bool.optional]
    exact ⟨fun ⟨h1, h2, ⟨h3, h4, h5⟩, h6⟩ => ⟨h2, h3, h4, h5, h1, h6⟩,
      fun ⟨h2, h3, h4, h5, h1, h6⟩ => ⟨h1, h2, ⟨h3, h4, h5⟩, h6⟩⟩
  · cases v <;> first | rfl | exact absurd rfl (hv _)

/-! ### Things -/

theorem Acc.version : Acc deVersion Doc.Version := by
  intro v
  unfold deVersion Doc.Version
  split
  · simp only [bind, pure, exists_bind, exists_and_right, Option.some.injEq, exists_eq', and_true,
      Acc.str.required, Acc.str.optional, Json.obj.injEq, exists_eq_left', reduceCtorEq,
      false_and, exists_false, or_false]
  · rename_i a b
    simp only [bind, pure, exists_bind, exists_and_right, Option.some.injEq, exists_eq', and_true,
      Acc.str a, Acc.str.option b, reduceCtorEq, false_and, exists_false, false_or, Json.arr.injEq,
      List.cons.injEq]
    exact ⟨fun h' => ⟨a, b, ⟨rfl, rfl⟩, h'⟩, fun ⟨_, _, ⟨e1, e2⟩, h'⟩ => by subst e1 e2; exact h'⟩
  · rename_i h1 h2
    refine ⟨nofun, ?_⟩
    rintro (⟨es, rfl, _⟩ | ⟨a, b, rfl, _⟩)
    · exact absurd rfl (h1 _)
    · exact absurd rfl (h2 _ _)

theorem Acc.thing : Acc (deThing C env) (Doc.Object (Doc.Thing env C)) := by
  refine acc_obj (fun es => ?_) (fun v hv => ?_)
  · simp only [deThing, bind, pure, exists_bind, exists_and_right, Option.some.injEq, exists_eq', and_true,
      Acc.value.defaulted, Acc.str.optional, Acc.strings.optional, Acc.str.required, Acc.lang.optional,
      Acc.version.optional, Acc.time.optional, Acc.property.map.optional, Acc.action.map.optional,
      Acc.event.map.optional, Acc.link.vec.optional, Acc.form.vec.optional, Acc.strings.required,
      Acc.security.map.required, Acc.ds.map.optional]
    exact ⟨fun ⟨h1, h2, h3, h4, h5, h6, h7, h8, h9, h10, h11, h12, h13, h14, h15, h16, h17, h18, h19, h20, h21, h22,
        h23⟩ => ⟨h1, h2, h3, h4, h5, h6, h7, h8, h9, h10, h11, h12, h13, h14, h15, h16, h17, h18, h19, h20, h21, h22,
        h23⟩, fun ⟨h1, h2, h3, h4, h5, h6, h7, h8, h9, h10, h11, h12, h13, h14, h15, h16, h17, h18, h19, h20, h21, h22,
        h23⟩ => ⟨h1, h2, h3, h4, h5, h6, h7, h8, h9, h10, h11, h12, h13, h14, h15, h16, h17, h18, h19, h20, h21, h22,
        h23⟩⟩
  · cases v <;> first | rfl | exact absurd rfl (hv _)

end Wot
