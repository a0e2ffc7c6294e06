import Verif.Lemmas.LangTag
import Verif.Props.Time
import Verif.Props.Languages
import Verif.Props.Edits
/-
C69: the languages of a Thing are language tags after RFC 5646, and case does not matter in them.
-/
namespace Wot

open Rfc5646

variable {s s' tag tag' : String}

/-- A language tag, or private use with subtags of any length. -/
def Rfc5646.Accepted (s : String) : Prop := WellFormed s ∨ LoosePrivateUse s

theorem normalize_iff : LangTag.normalize s = some tag ↔ LangTag.parseTag s.toList = some tag.toList := by
  unfold LangTag.normalize
  rw [Option.map_eq_some_iff]
  constructor
  · rintro ⟨cs, h, rfl⟩; rw [h, String.toList_ofList]
  · exact fun h => ⟨_, h, String.ofList_toList⟩

/-- C69: the texts that the builders accept are the well-formed tags of RFC 5646; besides, after `x-` subtags can be empty or long. -/
theorem C69_accepted : (∃ tag, LangTag.normalize s = some tag) ↔ WellFormed s ∨ LoosePrivateUse s := by
  rw [← LangTag.parseTag_iff, Option.isSome_iff_exists]
  constructor
  · rintro ⟨tag, h⟩; exact ⟨_, normalize_iff.1 h⟩
  · rintro ⟨cs, h⟩; exact ⟨String.ofList cs, normalize_iff.2 (by rw [h, String.toList_ofList])⟩

/-- C69: documents accept the same texts, and keep them. -/
theorem C69_checked : LangTag.check s = some tag ↔ Accepted s ∧ tag = s := by
  rw [Accepted, ← LangTag.parseTag_iff]
  unfold LangTag.check
  cases LangTag.parseTag s.toList with
  | none => simp
  | some _ => simp [eq_comm]

/-- C69: the tag is the text in the recommended case. -/
theorem C69_formatted : LangTag.normalize s = some tag ↔ Accepted s ∧ Formatted s tag := by
  constructor
  · intro h
    refine ⟨C69_accepted.1 ⟨tag, h⟩, LangTag.subtags s.toList, LangTag.hyphenated_iff.2 rfl, LangTag.hyphenated_iff.2 ?_⟩
    rw [LangTag.parseTag_cased (normalize_iff.1 h), LangTag.subtags_join (LangTag.cased_ne (LangTag.subtags_ne _))]
    exact LangTag.cased_no_hyphen (LangTag.subtags_no_hyphen _)
  · rintro ⟨ha, l, h1, h2⟩
    obtain ⟨tag', h⟩ := C69_accepted.2 ha
    have e := LangTag.parseTag_cased (normalize_iff.1 h)
    rw [LangTag.hyphenated_iff] at h1 h2
    rw [h1, ← h2, LangTag.join_subtags] at e
    rw [h, String.toList_inj.1 e]

/-- C69: only the case of letters changes. -/
theorem C69_letters (h : LangTag.normalize s = some tag) : SameLetters s tag :=
  (LangTag.parseTag_out (normalize_iff.1 h)).symm

/-- C69: two texts are the same tag just when they differ at most in case. -/
theorem C69_same (h : LangTag.normalize s = some tag) : LangTag.normalize s' = some tag ↔ SameLetters s s' := by
  rw [normalize_iff] at h ⊢
  constructor
  · exact fun h' => (LangTag.parseTag_out h).symm.trans (LangTag.parseTag_out h')
  · intro e
    rw [← LangTag.parseTag_lower, show LangTag.lower s'.toList = LangTag.lower s.toList from e.symm, LangTag.parseTag_lower, h]

/-- C69: case does not matter for being accepted. -/
theorem C69_case (h : SameLetters s s') : Accepted s ↔ Accepted s' := by
  rw [Accepted, Accepted, ← C69_accepted, ← C69_accepted]
  constructor
  · rintro ⟨tag, ht⟩; exact ⟨tag, (C69_same ht).2 h⟩
  · rintro ⟨tag, ht⟩; exact ⟨tag, (C69_same ht).2 h.symm⟩

/-- C69: a tag is accepted and stays as it is. -/
theorem C69_idempotent (h : LangTag.normalize s = some tag) : LangTag.normalize tag = some tag ∧ LangTag.check tag = some tag :=
  have h' := (C69_same h).2 (C69_letters h)
  ⟨h', C69_checked.2 ⟨C69_accepted.1 ⟨_, h'⟩, rfl⟩⟩

/-- The full statement: only well-formed tags are accepted. -/
def OnlyWellFormed : Prop := ∀ s tag, LangTag.normalize s = some tag → WellFormed s

/-- C69: it is false: `x--` is accepted. -/
theorem C69_loose : ¬ OnlyWellFormed := by
  intro h
  rcases h "x--" "x--" (by decide +kernel) with ⟨l, hl, h⟩ | ⟨g, hg, h⟩
  · rw [LangTag.hyphenated_iff] at hl
    rw [show LangTag.subtags "x--".toList = [['x'], [], []] by decide +kernel] at hl
    subst hl
    rcases h with ⟨_, _, _, _, _, _, h, ⟨t, e, rfl, ht⟩, -⟩ | ⟨_, ts, h, -, -, ht⟩
    · simp only [List.cons_append, List.cons.injEq] at h
      rw [← h.1] at ht
      rcases ht with ⟨ht, -⟩ | ⟨ht, -⟩ <;> exact absurd ht.1 (by decide)
    · cases h
      exact absurd (ht [] (by simp)).1 (by decide)
  · have : ∀ g ∈ grandfathered, ¬ "x--".toList.map Char.toLower = g.toList.map Char.toLower := by decide +kernel
    exact this g hg h

/-- C69: it holds of all texts but those for private use. -/
theorem C69_well_formed (hx : ¬ LoosePrivateUse s) : (∃ tag, LangTag.normalize s = some tag) ↔ WellFormed s := by
  rw [C69_accepted, or_iff_left hx]

/-! ### Things -/

/-- Languages are parsed and read by `oxilangtag`. -/
structure SerdeEnv.Rfc5646Tags (env : SerdeEnv) : Prop where
  parse : env.langParse = LangTag.normalize
  read : env.langRead = LangTag.check

variable {X : ExtTypes} {C : ExtCodecs X} {env : SerdeEnv} {thing : Thing X} {title : String} {hist : List (ThingOp X)}
  {b : ThingBuilder X}

/-- C69: so the laws of the other properties about language tags hold. -/
theorem C69_laws (he : env.Rfc5646Tags) :
    env.TagsStable ∧ env.TagsDistinct ∧ ∀ s tag, env.langRead s = some tag → env.langRead tag = some tag := by
  refine ⟨fun k tag h => ?_, fun k k' tag h h' => ?_, fun s tag h => ?_⟩
  · rw [he.parse] at h; rw [he.read]; exact (C69_idempotent h).2
  · rw [he.read] at h h'; exact (C69_checked.1 h).2.symm.trans (C69_checked.1 h').2
  · rw [he.read] at h ⊢; cases (C69_checked.1 h).2; exact h

/-- C69: with the texts of instants after RFC 3339, nothing is left to be assumed. -/
theorem C69_stable (he : env.Rfc5646Tags) (ht : env.Rfc3339Times) : env.Stable :=
  (C68_laws ht).2 (C69_laws he).2.2

/-- C69: a Thing is built only if every language supplied anywhere is accepted, whatever its case; and an error about a language
names one supplied that is not. -/
theorem C69_built (he : env.Rfc5646Tags) (hr : Reachable X title hist b) :
    (b.build env.toEnv = .ok thing → ∀ k, History.LangKey hist k → Accepted k) ∧
    (∀ k, b.build env.toEnv = .error (.err (.invalidLanguageTag k)) → History.LangKey hist k ∧ ¬ Accepted k) := by
  refine ⟨fun hb k hk => ?_, fun k hb => ?_⟩
  · have := C12_accepted hr hb hk
    rw [he.parse] at this
    exact C69_accepted.1 this
  · obtain ⟨h1, h2⟩ := C12_error hr hb
    rw [he.parse] at h2
    refine ⟨h1, fun ha => ?_⟩
    obtain ⟨tag, h⟩ := C69_accepted.2 ha
    rw [h2] at h; cases h

/-- C69: of the translations of a group all are in the Thing, under the tag in the recommended case, unless two languages differ only in
case. -/
theorem C69_translations (he : env.Rfc5646Tags) (hr : Reachable X title hist b) (hb : b.build env.toEnv = .ok thing)
    {u : MultiLanguageBuilder} (hu : History.HasTranslations hist u)
    (hd : ∀ k ∈ HMap.keys u.values, ∀ k' ∈ HMap.keys u.values, SameLetters k k' → k = k') :
    ∃ m, thing.HasTranslations m ∧ m.map.length = u.values.length ∧
      ∀ tag text, (tag, text) ∈ m.map ↔ ∃ k, (k, text) ∈ u.values ∧ Formatted k tag := by
  have ha : ∀ k ∈ HMap.keys u.values, Accepted k := fun k hk => (C69_built he hr).1 hb k (langKey_iff.2 (.inl ⟨u, hu, hk⟩))
  have hdt : DistinctTags env.toEnv u := fun k hk k' hk' h => by
    rw [he.parse] at h
    obtain ⟨tag, ht⟩ := C69_accepted.2 (ha k hk)
    exact hd k hk k' hk' ((C69_same ht).1 (h ▸ ht))
  obtain ⟨m, h1, h2, h3⟩ := C13_preserved hr hb hu hdt
  refine ⟨m, h1, h2, fun tag text => ?_⟩
  rw [h3]
  constructor
  · rintro ⟨k, hk, h⟩
    rw [he.parse] at h
    exact ⟨k, hk, (C69_formatted.1 h).2⟩
  · rintro ⟨k, hk, h⟩
    refine ⟨k, hk, ?_⟩
    rw [he.parse]
    exact C69_formatted.2 ⟨ha k (List.mem_map_of_mem hk), h⟩

/-- C69: if two languages differ only in case, a translation is lost. -/
theorem C69_lost (he : env.Rfc5646Tags) (hr : Reachable X title hist b) (hb : b.build env.toEnv = .ok thing)
    {u : MultiLanguageBuilder} (hu : History.HasTranslations hist u) {k k' : String} (hk : k ∈ HMap.keys u.values)
    (hk' : k' ∈ HMap.keys u.values) (hne : k ≠ k') (hs : SameLetters k k') :
    ∃ m, thing.HasTranslations m ∧ m.map.length < u.values.length := by
  have ha := (C69_built he hr).1 hb k (langKey_iff.2 (.inl ⟨u, hu, hk⟩))
  obtain ⟨tag, ht⟩ := C69_accepted.2 ha
  obtain ⟨m, h1, h2, -⟩ := C13_collision hr hb hu hk hk' hne (by rw [he.parse, ht, (C69_same ht).2 hs])
  exact ⟨m, h1, h2⟩

/-- C69: whatever the languages are, those in a Thing that has been built are in the recommended case. -/
theorem C69_keys (he : env.Rfc5646Tags) (hr : Reachable X title hist b) (hb : b.build env.toEnv = .ok thing) :
    (∀ m, thing.HasTranslations m → ∀ tag ∈ HMap.keys m.map, Accepted tag ∧ Formatted tag tag) ∧
    (∀ l ∈ thing.links.getD [], ∀ tags, l.hreflang = some tags → ∀ tag ∈ tags, Accepted tag ∧ Formatted tag tag) := by
  have key : ∀ k tag, env.langParse k = some tag → Accepted tag ∧ Formatted tag tag := fun k tag h => by
    rw [he.parse] at h
    exact C69_formatted.1 (C69_idempotent h).1
  constructor
  · intro m hm tag htag
    obtain ⟨u, -, h⟩ := C12_keys hr hb hm
    obtain ⟨k, -, hk⟩ := (h tag).1 htag
    exact key k tag hk
  · intro l hl tags ht tag htag
    obtain ⟨hlen, h⟩ := C12_hreflang hr hb
    obtain ⟨i, hi⟩ := List.mem_iff_getElem?.1 hl
    have hlt : i < (History.links hist).length := by
      rw [← hlen]; exact (List.getElem?_eq_some_iff.1 hi).1
    rcases h i l _ hi (List.getElem?_eq_getElem hlt) with ⟨-, h⟩ | ⟨tags', -, h1, h2⟩
    · rw [h] at ht; cases ht
    · rw [h1] at ht
      cases ht
      have : some tag ∈ tags.map some := List.mem_map_of_mem htag
      rw [← h2] at this
      obtain ⟨k, -, hk⟩ := List.mem_map.1 this
      exact key k tag hk

/-- C69: a Thing that has been built is written and read back without assuming anything of language tags. -/
theorem C69_stored (he : env.Rfc5646Tags) (sep : C.Separate) (hr : Reachable X title hist b) (hb : b.build env.toEnv = .ok thing)
    (hv : ValuesKept env C thing) (hw : Writable env C thing) :
    ∃ v, toValue C env thing = some v ∧ fromValue C env v = some thing.stored ∧
      (fromValue C env v = some thing ↔ ValuesLossless thing) := C28_built sep hr hb (C69_laws he).1 hv hw

/-- C69: a Thing that has been read is written and read again without assuming anything of language tags and instants. -/
theorem C69_reread (he : env.Rfc5646Tags) (ht : env.Rfc3339Times) (sep : C.Separate) (hl : C.Lawful) {d : Json} (hd : d.NoDup)
    (h : fromText C env d = some thing) :
    ∃ v, toValue C env thing = some v ∧ fromValue C env v = some thing.stored :=
  have hs := C69_stable he ht
  C50_reread sep hs hd h (C50_extensions hs hl h)

/-- The member gives translations: it is missing or `null` and there are none, or it is an object with language tags for names and
strings for values; of members with the same name the last counts. Names that differ only in case are different here. -/
inductive SaysTexts (k : String) (es : Members) : Option MultiLanguage → Prop
  | absent : occ k es = [] → SaysTexts k es none
  | null : occ k es = [.null] → SaysTexts k es none
  | given {ms : Members} {m : MultiLanguage} : occ k es = [.obj ms] → (∀ kv ∈ ms, Accepted kv.1 ∧ ∃ x, kv.2 = .str x) →
      m.map.Sorted → (∀ name, OptRel Doc.IsString (lastOf (occ name ms)) (m.map.get? name)) → SaysTexts k es (some m)

theorem saysTexts_of (he : env.Rfc5646Tags) {k : String} {es : Members} {o : Option MultiLanguage}
    (h : Doc.May k (Doc.IsTranslations env) es o) : SaysTexts k es o := by
  cases h with
  | absent h => exact .absent h
  | given h hv =>
    cases hv with
    | null => exact .null h
    | value _ hi =>
      obtain ⟨hk, hs, ht⟩ := hi
      rename_i ms _
      have ha : ∀ kv ∈ ms, Accepted kv.1 := fun kv hkv => by
        obtain ⟨⟨tag, h⟩, -⟩ := hk kv hkv
        rw [he.read] at h
        exact (C69_checked.1 h).1
      refine .given h (fun kv hkv => ⟨ha kv hkv, (hk kv hkv).2⟩) hs fun name => ?_
      have := ht name
      rwa [show (ms.filterMap fun kv => if env.langRead kv.1 = some name then some kv.2 else none) = occ name ms from ?_] at this
      have key : ∀ l : Members, (∀ kv ∈ l, Accepted kv.1) →
          (l.filterMap fun kv => if env.langRead kv.1 = some name then some kv.2 else none) = occ name l := by
        intro l hl
        induction l with
        | nil => rfl
        | cons kv l ih =>
          have hc : env.langRead kv.1 = some kv.1 := by rw [he.read]; exact C69_checked.2 ⟨hl kv (List.mem_cons_self ..), rfl⟩
          have ih := ih fun kv h => hl kv (List.mem_cons_of_mem _ h)
          unfold occ at ih ⊢
          rw [List.filterMap_cons, List.filterMap_cons, ih, hc]
          simp
      exact key ms ha

/-- C69: the translations of a Thing that is read are those its document gives, with names as they are there. -/
theorem C69_thing_read (he : env.Rfc5646Tags) {es : Members} (hn : (Json.obj es).NumbersInRange)
    (h : fromText C env (.obj es) = some thing) :
    SaysTexts "titles" es thing.titles ∧ SaysTexts "descriptions" es thing.descriptions := by
  obtain ⟨ht⟩ := (C58_read hn).1 h
  exact ⟨saysTexts_of he ht.titles, saysTexts_of he ht.descriptions⟩

/-- C69: a document with another name there is refused. -/
theorem C69_refused (he : env.Rfc5646Tags) {es ms : Members} (hn : (Json.obj es).NumbersInRange) {k name : String} {v : Json}
    (hk : k ∈ ["titles", "descriptions"]) (hm : (k, .obj ms) ∈ es) (hv : (name, v) ∈ ms) (hs : ¬ Accepted name) :
    fromText C env (.obj es) = none := by
  cases h : fromText C env (.obj es) with
  | none => rfl
  | some thing =>
    obtain ⟨h1, h2⟩ := C69_thing_read he hn h
    have bad : ∀ o, ¬ SaysTexts k es o := by
      intro o ho
      have hmem := mem_occ.2 hm
      cases ho with
      | absent h => rw [h] at hmem; cases hmem
      | null h => rw [h] at hmem; cases List.mem_singleton.1 hmem
      | given h ha =>
        rw [h] at hmem
        cases List.mem_singleton.1 hmem
        exact hs (ha _ hv).1
    simp only [List.mem_cons, List.not_mem_nil, or_false] at hk
    rcases hk with rfl | rfl
    · exact absurd h1 (bad _)
    · exact absurd h2 (bad _)

/-! ### Examples -/

namespace Demo

/-- An environment with the real functions for language tags and instants. -/
def tagEnv : SerdeEnv :=
  { clockEnv with langParse := LangTag.normalize, langRead := LangTag.check }

theorem tag_tags : tagEnv.Rfc5646Tags := ⟨rfl, rfl⟩
theorem tag_times : tagEnv.Rfc3339Times := ⟨rfl, rfl⟩

/-- A document with tags in any case. -/
def taggedMembers : Members :=
  document (.str "none") ++ [("titles", .obj [("EN-us", .str "Lamp"), ("en-US", .str "Light"), ("x-LONGPRIVATEUSE", .str "Q")])]

theorem tagged_range : (Json.obj taggedMembers).NumbersInRange := numbersInRange_of (by decide)

theorem tagged_noDup : (Json.obj taggedMembers).NoDup := by
  simp [taggedMembers, document, Json.NoDup, Json.NoDupMembers]

theorem tagged_read : ∃ t, fromText .nil tagEnv (.obj taggedMembers) = some t ∧
    t.titles = some ⟨[("EN-us", "Lamp"), ("en-US", "Light"), ("x-LONGPRIVATEUSE", "Q")]⟩ := by
  have : (fromText .nil tagEnv (.obj taggedMembers)).bind (·.titles) =
      some ⟨[("EN-us", "Lamp"), ("en-US", "Light"), ("x-LONGPRIVATEUSE", "Q")]⟩ := by decide +kernel
  obtain ⟨t, h1, h2⟩ := Option.bind_eq_some_iff.1 this
  exact ⟨t, h1, h2⟩

/-- `.titles(|t| t.add("SL-latn-it-NEDIS", "Luč").add("de-ch-1901", "Licht")).link(…hreflang("EN-GB-OED"))` -/
def taggedHistory : List (ThingOp .nil) :=
  [.common (.titles [("SL-latn-it-NEDIS", "Luč"), ("de-ch-1901", "Licht")]),
   .common (.linkWith [] "https://example.org" [.hreflang "EN-gb-OED"])]

theorem tagged_reachable : Reachable .nil "Lamp" taggedHistory (run taggedHistory) :=
  run_reachable _ (by intro op h; simp [taggedHistory] at h; rcases h with rfl | rfl <;> trivial)

theorem tagged_built : ∃ t, (run taggedHistory).build tagEnv.toEnv = .ok t ∧
    t.titles = some ⟨[("de-CH-1901", "Licht"), ("sl-Latn-IT-nedis", "Luč")]⟩ ∧
    (t.links.getD []).map (·.hreflang) = [some ["en-GB-oed"]] := by
  have : (match (run taggedHistory).build tagEnv.toEnv with
      | .ok t => some (t.titles, (t.links.getD []).map (·.hreflang))
      | .error _ => none) =
      some (some ⟨[("de-CH-1901", "Licht"), ("sl-Latn-IT-nedis", "Luč")]⟩, [some ["en-GB-oed"]]) := by decide +kernel
  cases hb : (run taggedHistory).build tagEnv.toEnv with
  | error e => rw [hb] at this; cases this
  | ok t =>
    rw [hb] at this
    simp only [Option.some.injEq, Prod.mk.injEq] at this
    exact ⟨t, rfl, this⟩

/-- Two languages that differ in case only. -/
def lostHistory : List (ThingOp .nil) := [.common (.titles [("EN", "Lamp"), ("en", "Light")])]

theorem lost_reachable : Reachable .nil "Lamp" lostHistory (run lostHistory) :=
  run_reachable _ (by intro op h; cases List.mem_singleton.1 h; trivial)

end Demo

/-- Tags of all kinds, with a redundant case. -/
example : LangTag.normalize "EN-us" = some "en-US" ∧ LangTag.normalize "SL-latn-it-NEDIS" = some "sl-Latn-IT-nedis" ∧
    LangTag.normalize "de-ch-1901" = some "de-CH-1901" ∧ LangTag.normalize "zh-CMN-hans-cn" = some "zh-cmn-Hans-CN" ∧
    LangTag.normalize "es-419" = some "es-419" ∧ LangTag.normalize "EN-A-MYEXT-B-ANOTHER" = some "en-a-myext-b-another" ∧
    LangTag.normalize "en-X-US" = some "en-x-us" ∧ LangTag.normalize "I-KLINGON" = some "i-klingon" := by decide +kernel

/-- Texts that are no tags: those of the unit tests of the crate, and others. -/
example : LangTag.normalize "e!n" = none ∧ LangTag.normalize "e1n" = none ∧ LangTag.normalize "i18" = none ∧
    LangTag.normalize "i1t" = none ∧ LangTag.normalize "" = none ∧ LangTag.normalize "en-" = none ∧ LangTag.normalize "en_US" = none ∧
    LangTag.normalize "de-419-DE" = none ∧ LangTag.normalize "a-DE" = none ∧ LangTag.normalize "en-a" = none ∧
    LangTag.normalize "en-x" = none := by decide +kernel

example : WellFormed "EN-us" :=
  (C69_well_formed (by rintro ⟨x, cs, h, -⟩; cases h)).1 ⟨"en-US", by decide +kernel⟩
example : ¬ WellFormed "i18" := fun h => by
  obtain ⟨tag, h⟩ := C69_accepted.2 (.inl h)
  rw [show LangTag.normalize "i18" = none by decide +kernel] at h
  cases h
example : Formatted "SL-latn-it-NEDIS" "sl-Latn-IT-nedis" := (C69_formatted.1 (by decide +kernel)).2
example : SameLetters "EN-us" "en-US" ∧ ¬ SameLetters "en" "de" := by
  unfold SameLetters; decide +kernel

example : ∃ t m, (Demo.run Demo.taggedHistory).build Demo.tagEnv.toEnv = .ok t ∧ t.HasTranslations m ∧
    ("sl-Latn-IT-nedis", "Luč") ∈ m.map :=
  let ⟨t, hb, _⟩ := Demo.tagged_built
  let ⟨m, h1, _, h2⟩ := C69_translations Demo.tag_tags Demo.tagged_reachable hb
    (.titles (c := [("SL-latn-it-NEDIS", "Luč"), ("de-ch-1901", "Licht")]) rfl) (by unfold SameLetters; decide +kernel)
  ⟨t, m, hb, h1, (h2 _ _).2 ⟨"SL-latn-it-NEDIS", by decide +kernel, (C69_formatted.1 (by decide +kernel)).2⟩⟩

example : ∃ t m, (Demo.run Demo.lostHistory).build Demo.tagEnv.toEnv = .ok t ∧ t.HasTranslations m ∧ m.map.length < 2 :=
  have hb : ∃ t, (Demo.run Demo.lostHistory).build Demo.tagEnv.toEnv = .ok t := by
    have : (match (Demo.run Demo.lostHistory).build Demo.tagEnv.toEnv with | .ok _ => true | .error _ => false) = true := by
      decide +kernel
    cases hb : (Demo.run Demo.lostHistory).build Demo.tagEnv.toEnv with
    | error e => rw [hb] at this; cases this
    | ok t => exact ⟨t, rfl⟩
  let ⟨t, hb⟩ := hb
  let ⟨m, h1, h2⟩ := C69_lost Demo.tag_tags Demo.lost_reachable hb (.titles (c := [("EN", "Lamp"), ("en", "Light")]) rfl)
    (k := "EN") (k' := "en") (by decide +kernel) (by decide +kernel) (by decide) (by unfold SameLetters; decide +kernel)
  ⟨t, m, hb, h1, h2⟩

/-- `.titles(|t| t.add("i18", "Lamp"))` -/
example : ∃ (h : List (ThingOp .nil)) (b : ThingBuilder .nil), Reachable .nil "Lamp" h b ∧
    b.build Demo.tagEnv.toEnv = .error (.err (.invalidLanguageTag "i18")) := by
  refine ⟨[.common (.titles [("i18", "Lamp")])], _, Demo.run_reachable _ (by intro op h; cases List.mem_singleton.1 h; trivial), ?_⟩
  have : (match (Demo.run [.common (.titles [("i18", "Lamp")])]).build Demo.tagEnv.toEnv with
      | .error (.err (.invalidLanguageTag k)) => some k
      | _ => none) = some "i18" := by decide +kernel
  split at this
  · rename_i h; cases this; exact h
  · cases this

example : ∃ t, fromText .nil Demo.tagEnv (.obj Demo.taggedMembers) = some t ∧ SaysTexts "titles" Demo.taggedMembers t.titles :=
  let ⟨t, h, _⟩ := Demo.tagged_read
  ⟨t, h, (C69_thing_read Demo.tag_tags Demo.tagged_range h).1⟩

example : ∃ t v, fromText .nil Demo.tagEnv (.obj Demo.taggedMembers) = some t ∧ toValue .nil Demo.tagEnv t = some v ∧
    fromValue .nil Demo.tagEnv v = some t.stored :=
  let ⟨t, h, _⟩ := Demo.tagged_read
  let ⟨v, h'⟩ := C69_reread Demo.tag_tags Demo.tag_times Demo.nil_separate Demo.nil_lawful Demo.tagged_noDup h
  ⟨t, v, h, h'⟩

/-- `"titles": {"i18": "Lamp"}` -/
example : fromText .nil Demo.tagEnv (.obj (Demo.document (.str "none") ++ [("titles", .obj [("i18", .str "Lamp")])])) = none :=
  C69_refused Demo.tag_tags (numbersInRange_of (by decide)) (k := "titles") (ms := [("i18", .str "Lamp")]) (by decide)
    (by simp) (.head _) fun h => by
    obtain ⟨tag, h⟩ := C69_accepted.2 h
    rw [show LangTag.normalize "i18" = none by decide +kernel] at h
    cases h

end Wot
