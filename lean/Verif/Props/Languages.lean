import Verif.Lemmas.Translations
import Verif.Props.Demo
/-
C12 Language tags are validated everywhere
C13 Translations with distinct tags are all preserved

`History.LangKey h k` (Spec/Valid): `k` is a language given anywhere in the calls `h`.
`History.HasTranslations h u` (Spec/Translations): `u` is a group of translations given in `h`.
`Thing.HasTranslations t m` (Spec/Thing): `m` is a `titles` or `descriptions` map anywhere in `t`.
-/
namespace Wot

variable {X : ExtTypes} {title : String} {h : List (ThingOp X)} {b : ThingBuilder X} {env : Env}
  {t : Thing X}

/-- A Thing is built only if the parser accepts every language supplied anywhere. -/
theorem C12_accepted (hr : Reachable X title h b) (hb : b.build env = .ok t) {k : String}
    (hk : History.LangKey h k) : ∃ tag, env.langParse k = some tag :=
  (hr.valid_of_build hb).languages k hk

/-- Every map of translations in the Thing comes from a group supplied: its keys are exactly the tags
the languages of the group parse to. -/
theorem C12_keys (hr : Reachable X title h b) (hb : b.build env = .ok t) {m : MultiLanguage}
    (hm : t.HasTranslations m) : ∃ u, History.HasTranslations h u ∧
      ∀ tag, tag ∈ HMap.keys m.map ↔ ∃ k ∈ HMap.keys u.values, env.langParse k = some tag := by
  obtain ⟨u, hu, rfl⟩ := (hr.hasTranslations hb).1 hm
  exact ⟨u, hu, fun tag => keys_langResult fun k hk => C12_accepted hr hb (langKey_iff.2 (.inl ⟨u, hu, hk⟩))⟩

/-- The links of the Thing are those supplied, in order; their languages are the parsed ones, in
order, and absent if there are none. -/
theorem C12_hreflang (hr : Reachable X title h b) (hb : b.build env = .ok t) :
    (t.links.getD []).length = (History.links h).length ∧
    ∀ (i : Nat) (l : Link) (l' : UncheckedLink), (t.links.getD [])[i]? = some l →
      (History.links h)[i]? = some l' →
      (l'.hreflang = [] ∧ l.hreflang = none) ∨
      ∃ tags, tags ≠ [] ∧ l.hreflang = some tags ∧ l'.hreflang.map env.langParse = tags.map some := by
  have hl : t.links.getD [] = (History.links h).map (linkResult env) := by
    rw [((hr.ok_iff env t).1 hb).2]
    show (b.links.map _).getD [] = _
    rw [hr.links]
    unfold someList
    split
    · next e => rw [e]; rfl
    · rfl
  rw [hl]
  refine ⟨List.length_map _, fun i l l' h1 h2 => ?_⟩
  rw [List.getElem?_map, h2] at h1
  cases h1
  have hp : ∀ k ∈ l'.hreflang, ∃ tag, env.langParse k = some tag := fun k hk =>
    C12_accepted hr hb (.hreflang (List.mem_of_getElem? h2) hk)
  by_cases he : l'.hreflang = []
  · exact .inl ⟨he, if_pos he⟩
  · refine .inr ⟨l'.hreflang.map fun k => (env.langParse k).getD k, by simpa using he, if_neg he, ?_⟩
    rw [List.map_map]
    apply List.map_congr_left
    intro k hk
    obtain ⟨tag, ht⟩ := hp k hk
    simp [ht]

/-- If the parser rejects any language supplied anywhere, no Thing is built. -/
theorem C12_rejected (hr : Reachable X title h b) {k : String} (hk : History.LangKey h k)
    (hn : env.langParse k = none) : ∃ e, b.build env = .error (.err e) := by
  obtain ⟨e, he, -⟩ := hr.fails (env := env) (e := .invalidLanguageTag k) ⟨hk, hn⟩
  exact ⟨e, he⟩

/-- An `InvalidLanguageTag` error names a language that was supplied and is rejected. -/
theorem C12_error (hr : Reachable X title h b) {k : String}
    (hb : b.build env = .error (.err (.invalidLanguageTag k))) :
    History.LangKey h k ∧ env.langParse k = none := by
  rcases hr.outcome env with ⟨⟨_, h1⟩, _⟩ | ⟨⟨e, h1, h2⟩, _⟩
  · rw [h1] at hb; cases hb
  · rw [h1] at hb; cases hb; exact h2

/-- For each language, the last text supplied counts. -/
theorem C13_last (calls : List (String × String)) (k : String) :
    (MultiLanguageBuilder.ofCalls calls).values.get? k = lastOf (History.named k calls) := by
  rw [ofCalls_eq]
  exact get?_collect _ _

/-- Every group of translations supplied is in the Thing, with exactly one entry for each of the tags
its languages parse to, and each entry holds the text of a language with that tag. -/
theorem C13_entries (hr : Reachable X title h b) (hb : b.build env = .ok t) {u : MultiLanguageBuilder}
    (hu : History.HasTranslations h u) : ∃ m, t.HasTranslations m ∧ (HMap.keys m.map).Nodup ∧
      (∀ tag, tag ∈ HMap.keys m.map ↔ ∃ k ∈ HMap.keys u.values, env.langParse k = some tag) ∧
      (∀ tag text, (tag, text) ∈ m.map → ∃ k, (k, text) ∈ u.values ∧ env.langParse k = some tag) := by
  have hp : ∀ k ∈ HMap.keys u.values, ∃ t, env.langParse k = some t := fun k hk =>
    C12_accepted hr hb (langKey_iff.2 (.inl ⟨u, hu, hk⟩))
  exact ⟨langResult env u, (hr.hasTranslations hb).2 ⟨u, hu, rfl⟩, (HMap.collect_sorted _).nodup,
    fun tag => keys_langResult hp, fun tag text => mem_langResult hp⟩

/-- If the languages of a group parse to different tags, all its translations are in the Thing, and
no others. -/
theorem C13_preserved (hr : Reachable X title h b) (hb : b.build env = .ok t)
    {u : MultiLanguageBuilder} (hu : History.HasTranslations h u) (hd : DistinctTags env u) :
    ∃ m, t.HasTranslations m ∧ m.map.length = u.values.length ∧
      ∀ tag text, (tag, text) ∈ m.map ↔ ∃ k, (k, text) ∈ u.values ∧ env.langParse k = some tag := by
  have hp : ∀ k ∈ HMap.keys u.values, ∃ t, env.langParse k = some t := fun k hk =>
    C12_accepted hr hb (langKey_iff.2 (.inl ⟨u, hu, hk⟩))
  have hs := hr.sortedTranslations hu
  refine ⟨langResult env u, (hr.hasTranslations hb).2 ⟨u, hu, rfl⟩, ?_,
    fun tag text => mem_langResult_iff hs hp hd⟩
  apply Nat.le_antisymm (langResult_length_le u)
  have hn := distinct_nodup hs hp hd
  have := List.Nodup.length_le_of_subset hn (l₂ := HMap.keys (langResult env u).map) (by
    intro tag htag
    simp only [List.mem_map] at htag
    obtain ⟨_, ⟨kv, hkv, rfl⟩, rfl⟩ := htag
    obtain ⟨a, ha⟩ := hp kv.1 (List.mem_map_of_mem hkv)
    exact (keys_langResult hp).2 ⟨kv.1, List.mem_map_of_mem hkv, by rw [ha]; rfl⟩)
  simpa [HMap.keys] using this

/-- If two different languages of a group parse to the same tag, the map it becomes in the Thing has
the tags of its languages but fewer entries than were supplied. -/
theorem C13_collision (hr : Reachable X title h b) (hb : b.build env = .ok t)
    {u : MultiLanguageBuilder} (hu : History.HasTranslations h u) {k k' : String}
    (hk : k ∈ HMap.keys u.values) (hk' : k' ∈ HMap.keys u.values) (hne : k ≠ k')
    (he : env.langParse k = env.langParse k') :
    ∃ m, t.HasTranslations m ∧ m.map.length < u.values.length ∧
      ∀ tag, tag ∈ HMap.keys m.map ↔ ∃ k ∈ HMap.keys u.values, env.langParse k = some tag := by
  obtain ⟨m, h1, hm, hkeys, -⟩ := C13_entries hr hb hu
  refine ⟨m, h1, ?_, hkeys⟩
  have := List.Nodup.length_le_of_subset hm
    (l₂ := ((HMap.keys u.values).erase k').map fun k => (env.langParse k).getD k) (by
      intro tag htag
      obtain ⟨a, ha, hat⟩ := (hkeys tag).1 htag
      by_cases hak : a = k'
      · subst hak
        exact List.mem_map.2 ⟨k, (List.mem_erase_of_ne hne).2 hk, by rw [he, hat]; rfl⟩
      · exact List.mem_map.2 ⟨a, (List.mem_erase_of_ne hak).2 ha, by rw [hat]; rfl⟩)
  rw [List.length_map, List.length_erase_of_mem hk'] at this
  have h0 : 0 < u.values.length := by
    have := List.length_pos_of_mem hk'
    simpa [HMap.keys] using this
  simp only [HMap.keys, List.length_map] at this
  omega

/-! ### Concrete cases -/

end Wot

namespace Wot.Demo

/-- A parser that ignores case in `"EN"`, with the two iteration orders. -/
def parseCase (s : String) : Option String := if s = "EN" then some "en" else some s
def envCase : Env := { env with langParse := parseCase }
def envCaseRev : Env := { envRev with langParse := parseCase }

def caseHistory : List (ThingOp X) := [.common (.titles [("EN", "Lamp"), ("en", "Light")])]

theorem caseReachable : Reachable X "Lamp" caseHistory (run caseHistory) :=
  run_reachable _ (by intro op h; cases List.mem_singleton.1 h; trivial)

end Wot.Demo

namespace Wot

/-- With spellings of the same tag the iteration order of the hash map decides which text the Thing
has: the same calls give different Things. -/
theorem C13_order_matters : ∃ (h : List (ThingOp Demo.X)) (b : ThingBuilder Demo.X) (env env' : Env)
    (t t' : Thing Demo.X), Reachable Demo.X "Lamp" h b ∧ env.langParse = env'.langParse ∧
      b.build env = .ok t ∧ b.build env' = .ok t' ∧
      t.titles = some ⟨[("en", "Light")]⟩ ∧ t'.titles = some ⟨[("en", "Lamp")]⟩ :=
  ⟨Demo.caseHistory, Demo.run Demo.caseHistory, Demo.envCase, Demo.envCaseRev,
    (Demo.run Demo.caseHistory).result Demo.envCase, (Demo.run Demo.caseHistory).result Demo.envCaseRev,
    Demo.caseReachable, rfl, rfl, rfl, by decide, by decide⟩

/-- Languages are supplied in the example Thing, and a parser that rejects them makes it fail. -/
example : History.LangKey Demo.history "it" ∧ ∃ e, Demo.builder.build Demo.envNone = .error (.err e) :=
  have hk : History.LangKey Demo.history "it" :=
    .titles (c := [("en", "Lamp"), ("it", "Lampada")]) rfl (by simp)
  ⟨hk, C12_rejected Demo.reachable hk rfl⟩

example : Demo.builder.build Demo.envNone = .error (.err (.invalidLanguageTag "en")) := rfl

/-- The groups of the example Thing have distinct tags. -/
example : ∃ m, Demo.thing.HasTranslations m ∧ ("it", "Lampada") ∈ m.map := by
  obtain ⟨m, h1, -, h2⟩ := C13_preserved Demo.reachable Demo.built
    (.titles (c := [("en", "Lamp"), ("it", "Lampada")]) rfl)
    (by intro k _ k' _ h; exact Option.some.inj h)
  exact ⟨m, h1, (h2 "it" "Lampada").2 ⟨"it", by decide, rfl⟩⟩

example : ∃ ls l, Demo.thing.links = some ls ∧ l ∈ ls ∧ l.hreflang = some ["en"] :=
  ⟨_, _, rfl, .head _, rfl⟩

/-- A collision. -/
example : History.HasTranslations Demo.caseHistory (.ofCalls [("EN", "Lamp"), ("en", "Light")]) ∧
    Demo.envCase.langParse "EN" = Demo.envCase.langParse "en" := ⟨.titles rfl, rfl⟩

end Wot
