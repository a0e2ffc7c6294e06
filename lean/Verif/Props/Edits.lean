import Verif.Lemmas.EditLaws
import Verif.Props.Documents
/-
C38: reading ignores the order of members, and members with unknown names.
-/
namespace Wot

variable {X : ExtTypes} {C : ExtCodecs X} {env : SerdeEnv} {d d' : Json}

/-! ### What does not matter

The exceptions are in `Part.Swappable` (two names of the same bound, two spellings of the same language) and in
`Part.names` (every member of a security definition can matter). They are dealt with below. -/

/-- A Thing is read the same however often members with unknown names are added or removed and members are reordered,
anywhere in the document. -/
theorem C38_thing_partial (loc : C.Local) (ord : C.Orderless) (sep : C.Separate) (h : Edited env C .thing d d') :
    deThing C env d = deThing C env d' := h.read ⟨loc, ord, sep⟩

theorem C38_form (loc : C.Local) (ord : C.Orderless) (sep : C.Separate) (h : Edited env C .form d d') :
    deForm C d = deForm C d' := h.read ⟨loc, ord, sep⟩

theorem C38_link (h : Edited env ExtCodecs.nil .link d d') : deLink env d = deLink env d' :=
  h.read ⟨ExtCodecs.nil_local, ExtCodecs.nil_orderless, Demo.nil_separate⟩

theorem C38_schema_partial (loc : C.Local) (ord : C.Orderless) (sep : C.Separate) (h : Edited env C .schema d d') :
    deDS C env d = deDS C env d' := h.read ⟨loc, ord, sep⟩

theorem C38_affordances_partial (loc : C.Local) (ord : C.Orderless) (sep : C.Separate) :
    (Edited env C .property d d' → deProperty C env d = deProperty C env d') ∧
    (Edited env C .action d d' → deAction C env d = deAction C env d') ∧
    (Edited env C .event d d' → deEvent C env d = deEvent C env d') :=
  ⟨fun h => h.read ⟨loc, ord, sep⟩, fun h => h.read ⟨loc, ord, sep⟩, fun h => h.read ⟨loc, ord, sep⟩⟩

theorem C38_security_partial (loc : C.Local) (ord : C.Orderless) (sep : C.Separate) (h : Edited env C .security d d') :
    deSecurity env d = deSecurity env d' := h.read ⟨loc, ord, sep⟩

/-- The conditions hold of `Nil` and of the protocol bindings of the crate, in any number and order. -/
theorem C38_bindings_partial (l : List Binding) (h : Edited env (Binding.stack l) .thing d d') :
    deThing (Binding.stack l) env d = deThing (Binding.stack l) env d' := h.read (Binding.lawful l)

/-- Two documents without repeated members that say the same up to the order of members, of which none gives a bound
twice, are read as the same Thing, if different texts stand for different languages. -/
theorem C38_order_partial (loc : C.Local) (ord : C.Orderless) (sep : C.Separate) (ht : env.TagsDistinct)
    (h : d.NoDup) (h' : d'.NoDup) (hb : d.OneBound) (hb' : d'.OneBound) (he : d.norm = d'.norm) :
    deThing C env d = deThing C env d' := by
  have e1 := (edited_norm (C := C) ht d h hb .thing).read ⟨loc, ord, sep⟩
  have e2 := (edited_norm (C := C) ht d' h' hb' .thing).read ⟨loc, ord, sep⟩
  rw [← he] at e2
  exact e1.trans e2.symm

/-- So a Thing is read from a text just as from the `serde_json::Value` read from this text. -/
theorem C38_text_or_value_partial (loc : C.Local) (ord : C.Orderless) (sep : C.Separate) (ht : env.TagsDistinct)
    (h : d.NoDup) (hb : d.OneBound) : fromText C env d = fromValue C env d.norm :=
  (edited_norm (C := C) ht d h hb .thing).read ⟨loc, ord, sep⟩

/-! ### Bounds that are given twice -/

theorem boundNames_apart (sep : C.Separate) :
    ∀ f ∈ boundNames, f ∉ C.dataSchema.keys ++ C.arraySchema.keys ++ C.objectSchema.keys := by
  intro f hf h
  have hn : f ∈ Names.schema := (show ∀ f ∈ boundNames, f ∈ Names.schema by decide) f hf
  simp only [List.mem_append] at h
  rcases h with (h | h) | h
  · exact sep.schemas.schema f h hn
  · exact sep.schemas.array f h (List.mem_append_left _ hn)
  · exact sep.schemas.object f h (List.mem_append_left _ hn)

/-- When both names of a bound are given, the second is ignored, even if the first one cannot be read. -/
theorem C38_first_bound (loc : C.Local) (sep : C.Separate) {k k' : String} (hb : Part.SameBound k k') {a : Members}
    (ha : k ∈ a.map (·.1)) (b : Members) (v : Json) :
    deDS C env (.obj (a ++ (k', v) :: b)) = deDS C env (.obj (a ++ b)) :=
  (SameSchema.schema loc (sameSchema_later (boundNames_apart sep) hb ha b v)).symm

/-- So their order matters. -/
theorem C38_bound_order : ∃ d d' : Json, d.NoDup ∧ Reordered d d' ∧
    ∃ s s', deDS .nil Demo.senv d = some s ∧ deDS .nil Demo.senv d' = some s' ∧
      s.subtype = some (.integer { maximum := some (.inclusive ⟨1, by decide⟩) }) ∧
      s'.subtype = some (.integer { maximum := some (.exclusive ⟨2, by decide⟩) }) :=
  ⟨.obj [("type", .str "integer"), ("maximum", .num (.pos 1)), ("exclusiveMaximum", .num (.pos 2))],
    .obj [("type", .str "integer"), ("exclusiveMaximum", .num (.pos 2)), ("maximum", .num (.pos 1))],
    ⟨by decide, by simp [Json.NoDupMembers, Json.NoDup]⟩,
    .swap (a := [("type", .str "integer")]) (b := []) (by decide), _, _, rfl, rfl, rfl, rfl⟩

/-! ### Two spellings of a language -/

theorem collect_before {V : Type} {k : String} {v : V} {b : List (String × V)} (a : List (String × V))
    (h : k ∈ b.map (·.1)) : HMap.collect (a ++ (k, v) :: b) = HMap.collect (a ++ b) := by
  apply HMap.Sorted.ext (HMap.collect_sorted _) (HMap.collect_sorted _)
  intro n
  rw [get?_collect, get?_collect]
  simp only [History.named, List.filterMap_append, List.filterMap_cons]
  by_cases h1 : k = n
  · subst h1
    obtain ⟨kv, h1, h2⟩ := List.mem_map.1 h
    simp only [if_true, lastOf_append_list, lastOf_cons]
    cases e : lastOf (b.filterMap fun kv => if kv.1 = k then some kv.2 else none) with
    | none =>
      have := List.filterMap_eq_nil_iff.1 (lastOf_eq_none.1 e) kv h1
      simp [h2] at this
    | some x => rfl
  · simp [h1]

/-- When two members are read as the same language, the first is ignored. -/
theorem C38_last_translation {k k' : String} {tag s : String} {b : Members} (a : Members)
    (hk : env.langRead k = some tag) (hk' : env.langRead k' = some tag) (hb : k' ∈ b.map (·.1)) :
    deLang env (.obj (a ++ (k, .str s) :: b)) = deLang env (.obj (a ++ b)) := by
  obtain ⟨⟨_, v'⟩, hkv, rfl⟩ := List.mem_map.1 hb
  simp only [deLang]
  generalize hf : (fun kv : String × Json => (env.langRead kv.1).bind fun t => (deStr kv.2).map fun s => (t, s)) = f
  have h1 : f (k, .str s) = some (tag, s) := by rw [← hf]; simp [hk, deStr]
  simp only [mapOpt_append, mapOpt_cons, h1, Option.bind_some]
  cases mapOpt f a with
  | none => rfl
  | some la =>
    cases hl : mapOpt f b with
    | none => rfl
    | some lb =>
      simp only [Option.bind_some, Option.map_some, Option.some.injEq, MultiLanguage.mk.injEq]
      refine collect_before la ?_
      obtain ⟨x, hx, he⟩ := (mapOpt_eq_some.1 hl).of_mem_left _ hkv
      subst hf
      simp only [hk', Option.bind_some] at he
      obtain ⟨s', _, e⟩ := Option.map_eq_some_iff.1 he
      exact List.mem_map.2 ⟨x, hx, by rw [← e]⟩

/-- So their order matters: in an environment where tags are not case sensitive, `en` and `EN` are the same tag. -/
theorem C38_translation_order : ∃ (env : SerdeEnv) (d d' : Json), d.NoDup ∧ Reordered d d' ∧
    deLang env d = some ⟨[("en", "two")]⟩ ∧ deLang env d' = some ⟨[("en", "one")]⟩ :=
  ⟨{ Demo.senv with langRead := fun _ => some "en" }, .obj [("en", .str "one"), ("EN", .str "two")],
    .obj [("EN", .str "two"), ("en", .str "one")], ⟨by decide, by simp [Json.NoDupMembers, Json.NoDup]⟩,
    .swap (a := []) (b := []) (by decide), rfl, rfl⟩

/-! ### Unknown members of security definitions -/

theorem rest_insert {K : List String} {k : String} (hk : k ∉ K) (a b : Members) (v : Json) :
    rest K (a ++ (k, v) :: b) = rest K a ++ (k, v) :: rest K b ∧ rest K (a ++ b) = rest K a ++ rest K b := by
  simp [rest, hk]

theorem known_insert {k : String} (hk : k ∉ Names.scheme) {a b : Members} (v : Json) :
    deKnown (a ++ (k, v) :: b) =
      match deKnown (a ++ b) with
      | some (.combo _) => none
      | r => r := by
  have hs := sameOn_insert hk a b v
  have hk1 : k ∉ ["scheme"] := fun h => hk (by simp only [List.mem_singleton] at h; subst h; decide)
  have ho := hs.rest ["scheme"]
  have h0 := hs
  unfold SameOn at ho h0
  have e0 : required "scheme" (deTag schemeTable) (a ++ (k, v) :: b) = required "scheme" (deTag schemeTable) (a ++ b) := by
    simp (disch := decide) only [required, h0]
  have e1 : deBasic (rest ["scheme"] (a ++ (k, v) :: b)) = deBasic (rest ["scheme"] (a ++ b)) := by
    simp (disch := decide) only [deBasic, optional, defaulted, ho]
  have e2 : deDigest (rest ["scheme"] (a ++ (k, v) :: b)) = deDigest (rest ["scheme"] (a ++ b)) := by
    simp (disch := decide) only [deDigest, optional, defaulted, required, ho]
  have e3 : deBearer (rest ["scheme"] (a ++ (k, v) :: b)) = deBearer (rest ["scheme"] (a ++ b)) := by
    simp (disch := decide) only [deBearer, optional, defaulted, ho]
  have e4 : dePsk (rest ["scheme"] (a ++ (k, v) :: b)) = dePsk (rest ["scheme"] (a ++ b)) := by
    simp (disch := decide) only [dePsk, optional, defaulted, ho]
  have e5 : deOAuth2 (rest ["scheme"] (a ++ (k, v) :: b)) = deOAuth2 (rest ["scheme"] (a ++ b)) := by
    simp (disch := decide) only [deOAuth2, optional, defaulted, required, ho]
  have e6 : deApiKey (rest ["scheme"] (a ++ (k, v) :: b)) = deApiKey (rest ["scheme"] (a ++ b)) := by
    simp (disch := decide) only [deApiKey, optional, defaulted, ho]
  have e7 : deCombo (rest ["scheme"] (a ++ (k, v) :: b)) = none := by
    rw [(rest_insert hk1 a b v).1]
    have : k ≠ "oneOf" ∧ k ≠ "allOf" := ⟨fun h => hk (by subst h; decide), fun h => hk (by subst h; decide)⟩
    cases rest ["scheme"] a with
    | nil => cases rest ["scheme"] b <;> simp [deCombo, this]
    | cons x l => cases l <;> rfl
  unfold deKnown
  rw [e0]
  cases required "scheme" (deTag schemeTable) (a ++ b) with
  | none => rfl
  | some tag =>
    simp only [bind, Option.bind_some, e1, e2, e3, e4, e5, e6, e7]
    cases tag with
    | noSec => rfl
    | auto => rfl
    | combo => cases deCombo (rest ["scheme"] (a ++ b)) <;> rfl
    | basic => cases deBasic (rest ["scheme"] (a ++ b)) <;> rfl
    | digest => cases deDigest (rest ["scheme"] (a ++ b)) <;> rfl
    | bearer => cases deBearer (rest ["scheme"] (a ++ b)) <;> rfl
    | psk => cases dePsk (rest ["scheme"] (a ++ b)) <;> rfl
    | oauth2 => cases deOAuth2 (rest ["scheme"] (a ++ b)) <;> rfl
    | apiKey => cases deApiKey (rest ["scheme"] (a ++ b)) <;> rfl

theorem security_insert {k : String} (hk : k ∉ Names.scheme) {a b : Members} {s : SecurityScheme}
    (h : deSecurity env (.obj (a ++ b)) = some s) (v : Json) (st : SchemeSubtype) :
    deSubtype (rest securityKeys (a ++ (k, v) :: b)) = some st ↔
      deSecurity env (.obj (a ++ (k, v) :: b)) = some { s with subtype := st } := by
  have h := deSecurity_iff.1 h
  have hs := sameOn_insert hk a b v
  unfold SameOn at hs
  constructor
  · intro h'
    refine deSecurity_iff.2 ⟨?_, ?_, ?_, ?_, h'⟩
    · rw [← h.attype]; simp (disch := decide) only [optional, defaulted, hs]
    · rw [← h.description]; simp (disch := decide) only [optional, defaulted, hs]
    · rw [← h.descriptions]; simp (disch := decide) only [optional, defaulted, hs]
    · rw [← h.proxy]; simp (disch := decide) only [optional, defaulted, hs]
  · exact fun h' => (deSecurity_iff.1 h').subtype

theorem subtype_insert {k : String} (hk : k ∉ Names.scheme) (a b : Members) (v : Json) :
    deSubtype (rest securityKeys (a ++ (k, v) :: b)) =
      match deKnown (rest securityKeys (a ++ b)) with
      | some (.combo _) => deUnknown (rest securityKeys (a ++ (k, v) :: b))
      | some r => some (.known r)
      | none => deUnknown (rest securityKeys (a ++ (k, v) :: b)) := by
  have hk1 : k ∉ securityKeys := fun h => hk ((show ∀ f ∈ securityKeys, f ∈ Names.scheme by decide) _ h)
  obtain ⟨e1, e2⟩ := rest_insert hk1 a b v
  unfold deSubtype
  rw [e1, known_insert hk, ← e2]
  cases deKnown (rest securityKeys (a ++ b)) with
  | none => rfl
  | some r => cases r <;> rfl

theorem unknown_insert {k : String} (hk : k ∉ Names.scheme) {a b : Members} {n : String} (v : Json)
    (h : occ "scheme" (a ++ b) = [.str n]) : deUnknown (rest securityKeys (a ++ (k, v) :: b)) =
      some (.unknown n (Json.obj (Doc.schemeMembers (a ++ (k, v) :: b))).norm) := by
  have hs : occ "scheme" (rest securityKeys (a ++ (k, v) :: b)) = [.str n] := by
    rw [occ_rest_of (by decide), ← h]
    exact (sameOn_insert hk a b v "scheme" (by decide)).symm
  simp only [deUnknown, required, hs, deStr, bind, Option.bind_some, pure, schemeMembers_eq]

/-- A member with an unknown name in a security definition is ignored if the scheme is a predefined one that is not a
combination. -/
theorem C38_predefined_unknown {k : String} (hk : k ∉ Names.scheme) {a b : Members} {s : SecurityScheme}
    (h : deSecurity env (.obj (a ++ b)) = some s) (v : Json) {r : KnownScheme} (hr : s.subtype = .known r)
    (hc : ∀ c, r ≠ .combo c) : deSecurity env (.obj (a ++ (k, v) :: b)) = some s := by
  refine (security_insert hk h v (.known r)).1 ?_ |>.trans (by rw [← hr])
  have h1 := (deSecurity_iff.1 h).subtype
  rw [subtype_insert hk]
  unfold deSubtype at h1
  cases e : deKnown (rest securityKeys (a ++ b)) with
  | none =>
    rw [e, hr] at h1
    simp only [deUnknown, bind, pure] at h1
    obtain ⟨_, _, h1⟩ := Option.bind_eq_some_iff.1 h1
    cases h1
  | some r' =>
    rw [e, hr] at h1
    cases h1
    cases r with
    | combo c => exact absurd rfl (hc c)
    | _ => rfl

/-- It is part of the data of a custom scheme. -/
theorem C38_custom_unknown {k : String} (hk : k ∉ Names.scheme) {a b : Members} {s : SecurityScheme}
    (h : deSecurity env (.obj (a ++ b)) = some s) (v : Json) {n : String} {data : Json}
    (hr : s.subtype = .unknown n data) : deSecurity env (.obj (a ++ (k, v) :: b)) =
      some { s with subtype := .unknown n (Json.obj (Doc.schemeMembers (a ++ (k, v) :: b))).norm } := by
  refine (security_insert hk h v _).1 ?_
  have h1 := (deSecurity_iff.1 h).subtype
  rw [subtype_insert hk]
  unfold deSubtype at h1
  cases e : deKnown (rest securityKeys (a ++ b)) with
  | some r' => rw [e, hr] at h1; cases h1
  | none =>
    rcases C51_scheme h with ⟨⟨r, hr'⟩, _⟩ | ⟨n', ho, _, hs⟩
    · rw [hr'] at hr; cases hr
    · rw [hs] at hr
      cases hr
      exact unknown_insert hk v ho

/-- It turns a combination into a custom scheme called `combo`, or makes it unreadable if the combination was called by
its number. -/
theorem C38_combination_unknown {k : String} (hk : k ∉ Names.scheme) {a b : Members} {s : SecurityScheme}
    (h : deSecurity env (.obj (a ++ b)) = some s) (v : Json) {c : ComboScheme} (hr : s.subtype = .known (.combo c)) :
    (occ "scheme" (a ++ b) = [.str "combo"] ∧ deSecurity env (.obj (a ++ (k, v) :: b)) =
      some { s with subtype := .unknown "combo" (Json.obj (Doc.schemeMembers (a ++ (k, v) :: b))).norm }) ∨
    (occ "scheme" (a ++ b) = [.num (.pos 2)] ∧ deSecurity env (.obj (a ++ (k, v) :: b)) = none) := by
  have h1 := (deSecurity_iff.1 h).subtype
  have hi := security_insert hk h v
  rw [subtype_insert hk] at hi
  unfold deSubtype at h1
  cases e : deKnown (rest securityKeys (a ++ b)) with
  | none =>
    rw [e, hr] at h1
    simp only [deUnknown, bind, pure] at h1
    obtain ⟨_, _, h1⟩ := Option.bind_eq_some_iff.1 h1
    cases h1
  | some r' =>
    rw [e, hr] at h1
    cases h1
    simp only [e] at hi
    have ho : occ "scheme" (rest securityKeys (a ++ b)) = occ "scheme" (a ++ b) := occ_rest_of (by decide)
    have e0 := e
    unfold deKnown at e
    simp only [bind] at e
    obtain ⟨tag, ht, e⟩ := Option.bind_eq_some_iff.1 e
    have htag : tag = .combo := by
      cases tag with
      | combo => rfl
      | noSec => cases e
      | auto => cases e
      | _ => obtain ⟨_, _, e⟩ := Option.map_eq_some_iff.1 e; cases e
    subst htag
    unfold required at ht
    rw [ho] at ht
    split at ht
    · rename_i w hw
      cases w with
      | str n =>
        have : n = "combo" := by
          simp only [deTag, nameOf?] at ht
          obtain ⟨x, hx, e⟩ := Option.map_eq_some_iff.1 ht
          have hm := List.mem_of_find?_eq_some hx
          have hp := List.find?_some hx
          simp only [decide_eq_true_eq] at hp
          rw [← hp]
          revert e
          exact (show ∀ x ∈ schemeTable, x.2 = SchemeTag.combo → x.1 = "combo" by decide) x hm
        subst this
        exact .inl ⟨hw, (hi _).1 (unknown_insert hk v hw)⟩
      | num m =>
        cases m with
        | pos n =>
          have : n = 2 := by
            simp only [deTag] at ht
            obtain ⟨x, hx, e⟩ := Option.map_eq_some_iff.1 ht
            have hlt : n < 9 := by
              rcases Nat.lt_or_ge n 9 with h | h
              · exact h
              · rw [List.getElem?_eq_none (by exact h)] at hx; cases hx
            exact (show ∀ n < 9, (schemeTable[n]?).map (·.2) = some SchemeTag.combo → n = 2 by decide) n hlt
              (by rw [hx]; exact congrArg some e)
          subst this
          refine .inr ⟨hw, ?_⟩
          cases hn : deSecurity env (.obj (a ++ (k, v) :: b)) with
          | none => rfl
          | some s' =>
            have h2 := (deSecurity_iff.1 hn).subtype
            rw [subtype_insert hk, e0] at h2
            have hs : occ "scheme" (rest securityKeys (a ++ (k, v) :: b)) = [.num (.pos 2)] := by
              rw [occ_rest_of (by decide), ← hw]
              exact (sameOn_insert hk a b v "scheme" (by decide)).symm
            simp only [deUnknown, required, hs, deStr, bind, Option.bind_none] at h2
            cases h2
        | _ => cases ht
      | _ => cases ht
    · cases ht

/-! ### Examples -/

namespace Demo

/-- A document with a property whose schema has a bound, and the same with members reordered and unknown members, at
the top and inside. -/
def plainDocument : Json := .obj
  [("title", .str "Lamp"), ("security", .str "none"),
   ("securityDefinitions", .obj [("none", .obj [("scheme", .str "nosec")])]),
   ("properties", .obj [("level", .obj [("forms", .arr [.obj [("href", .str "/level")]]),
     ("type", .str "integer"), ("maximum", .num (.pos 9))])])]

def editedDocument : Json := .obj
  [("security", .str "none"), ("title", .str "Lamp"), ("x-note", .obj []),
   ("securityDefinitions", .obj [("none", .obj [("scheme", .str "nosec")])]),
   ("properties", .obj [("level", .obj [("forms", .arr [.obj [("href", .str "/level"), ("x-form", .null)]]),
     ("maximum", .num (.pos 9)), ("type", .str "integer")])])]

theorem edited : Edited senv ExtCodecs.nil .thing plainDocument editedDocument := by
  refine .edit (.edit (.edit (.edit (.refl _) (.swap (a := []) (by decide) trivial))
    (.unknown (a := [("security", .str "none"), ("title", .str "Lamp")]) (k := "x-note") (v := .obj []) rfl (by decide)))
    (.member (a := [("security", .str "none"), ("title", .str "Lamp"), ("x-note", .obj []),
      ("securityDefinitions", .obj [("none", .obj [("scheme", .str "nosec")])])]) (b := []) rfl
      (.member (a := []) (b := []) rfl
        (.swap (a := [("forms", .arr [.obj [("href", .str "/level")]])]) (b := []) (by decide) ?_))))
    (.member (a := [("security", .str "none"), ("title", .str "Lamp"), ("x-note", .obj []),
      ("securityDefinitions", .obj [("none", .obj [("scheme", .str "nosec")])])]) (b := []) rfl
      (.member (a := []) (b := []) rfl
        (.member (a := []) (b := [("maximum", .num (.pos 9)), ("type", .str "integer")]) rfl
          (.element (a := []) (b := [])
            (.unknown (a := [("href", .str "/level")]) (b := []) (k := "x-form") (v := .null) rfl (by decide))))))
  simp [Part.Swappable, Part.SameBound]

example : (∃ t, deThing .nil senv plainDocument = some t) ∧
    deThing .nil senv plainDocument = deThing .nil senv editedDocument :=
  ⟨⟨_, rfl⟩, C38_thing_partial ExtCodecs.nil_local ExtCodecs.nil_orderless nil_separate edited⟩

/-- The same with protocol bindings. -/
example : deThing (Binding.stack [.http, .coap, .mqtt]) senv (.obj (document (.str "none") ++
      [("forms", .arr [.obj [("href", .str "/"), ("htv:methodName", .str "GET"), ("mqv:retain", .bool true)]])])) =
    deThing (Binding.stack [.http, .coap, .mqtt]) senv (.obj (document (.str "none") ++
      [("forms", .arr [.obj [("href", .str "/"), ("mqv:retain", .bool true), ("htv:methodName", .str "GET")]])])) :=
  C38_bindings_partial _ (.edit (.refl _) (.member rfl (.element (a := []) (b := [])
    (.swap (a := [("href", .str "/")]) (b := []) (by decide) trivial))))

theorem oneBound_obj {m : Members} : (Json.obj m).OneBound ↔
    (∀ x ∈ m, ∀ y ∈ m, x.1 ≠ y.1 → ¬ Part.SameBound x.1 y.1) ∧ ∀ x ∈ m, x.2.OneBound := by
  constructor
  · exact fun h => ⟨h m .self, fun x hx m' hm => h m' (.member hx hm)⟩
  · intro h m' hm
    cases hm with
    | self => exact h.1
    | member hx hm => exact h.2 _ hx m' hm

theorem oneBound_arr {l : List Json} : (Json.arr l).OneBound ↔ ∀ x ∈ l, x.OneBound := by
  constructor
  · exact fun h x hx m hm => h m (.element hx hm)
  · intro h m hm
    cases hm with
    | element hx hm => exact h _ hx m hm

theorem oneBound_str {s : String} : (Json.str s).OneBound := nofun

theorem oneBound_num {n : JNum} : (Json.num n).OneBound := nofun

/-- Tags are distinct in the environment of the examples, and the conditions of `C38_order_partial` can be met. -/
example : senv.TagsDistinct ∧ plainDocument.NoDup ∧ plainDocument.OneBound := by
  refine ⟨fun k k' tag h h' => ?_, ?_, ?_⟩
  · exact (Option.some.inj h).trans (Option.some.inj h').symm
  · simp [plainDocument, Json.NoDup, Json.NoDupMembers, Json.NoDupList]
  · simp [oneBound_obj, oneBound_arr, oneBound_str, oneBound_num, plainDocument, Part.SameBound]

/-- An unknown member turns a combination into a custom scheme. -/
example : ∃ s s', deSecurity senv (.obj [("scheme", .str "combo"), ("oneOf", .arr [.str "a", .str "b"])]) = some s ∧
    s.subtype = .known (.combo (.oneOf ["a", "b"])) ∧
    deSecurity senv (.obj [("scheme", .str "combo"), ("oneOf", .arr [.str "a", .str "b"]), ("note", .null)]) = some s' ∧
    s'.subtype = .unknown "combo" (.obj [("note", .null), ("oneOf", .arr [.str "a", .str "b"])]) :=
  ⟨_, _, rfl, rfl, rfl, rfl⟩

/-- Of two bounds the first is taken, even if it is no number. -/
example : deDS ExtCodecs.nil senv (.obj ([("type", .str "number"), ("minimum", .str "?")] ++
      ("exclusiveMinimum", .num (.pos 2)) :: [])) =
    deDS ExtCodecs.nil senv (.obj [("type", .str "number"), ("minimum", .str "?")]) :=
  C38_first_bound ExtCodecs.nil_local nil_separate (k := "minimum") (.inr (by decide)) (by decide) [] _

end Demo
end Wot
