import Verif.Props.JsonText
import Verif.Spec.Skipped
import Verif.Model.FloatText
/-
C74: what is skipped in the text of a Thing.
-/
namespace Wot

variable {X : ExtTypes} {C : ExtCodecs X} {env : SerdeEnv} {fl : FloatText} {t : Thing X} {text text' : String} {i j : Json}

/-- C74: a Thing is read from a text just when the text is one of Things as far as JSON is concerned, what is not skipped in it
nests at most 127 deep, and a Thing is read from that. -/
theorem C74_reads : Thing.fromString C env fl text = some t ↔
    ∃ j, ThingText fl j text ∧ j.nesting ≤ 127 ∧ fromText C env j = some t := by
  constructor
  · intro h
    obtain ⟨j, hj, h⟩ := Option.bind_eq_some_iff.1 h
    have hj := thing_parse_iff.1 hj
    split at h
    · next hn => exact ⟨j, hj, hn, h⟩
    · cases h
  · rintro ⟨j, hj, hn, h⟩
    rw [Thing.fromString, thing_parse_iff.2 hj, Option.bind_some]
    exact (if_pos hn).trans h

/-- C74: what is not skipped in a text is unambiguous. -/
theorem C74_unambiguous (h : ThingText fl i text) (h' : ThingText fl j text) : i = j :=
  Option.some.inj ((thing_parse_iff.2 h).symm.trans (thing_parse_iff.2 h'))

/-- C74: nothing but what is not skipped matters. -/
theorem C74_does_not_matter (h : ThingText fl j text) (h' : ThingText fl j text') :
    (Thing.fromString C env fl text : Option (Thing X)) = Thing.fromString C env fl text' := by
  rw [Thing.fromString, Thing.fromString, thing_parse_iff.2 h, thing_parse_iff.2 h']

/-- C74: every text whose values can all be read is such a text, and a Thing is read from it just as if all values were looked
at. -/
theorem C74_ordinary (h : JsonText fl j text) :
    (∃ i, ThingText fl i text) ∧ (Thing.fromString C env fl text : Option (Thing X)) = fromStr C env j :=
  ⟨⟨_, thingText_of h⟩, C66_reads h⟩

/-- C74: no Thing is read that is not read from a text whose values can all be read as well. -/
theorem C74_nothing_new (hf : fl.Lawful) (h : Thing.fromString C env fl text = some t) :
    ∃ j text', JsonText fl j text' ∧ Thing.fromString C env fl text' = some t := by
  obtain ⟨j, hj, hn, h⟩ := C74_reads.1 h
  have hk : j.NumbersKept fl := by
    intro n hi
    have := thing_inRange hf.finite hj n hi
    cases n with
    | pos n => exact this
    | neg n => exact this
    | float f => exact hf.keeps f this
  refine ⟨j, _, (C65_written hk).1, ?_⟩
  rw [C66_reads (C65_written hk).1, (C62_limit j).1 hn, h]

theorem links_name : StringText "links" "\"links\"".toList := by
  have := stringText_text "links"
  rwa [show stringText "links" = "\"links\"".toList by decide] at this

theorem version_name : StringText "version" "\"version\"".toList := by
  have := stringText_text "version"
  rwa [show stringText "version" = "\"version\"".toList by decide] at this

theorem membersBy_append {P : String → Option Json → List Char → Prop} {m m' : Members} {cs ds : List Char}
    (h : MembersBy P m cs) (h' : MembersBy P m' ds) : MembersBy P (m ++ m') (cs ++ ',' :: ds) := by
  induction h with
  | one a b c d e f => exact .cons a b c d e f h'
  | cons a b c d e f _ ih =>
    have := MembersBy.cons a b c d e f ih
    simpa only [List.append_assoc, List.cons_append] using this

theorem object_members {P : String → Option Json → List Char → Prop} {m : Members} {cs : List Char} (hm : m ≠ [])
    (h : ObjectBy fl P (.obj m) ('{' :: cs ++ ['}'])) : MembersBy P m cs := by
  generalize e : '{' :: cs ++ ['}'] = ds at h
  cases h with
  | empty => exact (hm rfl).elim
  | obj h => simp only [List.cons_append, List.cons.injEq, List.append_cancel_right_eq, true_and] at e; exact e ▸ h
  | other h => exact (h _ rfl).elim

/-- The same struct with another member at the end that is skipped. -/
theorem struct_skips {fields : List String} {m : Members} {cs ks x : List Char} {k : String} (hm : m ≠ [])
    (h : StructText fl fields (.obj m) ('{' :: cs ++ ['}'])) (hk : k ∉ fields) (hs : StringText k ks) (hx : AnyValue x) :
    StructText fl fields (.obj m) ('{' :: (cs ++ ',' :: (ks ++ ':' :: x)) ++ ['}']) := by
  have h := object_members hm h
  have h' := membersBy_append h (.one (o := none) (u := []) (v := []) (w := []) (x := []) (by nofun) hs (by nofun) (by nofun)
    (.inr ⟨hk, rfl, hx⟩) (by nofun))
  refine .obj ?_
  simpa using h'

/-- C74: in a link, a member that the TD specification does not name may hold any value of RFC 8259: a number of any size,
escapes that denote no characters, arrays and objects nested however deep. It makes no difference. -/
theorem C74_links {M L : Members} {ms ls ks x : List Char} {k : String}
    (hm : ThingValueText fl (.obj M) ('{' :: ms ++ ['}'])) (hM : M ≠ [])
    (hl : StructText fl ["href", "type", "rel", "anchor", "sizes", "hreflang"] (.obj L) ('{' :: ls ++ ['}'])) (hL : L ≠ [])
    (hk : k ∉ ["href", "type", "rel", "anchor", "sizes", "hreflang"]) (hs : StringText k ks) (hx : AnyValue x) :
    (Thing.fromString C env fl (String.ofList ('{' :: ms ++ ",\"links\":[{".toList ++ ls ++ ',' :: ks ++ ':' :: x ++ "}]}".toList))
      : Option (Thing X)) =
    Thing.fromString C env fl (String.ofList ('{' :: ms ++ ",\"links\":[{".toList ++ ls ++ "}]}".toList)) := by
  have add : ∀ {ls}, StructText fl ["href", "type", "rel", "anchor", "sizes", "hreflang"] (.obj L) ('{' :: ls ++ ['}']) →
      ThingText fl (.obj (M ++ [("links", .arr [.obj L])]))
        (String.ofList ('{' :: ms ++ ",\"links\":[{".toList ++ ls ++ "}]}".toList)) := by
    intro ls hl
    have h := object_members hM hm
    have h' := membersBy_append h (.one (o := some (.arr [.obj L])) (u := []) (v := []) (w := []) (x := []) (by nofun)
      (ks := "\"links\"".toList) links_name (by nofun) (by nofun)
      ⟨_, rfl, .inr (.inl ⟨rfl, .arr (.one (v := []) (w := []) (by nofun) hl (by nofun))⟩)⟩ (by nofun))
    refine ⟨[], _, [], by nofun, .obj h', by nofun, ?_⟩
    simp [String.toList_ofList]
  have := add (struct_skips hL hl hk hs hx)
  refine C74_does_not_matter (j := .obj (M ++ [("links", .arr [.obj L])])) ?_ (add hl)
  simpa using this

/-- C74: the same of the version information. -/
theorem C74_version {M L : Members} {ms ls ks x : List Char} {k : String}
    (hm : ThingValueText fl (.obj M) ('{' :: ms ++ ['}'])) (hM : M ≠ [])
    (hl : StructText fl ["instance", "model"] (.obj L) ('{' :: ls ++ ['}'])) (hL : L ≠ [])
    (hk : k ∉ ["instance", "model"]) (hs : StringText k ks) (hx : AnyValue x) :
    (Thing.fromString C env fl (String.ofList ('{' :: ms ++ ",\"version\":{".toList ++ ls ++ ',' :: ks ++ ':' :: x ++ "}}".toList))
      : Option (Thing X)) =
    Thing.fromString C env fl (String.ofList ('{' :: ms ++ ",\"version\":{".toList ++ ls ++ "}}".toList)) := by
  have add : ∀ {ls}, StructText fl ["instance", "model"] (.obj L) ('{' :: ls ++ ['}']) →
      ThingText fl (.obj (M ++ [("version", .obj L)]))
        (String.ofList ('{' :: ms ++ ",\"version\":{".toList ++ ls ++ "}}".toList)) := by
    intro ls hl
    have h := object_members hM hm
    have h' := membersBy_append h (.one (o := some (.obj L)) (u := []) (v := []) (w := []) (x := []) (by nofun)
      (ks := "\"version\"".toList) version_name (by nofun) (by nofun) ⟨_, rfl, .inl ⟨rfl, hl⟩⟩ (by nofun))
    refine ⟨[], _, [], by nofun, .obj h', by nofun, ?_⟩
    simp [String.toList_ofList]
  have := add (struct_skips hL hl hk hs hx)
  refine C74_does_not_matter (j := .obj (M ++ [("version", .obj L)])) ?_ (add hl)
  simpa using this

/-- `n + 1` arrays in each other. -/
def nestedArrays : Nat → Json
  | 0 => .arr []
  | n + 1 => .arr [nestedArrays n]

theorem nested_text (n : Nat) :
    ValueText fl (nestedArrays n) (List.replicate (n + 1) '[' ++ List.replicate (n + 1) ']') := by
  induction n with
  | zero => exact .empty (w := []) (by nofun)
  | succ n ih =>
    have := ValueText.arr (.one (v := []) (w := []) (by nofun) ih (by nofun))
    rw [show List.replicate (n + 1 + 1) ']' = List.replicate (n + 1) ']' ++ [']'] from List.replicate_succ',
      show List.replicate (n + 1 + 1) '[' = '[' :: List.replicate (n + 1) '[' from rfl]
    simpa [nestedArrays] using this

theorem nested_nesting (n : Nat) : (nestedArrays n).nesting = n + 1 := by
  induction n with
  | zero => rfl
  | succ n ih => simp [nestedArrays, Json.nesting, Json.nestingList, ih]

/-- C74: in other members of a Thing nothing is skipped, whether the TD specification names them or not: with 127 arrays in
each other there, nothing is read. -/
theorem C74_elsewhere {M : Members} {ms ks : List Char} {k : String} {n : Nat}
    (hm : ThingValueText fl (.obj M) ('{' :: ms ++ ['}'])) (hM : M ≠ []) (hk : k ∉ ["version", "links"])
    (hs : StringText k ks) (hn : 127 ≤ n) :
    (Thing.fromString C env fl (String.ofList ('{' :: ms ++ ',' :: ks ++ ':' :: (List.replicate n '[' ++ List.replicate n ']') ++ ['}']))
      : Option (Thing X)) = none := by
  obtain ⟨n, rfl⟩ : ∃ l, n = l + 1 := ⟨n - 1, by omega⟩
  simp only [List.mem_cons, List.not_mem_nil, or_false, not_or] at hk
  have h' := membersBy_append (object_members hM hm) (.one (o := some (nestedArrays n)) (u := []) (v := []) (w := []) (x := [])
    (by nofun) hs (by nofun) (by nofun) ⟨_, rfl, .inr (.inr ⟨hk.1, hk.2, nested_text n⟩)⟩ (by nofun))
  have h : ThingText fl (.obj (M ++ [(k, nestedArrays n)]))
      (String.ofList ('{' :: ms ++ ',' :: ks ++ ':' :: (List.replicate (n + 1) '[' ++ List.replicate (n + 1) ']') ++ ['}'])) :=
    ⟨[], _, [], by nofun, .obj h', by nofun, by simp [String.toList_ofList]⟩
  rw [Option.eq_none_iff_forall_ne_some]
  intro t ht
  obtain ⟨j, hj, hl, -⟩ := C74_reads.1 ht
  cases C74_unambiguous h hj
  have := nesting_mem_obj (l := M ++ [(k, nestedArrays n)]) (kv := (k, nestedArrays n)) (by simp)
  rw [nested_nesting] at this
  omega

/-- C74: and all numbers that are not skipped are in range: integers of 64 bits, or finite floats. -/
theorem C74_numbers (hf : fl.Lawful) (h : ThingText fl j text) : j.NumbersInRange :=
  thing_inRange hf.finite h

/-! ### Examples -/

theorem thing_trim {ms : List Char} (h : ThingText fl j text) (ht : text.toList = '{' :: ms ++ ['}']) :
    ThingValueText fl j ('{' :: ms ++ ['}']) := by
  obtain ⟨v, cs, w, hv, h, hw, e⟩ := h
  rw [ht] at e
  have hv' : v = [] := by
    cases v with
    | nil => rfl
    | cons a v =>
      simp only [List.cons_append, List.cons.injEq] at e
      exact absurd (hv a (by simp)) (e.1 ▸ by decide)
  have hw' : w = [] := by
    rcases List.eq_nil_or_concat w with hn | ⟨w', a, rfl⟩
    · exact hn
    · have := congrArg List.getLast? e
      simp only [List.concat_eq_append, ← List.append_assoc, List.getLast?_append, List.getLast?_singleton, Option.some_or,
        Option.some.injEq] at this
      exact absurd (hw a (by simp)) (this ▸ by decide)
  subst hv' hw'
  rw [e]
  simpa using h

/-- The members of a Thing. -/
def Demo.plainText : String := "\"title\":\"Lamp\",\"security\":[],\"securityDefinitions\":{}"

/-- Their trees. -/
def Demo.plainTree : Members := [("title", .str "Lamp"), ("security", .arr []), ("securityDefinitions", .obj [])]

theorem Demo.plain_text : ThingValueText Demo.allFloats (.obj Demo.plainTree) ('{' :: Demo.plainText.toList ++ ['}']) := by
  have h : ThingText Demo.allFloats (.obj Demo.plainTree) ("{" ++ Demo.plainText ++ "}") :=
    thing_parse_iff.1 (by decide +kernel)
  exact thing_trim h (by simp)

theorem Demo.x_name : StringText "x" "\"x\"".toList := by
  have := stringText_text "x"
  rwa [show stringText "x" = "\"x\"".toList by decide] at this

theorem Demo.plain_link : StructText Demo.allFloats ["href", "type", "rel", "anchor", "sizes", "hreflang"]
    (.obj [("href", .str "/")]) ('{' :: "\"href\":\"/\"".toList ++ ['}']) := by
  have := MembersBy.one (P := fun k o cs => (k ∈ ["href", "type", "rel", "anchor", "sizes", "hreflang"] ∧ ∃ j, o = some j ∧
      ValueText Demo.allFloats j cs) ∨ (k ∉ ["href", "type", "rel", "anchor", "sizes", "hreflang"] ∧ o = none ∧ AnyValue cs))
    (o := some (.str "/")) (u := []) (v := []) (w := []) (x := []) (by nofun) (stringText_text "href") (by nofun)
    (by nofun) (.inl ⟨by decide, _, rfl, .str (stringText_text "/")⟩) (by nofun)
  refine .obj (?_ : MembersBy _ _ _)
  rw [show "\"href\":\"/\"".toList = [] ++ stringText "href" ++ [] ++ ':' :: [] ++ stringText "/" ++ [] by decide]
  exact this

theorem Demo.plain_version : StructText Demo.allFloats ["instance", "model"]
    (.obj [("instance", .str "1")]) ('{' :: "\"instance\":\"1\"".toList ++ ['}']) := by
  have := MembersBy.one (P := fun k o cs => (k ∈ ["instance", "model"] ∧ ∃ j, o = some j ∧
      ValueText Demo.allFloats j cs) ∨ (k ∉ ["instance", "model"] ∧ o = none ∧ AnyValue cs))
    (o := some (.str "1")) (u := []) (v := []) (w := []) (x := []) (by nofun) (stringText_text "instance") (by nofun)
    (by nofun) (.inl ⟨by decide, _, rfl, .str (stringText_text "1")⟩) (by nofun)
  refine .obj (?_ : MembersBy _ _ _)
  rw [show "\"instance\":\"1\"".toList = [] ++ stringText "instance" ++ [] ++ ':' :: [] ++ stringText "1" ++ [] by decide]
  exact this

/-- With arrays nested however deep in a link, a Thing is read. -/
example (n : Nat) : ∃ t, Thing.fromString (X := Demo.X) .nil Demo.senv Demo.allFloats
    (String.ofList ('{' :: Demo.plainText.toList ++ ",\"links\":[{".toList ++ "\"href\":\"/\"".toList ++ ',' :: "\"x\"".toList ++
      ':' :: (List.replicate (n + 1) '[' ++ List.replicate (n + 1) ']') ++ "}]}".toList)) = some t ∧ t.title = "Lamp" ∧
    (t.links.map fun l => l.map Link.href) = some ["/"] := by
  rw [C74_links (ms := Demo.plainText.toList) (ls := "\"href\":\"/\"".toList) (ks := "\"x\"".toList)
    (x := List.replicate (n + 1) '[' ++ List.replicate (n + 1) ']') Demo.plain_text nofun Demo.plain_link nofun (k := "x")
    (by decide) Demo.x_name (anyValue_of (nested_text (fl := Demo.allFloats) n))]
  let d : Json := .obj (Demo.plainTree ++ [("links", .arr [.obj [("href", .str "/")]])])
  have hp : Thing.parse Demo.allFloats (String.ofList ('{' :: Demo.plainText.toList ++ ",\"links\":[{".toList ++
    "\"href\":\"/\"".toList ++ "}]}".toList)) = some d := by decide +kernel
  rw [Thing.fromString, hp]
  exact ⟨_, rfl, rfl, rfl⟩

/-- The same with a number that is out of range. -/
example : Thing.parse FloatText.serdeJson "{\"links\":[{\"x\":1e999,\"href\":\"/\"}]}" =
      some (.obj [("links", .arr [.obj [("href", .str "/")]])]) ∧
    Thing.parse FloatText.serdeJson "{\"version\":{\"x\":1e999,\"instance\":\"1\"}}" =
      some (.obj [("version", .obj [("instance", .str "1")])]) := by
  decide +kernel

example : Thing.parse FloatText.serdeJson "{\"links\":[{\"rel\":1e999,\"href\":\"/\"}]}" = none := by decide +kernel

example : Thing.parse FloatText.serdeJson "{\"x\":1e999}" = none := by decide +kernel

/-- The same with half a surrogate pair. -/
example : Thing.parse FloatText.serdeJson "{\"links\":[{\"x\":\"\\ud800\",\"href\":\"/\"}]}" =
      some (.obj [("links", .arr [.obj [("href", .str "/")]])]) ∧
    Thing.parse FloatText.serdeJson "{\"version\":{\"x\":\"\\ud800\",\"instance\":\"1\"}}" =
      some (.obj [("version", .obj [("instance", .str "1")])]) := by
  decide +kernel

example : Thing.parse FloatText.serdeJson "{\"links\":[{\"rel\":\"\\ud800\",\"href\":\"/\"}]}" = none := by decide +kernel

example : Thing.parse FloatText.serdeJson "{\"x\":\"\\ud800\"}" = none := by decide +kernel

/-- In the version information, likewise. -/
example : Thing.fromString (X := Demo.X) .nil Demo.senv Demo.allFloats
    (String.ofList ('{' :: Demo.plainText.toList ++ ",\"version\":{".toList ++ "\"instance\":\"1\"".toList ++ ',' :: "\"x\"".toList ++
      ':' :: "1e999".toList ++ "}}".toList)) =
    Thing.fromString .nil Demo.senv Demo.allFloats
    (String.ofList ('{' :: Demo.plainText.toList ++ ",\"version\":{".toList ++ "\"instance\":\"1\"".toList ++ "}}".toList)) := by
  refine C74_version Demo.plain_text nofun Demo.plain_version nofun (k := "x") (by decide) Demo.x_name (.num ?_)
  exact ⟨[], ['1'], [], ['e', '9', '9', '9'], rfl, by simp, ⟨⟨by simp, by simp⟩, by simp⟩, .inl rfl,
    .inr ⟨'e', [], ['9', '9', '9'], rfl, by simp, by simp, by simp, by simp⟩⟩

/-- But not in the Thing itself. -/
example : Thing.fromString (X := Demo.X) .nil Demo.senv Demo.allFloats
    (String.ofList ('{' :: Demo.plainText.toList ++ ',' :: "\"x\"".toList ++
      ':' :: (List.replicate 127 '[' ++ List.replicate 127 ']') ++ ['}'])) = none :=
  C74_elsewhere Demo.plain_text nofun (k := "x") (by decide) Demo.x_name (Nat.le_refl _)

end Wot
