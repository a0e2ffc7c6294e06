import Verif.Lemmas.JsonValue
/-
Whatever is scanned from a text is related to it by the grammar, and so is what is written.
-/
namespace Wot

variable {fl : FloatText}

/-! ### Only texts of the grammar are read -/

theorem stripPrefix_sound {l cs r : List Char} (h : stripPrefix l cs = some r) : cs = l ++ r := by
  induction l generalizing cs with
  | nil => simpa [stripPrefix] using h
  | cons a l ih =>
    cases cs with
    | nil => cases h
    | cons c cs =>
      simp only [stripPrefix] at h
      split at h
      · next hc => rw [hc, ih h]; rfl
      · cases h

theorem scanNumber_text {minus : Bool} {cs rest : List Char} {x : JNum}
    (h : scanNumber fl minus cs = some (x, rest)) :
    ∃ t, NumberText fl x ((if minus then ['-'] else []) ++ t) ∧ cs = t ++ rest := by
  obtain ⟨ds, fr, ex, hi, hf, he, rfl, hx⟩ := scanNumber_sound h
  refine ⟨ds ++ fr ++ ex, ?_, rfl⟩
  have := numberOf_iff hi hf he hx
  simpa using this

theorem scan_sound (n : Nat) :
    (∀ cs j rest, scanValue fl n cs = some (j, rest) →
      ∃ w t, IsSpace w ∧ ValueText fl j t ∧ cs = w ++ t ++ rest) ∧
    (∀ cs l rest, scanElements fl n cs = some (l, rest) →
      ∃ t, ElementsText fl l t ∧ cs = t ++ ']' :: rest) ∧
    (∀ cs m rest, scanMembers fl n cs = some (m, rest) →
      ∃ t, MembersText fl m t ∧ cs = t ++ '}' :: rest) := by
  induction n with
  | zero =>
    refine ⟨?_, ?_, ?_⟩ <;> (intro _ _ _ h; cases h)
  | succ n ih =>
    obtain ⟨ihV, ihE, ihM⟩ := ih
    refine ⟨?_, ?_, ?_⟩
    · intro cs j rest h
      obtain ⟨w, hw, he, -⟩ := skipSpace_split cs
      simp only [scanValue] at h
      cases hs : skipSpace cs with
      | nil => rw [hs] at h; cases h
      | cons c r =>
        rw [hs] at h he
        simp only at h
        suffices hk : ∃ t, ValueText fl j t ∧ c :: r = t ++ rest by
          obtain ⟨t, ht, hr⟩ := hk
          exact ⟨w, t, hw, ht, by rw [he, hr, List.append_assoc]⟩
        clear hs he hw
        split at h
        · next hc =>
          obtain ⟨r', h1, h2⟩ := Option.map_eq_some_iff.1 h
          cases h2
          rw [hc, stripPrefix_sound h1]
          exact ⟨_, .null, rfl⟩
        split at h
        · next hc =>
          obtain ⟨r', h1, h2⟩ := Option.map_eq_some_iff.1 h
          cases h2
          rw [hc, stripPrefix_sound h1]
          exact ⟨_, .true, rfl⟩
        split at h
        · next hc =>
          obtain ⟨r', h1, h2⟩ := Option.map_eq_some_iff.1 h
          cases h2
          rw [hc, stripPrefix_sound h1]
          exact ⟨_, .false, rfl⟩
        split at h
        · next hc =>
          obtain ⟨⟨x, r'⟩, h1, h2⟩ := Option.map_eq_some_iff.1 h
          cases h2
          obtain ⟨t, ht, rfl⟩ := scanNumber_text h1
          exact ⟨'-' :: t, .num (by simpa using ht), by rw [hc]; rfl⟩
        split at h
        · next hc =>
          obtain ⟨⟨x, r'⟩, h1, h2⟩ := Option.map_eq_some_iff.1 h
          cases h2
          obtain ⟨t, ht, h3⟩ := scanNumber_text h1
          exact ⟨t, .num (by simpa using ht), h3⟩
        split at h
        · next hc =>
          obtain ⟨⟨x, r'⟩, h1, h2⟩ := Option.map_eq_some_iff.1 h
          cases h2
          obtain ⟨t, ht, rfl⟩ := scanString_sound h1
          refine ⟨'"' :: t ++ ['"'], .str ⟨t, by simpa using ht, rfl⟩, by rw [hc]; simp⟩
        split at h
        · next hc =>
          obtain ⟨w, hw, he, -⟩ := skipSpace_split r
          cases hs : skipSpace r with
          | nil => rw [hs] at h; cases h
          | cons d ds =>
            rw [hs] at h he
            simp only at h
            split at h
            · next hd =>
              cases h
              exact ⟨'[' :: w ++ [']'], .empty hw, by rw [hc, he, hd]; simp⟩
            · obtain ⟨⟨l, r'⟩, h1, h2⟩ := Option.map_eq_some_iff.1 h
              cases h2
              rw [← hs, scanElements_skip] at h1
              obtain ⟨t, ht, h3⟩ := ihE _ _ _ h1
              cases l with
              | nil => cases ht
              | cons j l => exact ⟨'[' :: t ++ [']'], .arr ht, by rw [hc, h3]; simp⟩
        split at h
        · next hc =>
          obtain ⟨w, hw, he, -⟩ := skipSpace_split r
          cases hs : skipSpace r with
          | nil => rw [hs] at h; cases h
          | cons d ds =>
            rw [hs] at h he
            simp only at h
            split at h
            · next hd =>
              cases h
              exact ⟨'{' :: w ++ ['}'], .emptyObj hw, by rw [hc, he, hd]; simp⟩
            · obtain ⟨⟨l, r'⟩, h1, h2⟩ := Option.map_eq_some_iff.1 h
              cases h2
              rw [← hs, scanMembers_skip] at h1
              obtain ⟨t, ht, h3⟩ := ihM _ _ _ h1
              cases l with
              | nil => cases ht
              | cons j l => exact ⟨'{' :: t ++ ['}'], .obj ht, by rw [hc, h3]; simp⟩
        · cases h
    · intro cs l rest h
      simp only [scanElements] at h
      obtain ⟨⟨j, r⟩, hj, h'⟩ := Option.bind_eq_some_iff.1 h
      clear h
      obtain ⟨v, t, hv, ht, rfl⟩ := ihV _ _ _ hj
      simp only at h'
      obtain ⟨w, hw, he, -⟩ := skipSpace_split r
      cases hs : skipSpace r with
      | nil => rw [hs] at h'; cases h'
      | cons c r' =>
        rw [hs] at h' he
        simp only at h'
        split at h'
        · next hc =>
          cases h'
          exact ⟨v ++ t ++ w, .one hv ht hw, by rw [he, hc]; simp⟩
        · split at h'
          · next hc =>
            obtain ⟨⟨l', r''⟩, h1, h2⟩ := Option.map_eq_some_iff.1 h'
            cases h2
            obtain ⟨t', ht', rfl⟩ := ihE _ _ _ h1
            exact ⟨v ++ t ++ w ++ ',' :: t', .cons hv ht hw ht', by rw [he, hc]; simp⟩
          · cases h'
    · intro cs m rest h
      simp only [scanMembers] at h
      obtain ⟨u, hu, he, -⟩ := skipSpace_split cs
      cases hs : skipSpace cs with
      | nil => rw [hs] at h; cases h
      | cons c r =>
        rw [hs] at h he
        simp only at h
        split at h
        · next hc =>
          obtain ⟨⟨k, r1⟩, hk, h'⟩ := Option.bind_eq_some_iff.1 h
          clear h
          obtain ⟨ks, hks, rfl⟩ := scanString_sound hk
          simp only at h'
          obtain ⟨v, hv, he1, -⟩ := skipSpace_split r1
          cases hs1 : skipSpace r1 with
          | nil => rw [hs1] at h'; cases h'
          | cons c1 r2 =>
            rw [hs1] at h' he1
            simp only at h'
            split at h'
            · next hc1 =>
              obtain ⟨⟨j, r3⟩, hj, h''⟩ := Option.bind_eq_some_iff.1 h'
              clear h'
              obtain ⟨w, t, hw, ht, rfl⟩ := ihV _ _ _ hj
              simp only at h''
              obtain ⟨x, hx, he2, -⟩ := skipSpace_split r3
              have hkt : StringText (String.ofList k) ('"' :: ks ++ ['"']) := ⟨ks, by simpa using hks, rfl⟩
              cases hs2 : skipSpace r3 with
              | nil => rw [hs2] at h''; cases h''
              | cons c2 r4 =>
                rw [hs2] at h'' he2
                simp only at h''
                split at h''
                · next hc2 =>
                  cases h''
                  refine ⟨_, .one hu hkt hv hw ht hx, ?_⟩
                  rw [he, hc, he1, hc1, he2, hc2]; simp
                · split at h''
                  · next hc2 =>
                    obtain ⟨⟨l', r''⟩, h1, h2⟩ := Option.map_eq_some_iff.1 h''
                    cases h2
                    obtain ⟨t', ht', rfl⟩ := ihM _ _ _ h1
                    refine ⟨_, .cons hu hkt hv hw ht hx ht', ?_⟩
                    rw [he, hc, he1, hc1, he2, hc2]; simp
                  · cases h''
            · cases h'
        · cases h

/-- The parser reads exactly the texts of the grammar. -/
theorem parse_iff {j : Json} {text : String} : Json.parse fl text = some j ↔ JsonText fl j text := by
  unfold Json.parse
  constructor
  · intro h
    split at h
    · next j' r hs =>
      split at h
      · next hr =>
        cases h
        obtain ⟨w, t, hw, ht, he⟩ := (scan_sound _).1 _ _ _ hs
        exact ⟨w, t, r, hw, ht, skipSpace_nil_iff.1 hr, he⟩
      · cases h
    · cases h
  · rintro ⟨v, cs, w, hv, hj, hw, he⟩
    have : scanValue fl (text.toList.length + 1) text.toList = some (j, w) := by
      rw [he, List.append_assoc, scanValue_space hv]
      exact scanValue_append hj (by simp; omega) (stop_space_nil hw)
    rw [this]
    simp only
    rw [if_pos (skipSpace_nil_iff.2 hw)]

/-! ### What is written follows the grammar -/

theorem number_text {n : JNum} (h : n.Kept fl) : NumberText fl n (n.text fl) := by
  cases n with
  | pos n => exact .pos (decimal_integer n).1 (decimal_integer n).2 h
  | neg n => exact .neg (decimal_integer _).1 (decimal_integer _).2 h
  | float f =>
    obtain ⟨sign, ds, fr, ex, he, hs, hi, hf, hex, hne, hr⟩ := h
    simp only [JNum.text]
    rw [he] at hr ⊢
    exact .float hs hi hf hex hne hr

theorem space_nil : IsSpace [] := nofun

theorem space_newLine (d : Nat) : IsSpace (newLine d) := by
  intro c hc
  rcases List.mem_cons.1 hc with rfl | hc
  · simp
  · rw [List.eq_of_mem_replicate hc]; simp

theorem space_one : IsSpace [' '] := by
  intro c hc
  rw [List.mem_singleton.1 hc]; simp

theorem compact_text (j : Json) : j.NumbersKept fl → ValueText fl j (j.compact fl) := by
  induction j using Json.ind with
  | hnull => exact fun _ => .null
  | hbool b => cases b <;> exact fun _ => by constructor
  | hnum n => exact fun h => .num (number_text (h n .here))
  | hstr s => exact fun _ => .str (stringText_text s)
  | harr l ih =>
    intro h
    cases l with
    | nil => exact .empty (w := []) space_nil
    | cons j l =>
      have hk : ∀ x ∈ j :: l, ValueText fl x (x.compact fl) :=
        fun x hx => ih x hx fun n hn => h n (.element hx hn)
      suffices hs : ∀ j l, (∀ x ∈ j :: l, ValueText fl x (x.compact fl)) →
          ∃ cs, ElementsText fl (j :: l) cs ∧ j.compact fl ++ Json.compactList fl l = cs ++ [']'] by
        obtain ⟨cs, h1, h2⟩ := hs j l hk
        rw [Json.compact, List.cons_append, h2]
        exact .arr h1
      intro j l
      induction l generalizing j with
      | nil =>
        intro hk
        exact ⟨[] ++ j.compact fl ++ [], .one space_nil (hk j (by simp)) space_nil, by simp [Json.compactList]⟩
      | cons j' l ihl =>
        intro hk
        obtain ⟨cs, h1, h2⟩ := ihl j' fun x hx => hk x (List.mem_cons_of_mem _ hx)
        refine ⟨[] ++ j.compact fl ++ [] ++ ',' :: cs, .cons space_nil (hk j (by simp)) space_nil h1, ?_⟩
        rw [Json.compactList, List.cons_append, h2]
        simp
  | hobj m ih =>
    intro h
    cases m with
    | nil => exact .emptyObj (w := []) space_nil
    | cons kv m =>
      have hk : ∀ x ∈ kv :: m, ValueText fl x.2 (x.2.compact fl) :=
        fun x hx => ih x hx fun n hn => h n (.member (k := x.1) hx hn)
      suffices hs : ∀ kv m, (∀ x ∈ kv :: m, ValueText fl x.2 (x.2.compact fl)) →
          ∃ cs, MembersText fl (kv :: m) cs ∧
            stringText kv.1 ++ ':' :: (kv.2.compact fl ++ Json.compactMembers fl m) = cs ++ ['}'] by
        obtain ⟨cs, h1, h2⟩ := hs kv m hk
        obtain ⟨k, j⟩ := kv
        have : Json.compact fl (.obj ((k, j) :: m)) = '{' :: cs ++ ['}'] := by
          rw [Json.compact, show '{' :: cs ++ ['}'] = '{' :: (cs ++ ['}']) from rfl, ← h2]
          simp
        rw [this]
        exact .obj h1
      intro kv m
      induction m generalizing kv with
      | nil =>
        intro hk
        obtain ⟨k, j⟩ := kv
        exact ⟨[] ++ stringText k ++ [] ++ ':' :: [] ++ j.compact fl ++ [],
          .one space_nil (stringText_text k) space_nil space_nil (hk (k, j) (by simp)) space_nil,
          by simp [Json.compactMembers]⟩
      | cons kv' m ihl =>
        intro hk
        obtain ⟨cs, h1, h2⟩ := ihl kv' fun x hx => hk x (List.mem_cons_of_mem _ hx)
        obtain ⟨k, j⟩ := kv
        obtain ⟨k', j'⟩ := kv'
        refine ⟨[] ++ stringText k ++ [] ++ ':' :: [] ++ j.compact fl ++ [] ++ ',' :: cs,
          .cons space_nil (stringText_text k) space_nil space_nil (hk (k, j) (by simp)) space_nil h1, ?_⟩
        have : Json.compactMembers fl ((k', j') :: m) = ',' :: (cs ++ ['}']) := by
          rw [Json.compactMembers, ← h2]; simp
        rw [this]
        simp

theorem pretty_text (j : Json) : ∀ d, j.NumbersKept fl → ValueText fl j (j.pretty fl d) := by
  induction j using Json.ind with
  | hnull => exact fun _ _ => .null
  | hbool b => cases b <;> exact fun _ _ => by constructor
  | hnum n => exact fun _ h => .num (number_text (h n .here))
  | hstr s => exact fun _ _ => .str (stringText_text s)
  | harr l ih =>
    intro d h
    cases l with
    | nil => exact .empty (w := []) space_nil
    | cons j l =>
      have hk : ∀ x ∈ j :: l, ValueText fl x (x.pretty fl (d + 1)) :=
        fun x hx => ih x hx _ fun n hn => h n (.element hx hn)
      suffices hs : ∀ j l, (∀ x ∈ j :: l, ValueText fl x (x.pretty fl (d + 1))) →
          ∃ cs, ElementsText fl (j :: l) cs ∧
            newLine (d + 1) ++ j.pretty fl (d + 1) ++ Json.prettyList fl d l = cs ++ [']'] by
        obtain ⟨cs, h1, h2⟩ := hs j l hk
        have : Json.pretty fl d (.arr (j :: l)) = '[' :: cs ++ [']'] := by
          rw [Json.pretty, show '[' :: cs ++ [']'] = '[' :: (cs ++ [']']) from rfl, ← h2]; simp
        rw [this]
        exact .arr h1
      intro j l
      induction l generalizing j with
      | nil =>
        intro hk
        exact ⟨newLine (d + 1) ++ j.pretty fl (d + 1) ++ newLine d,
          .one (space_newLine _) (hk j (by simp)) (space_newLine _), by simp [Json.prettyList]⟩
      | cons j' l ihl =>
        intro hk
        obtain ⟨cs, h1, h2⟩ := ihl j' fun x hx => hk x (List.mem_cons_of_mem _ hx)
        refine ⟨newLine (d + 1) ++ j.pretty fl (d + 1) ++ [] ++ ',' :: cs,
          .cons (space_newLine _) (hk j (by simp)) space_nil h1, ?_⟩
        have : Json.prettyList fl d (j' :: l) = ',' :: (cs ++ [']']) := by
          rw [Json.prettyList, ← h2]; simp
        rw [this]
        simp
  | hobj m ih =>
    intro d h
    cases m with
    | nil => exact .emptyObj (w := []) space_nil
    | cons kv m =>
      have hk : ∀ x ∈ kv :: m, ValueText fl x.2 (x.2.pretty fl (d + 1)) :=
        fun x hx => ih x hx _ fun n hn => h n (.member (k := x.1) hx hn)
      suffices hs : ∀ kv m, (∀ x ∈ kv :: m, ValueText fl x.2 (x.2.pretty fl (d + 1))) →
          ∃ cs, MembersText fl (kv :: m) cs ∧
            newLine (d + 1) ++ stringText kv.1 ++ ':' :: ' ' :: (kv.2.pretty fl (d + 1) ++ Json.prettyMembers fl d m) =
              cs ++ ['}'] by
        obtain ⟨cs, h1, h2⟩ := hs kv m hk
        obtain ⟨k, j⟩ := kv
        have : Json.pretty fl d (.obj ((k, j) :: m)) = '{' :: cs ++ ['}'] := by
          rw [Json.pretty, show '{' :: cs ++ ['}'] = '{' :: (cs ++ ['}']) from rfl, ← h2]
          simp
        rw [this]
        exact .obj h1
      intro kv m
      induction m generalizing kv with
      | nil =>
        intro hk
        obtain ⟨k, j⟩ := kv
        exact ⟨newLine (d + 1) ++ stringText k ++ [] ++ ':' :: [' '] ++ j.pretty fl (d + 1) ++ newLine d,
          .one (space_newLine _) (stringText_text k) space_nil space_one (hk (k, j) (by simp)) (space_newLine _),
          by simp [Json.prettyMembers]⟩
      | cons kv' m ihl =>
        intro hk
        obtain ⟨cs, h1, h2⟩ := ihl kv' fun x hx => hk x (List.mem_cons_of_mem _ hx)
        obtain ⟨k, j⟩ := kv
        obtain ⟨k', j'⟩ := kv'
        refine ⟨newLine (d + 1) ++ stringText k ++ [] ++ ':' :: [' '] ++ j.pretty fl (d + 1) ++ [] ++ ',' :: cs,
          .cons (space_newLine _) (stringText_text k) space_nil space_one (hk (k, j) (by simp)) space_nil h1, ?_⟩
        have : Json.prettyMembers fl d ((k', j') :: m) = ',' :: (cs ++ ['}']) := by
          rw [Json.prettyMembers, ← h2]; simp
        rw [this]
        simp

/-! ### White space around a text -/

theorem digits_last {ds : List Char} (h : IsDigits ds) : ∃ r c, ds = r ++ [c] ∧ NotSpace c := by
  rcases List.eq_nil_or_concat ds with rfl | ⟨r, c, rfl⟩
  · exact absurd rfl h.1
  · rw [List.concat_eq_append] at h ⊢
    refine ⟨r, c, rfl, ?_⟩
    have := h.2 c (by simp)
    simp only [List.mem_cons, List.not_mem_nil, or_false] at this
    rcases this with rfl | rfl | rfl | rfl | rfl | rfl | rfl | rfl | rfl | rfl <;> decide

theorem last_append {a b : List Char} (h : ∃ r c, b = r ++ [c] ∧ NotSpace c) : ∃ r c, a ++ b = r ++ [c] ∧ NotSpace c := by
  obtain ⟨r, c, rfl, hc⟩ := h
  exact ⟨a ++ r, c, by simp, hc⟩

/-- No value ends with white space. -/
theorem valueText_last {j : Json} {cs : List Char} (h : ValueText fl j cs) : ∃ r c, cs = r ++ [c] ∧ NotSpace c := by
  cases h with
  | null => exact ⟨['n', 'u', 'l'], 'l', rfl, by decide⟩
  | true => exact ⟨['t', 'r', 'u'], 'e', rfl, by decide⟩
  | false => exact ⟨['f', 'a', 'l', 's'], 'e', rfl, by decide⟩
  | num h =>
    cases h with
    | pos h _ _ => exact digits_last h.1
    | neg h _ _ => exact last_append (a := ['-']) (digits_last h.1)
    | big h _ _ => exact digits_last h.1
    | low h _ _ => exact last_append (a := ['-']) (digits_last h.1)
    | float _ h hf he _ =>
      rcases he with rfl | ⟨e, s, ds, rfl, -, -, hd⟩
      · rw [List.append_nil]
        rcases hf with rfl | ⟨ds, rfl, hd⟩
        · rw [List.append_nil]; exact last_append (digits_last h.1)
        · exact last_append (last_append (a := ['.']) (digits_last hd))
      · exact last_append (last_append (a := e :: s) (digits_last hd))
  | str h =>
    obtain ⟨cs, _, rfl⟩ := h
    exact ⟨_, '"', rfl, by decide⟩
  | empty _ => exact ⟨_, ']', rfl, by decide⟩
  | arr _ => exact ⟨_, ']', rfl, by decide⟩
  | emptyObj _ => exact ⟨_, '}', rfl, by decide⟩
  | obj _ => exact ⟨_, '}', rfl, by decide⟩

theorem strip_left {v t a r : List Char} {x : Char} (hv : IsSpace v) (ha : IsSpace a) (hx : NotSpace x)
    (h : v ++ t = a ++ x :: r) : ∃ b, IsSpace b ∧ t = b ++ x :: r := by
  induction v generalizing a with
  | nil => exact ⟨a, ha, h⟩
  | cons y v ih =>
    cases a with
    | nil =>
      obtain ⟨rfl, -⟩ := List.cons.inj h
      have := hv y (by simp)
      simp only [List.mem_cons, List.not_mem_nil, or_false] at this
      rcases this with rfl | rfl | rfl | rfl <;> exact absurd hx (by decide)
    | cons z a =>
      exact ih (fun c hc => hv c (by simp [hc])) (fun c hc => ha c (by simp [hc])) (List.cons.inj h).2

theorem space_reverse {v : List Char} (h : IsSpace v) : IsSpace v.reverse := fun c hc => h c (by simpa using hc)

theorem jsonText_strip {v w text : String} {j : Json} (hv : IsSpace v.toList) (hw : IsSpace w.toList)
    (h : JsonText fl j (v ++ text ++ w)) : JsonText fl j text := by
  obtain ⟨a, cs, b, ha, hc, hb, e⟩ := h
  obtain ⟨x, r, rfl, hx⟩ := valueText_head hc
  rw [String.toList_append, String.toList_append] at e
  obtain ⟨a', ha', e'⟩ := strip_left (t := text.toList ++ w.toList) (r := r ++ b) hv ha hx.1 (by simpa using e)
  obtain ⟨s, y, hs, hy⟩ := valueText_last hc
  have e2 : w.toList.reverse ++ text.toList.reverse = b.reverse ++ y :: (s.reverse ++ a'.reverse) := by
    have : text.toList ++ w.toList = a' ++ (x :: r) ++ b := by simpa using e'
    rw [hs] at this
    simpa using congrArg List.reverse this
  obtain ⟨b', hb', e3⟩ := strip_left (space_reverse hw) (space_reverse hb) hy e2
  refine ⟨a', x :: r, b'.reverse, ha', hc, space_reverse hb', ?_⟩
  have := congrArg List.reverse e3
  rw [hs]
  simpa using this

end Wot
