import Verif.Lemmas.JsonText
import Verif.Spec.Skipped
/-
The loop that skips values skips exactly the values of RFC 8259.
-/
namespace Wot

variable {fl : FloatText}

/-! ### Numbers and strings -/

theorem skipNumber_append {ds fr ex rest : List Char} (hi : IsInteger ds) (hf : IsFraction fr) (he : IsExponent ex)
    (hr : Stop rest) : skipNumber (ds ++ fr ++ ex ++ rest) = some rest := by
  obtain ⟨h1, h2⟩ := exponent_head he hr
  obtain ⟨hne, hd⟩ := isDigits_iff.1 hi.1
  have hs : scanDigits (ds ++ fr ++ ex ++ rest) = (ds, fr ++ (ex ++ rest)) := by
    rw [List.append_assoc, List.append_assoc]
    exact scanDigits_append hd (fraction_head hf h1)
  unfold skipNumber
  rw [hs]
  split
  · next h => cases h; exact absurd rfl hne
  · next h =>
    cases h
    have := hi.2 rfl
    cases this
  · next h =>
    cases h
    rw [scanFraction_append hf h1 h2]
    simp only [Option.bind_some, scanExponent_append he hr]
    rfl

theorem skipNumber_sound {cs rest : List Char} (h : skipNumber cs = some rest) :
    ∃ ds fr ex, IsInteger ds ∧ IsFraction fr ∧ IsExponent ex ∧ cs = ds ++ fr ++ ex ++ rest := by
  unfold skipNumber at h
  obtain ⟨h1, h2, _⟩ := scanDigits_split cs
  split at h
  · cases h
  · cases h
  · next ds r hne hz hd =>
    rw [hd] at h1 h2
    obtain ⟨⟨fr, r1⟩, hf, h⟩ := Option.bind_eq_some_iff.1 h
    obtain ⟨⟨ex, r2⟩, he, h⟩ := Option.map_eq_some_iff.1 h
    cases h
    obtain ⟨hf', rfl⟩ := scanFraction_sound hf
    obtain ⟨he', rfl⟩ := scanExponent_sound he
    refine ⟨ds, fr, ex, ⟨isDigits_iff.2 ⟨?_, h2⟩, ?_⟩, hf', he', ?_⟩
    · exact fun h0 => hne h0
    · intro hh
      cases ds with
      | nil => cases hh
      | cons d ds =>
        cases hh
        cases ds with
        | nil => rfl
        | cons e ds => exact (hz e ds rfl).elim
    · simpa using h1

theorem anyChar_length {cs : List Char} (h : AnyChar cs) : 1 ≤ cs.length := by
  cases h <;> simp

theorem skipString_char {n : Nat} {cs rest : List Char} (h : AnyChar cs) :
    skipString (n + 1) (cs ++ rest) = skipString n rest := by
  cases h with
  | plain h1 h2 h3 =>
    simp only [List.cons_append, List.nil_append, skipString, if_neg h2, if_neg h3, if_neg (Nat.not_lt.2 h1)]
  | short h =>
    simp only [List.cons_append, List.nil_append, skipString]
    rw [if_neg (by decide), if_pos trivial]
    simp only [List.mem_cons, List.not_mem_nil, or_false] at h
    simp only [skipEscape, if_pos h, Option.bind_some]
  | number h =>
    simp only [List.cons_append, skipString]
    rw [if_neg (by decide), if_pos trivial]
    simp only [skipEscape]
    rw [if_neg (by decide), if_pos trivial, scanHex_append h]
    rfl

theorem skipString_append {cs : List Char} (h : AnyChars cs) :
    ∀ {n : Nat} {rest : List Char}, cs.length < n → skipString n (cs ++ '"' :: rest) = some rest := by
  induction h with
  | nil =>
    intro n rest hn
    obtain ⟨n, rfl⟩ : ∃ k, n = k + 1 := ⟨n - 1, by simp at hn; omega⟩
    simp [skipString]
  | cons hc _ ih =>
    intro n rest hn
    have := anyChar_length hc
    rw [List.length_append] at hn
    obtain ⟨n, rfl⟩ : ∃ k, n = k + 1 := ⟨n - 1, by omega⟩
    rw [List.append_assoc, skipString_char hc, ih (by omega)]

theorem skipEscape_sound {cs rest : List Char} (h : skipEscape cs = some rest) :
    ∃ t, AnyChar ('\\' :: t) ∧ cs = t ++ rest := by
  cases cs with
  | nil => cases h
  | cons e cs =>
    simp only [skipEscape] at h
    split at h
    · next he =>
      cases h
      exact ⟨[e], .short (by simpa using he), rfl⟩
    split at h
    · next he =>
      subst he
      obtain ⟨⟨n, r⟩, hn, h⟩ := Option.map_eq_some_iff.1 h
      cases h
      obtain ⟨hex, hhex, rfl, -⟩ := scanHex_sound hn
      exact ⟨'u' :: hex, .number hhex, rfl⟩
    · cases h

theorem skipString_sound {n : Nat} : ∀ {cs rest : List Char}, skipString n cs = some rest →
    ∃ t, AnyChars t ∧ cs = t ++ '"' :: rest := by
  induction n with
  | zero => intro cs rest h; cases h
  | succ n ih =>
    intro cs rest h
    cases cs with
    | nil => cases h
    | cons c cs =>
      simp only [skipString] at h
      split at h
      · next hc => cases h; subst hc; exact ⟨[], .nil, rfl⟩
      · next hq =>
        split at h
        · next hc =>
          subst hc
          obtain ⟨r, hx, h'⟩ := Option.bind_eq_some_iff.1 h
          clear h
          obtain ⟨t1, h1, rfl⟩ := skipEscape_sound hx
          obtain ⟨t2, h2, rfl⟩ := ih h'
          exact ⟨'\\' :: t1 ++ t2, .cons h1 h2, by simp⟩
        · next hb =>
          split at h
          · cases h
          · next hlt =>
            obtain ⟨t2, h2, rfl⟩ := ih h
            exact ⟨[c] ++ t2, .cons (.plain (Nat.not_lt.1 hlt) hq hb) h2, rfl⟩

/-! ### Only values are skipped -/

/-- What stands in an array or an object that is not empty. -/
def AnyItems (frame : Char) (cs : List Char) : Prop := if frame = '[' then AnyElements cs else AnyMembers cs

/-- What may follow a value in an array or an object, before it is closed. -/
def AnyTail (frame : Char) (cs : List Char) : Prop :=
  IsSpace cs ∨ ∃ w ds, IsSpace w ∧ AnyItems frame ds ∧ cs = w ++ ',' :: ds

/-- After a value inside these arrays and objects: what follows until all are closed. -/
def Unwind : List Char → List Char → List Char → Prop
  | [], cs, rest => cs = rest
  | frame :: stack, cs, rest =>
    ∃ t r, AnyTail frame t ∧ cs = t ++ closing frame :: r ∧ Unwind stack r rest

theorem anyItems_cons {frame : Char} {n v t w : List Char} (hn : n = [] ∧ frame = '[' ∨
    frame ≠ '[' ∧ ∃ u ks x, IsSpace u ∧ AnyString ks ∧ IsSpace x ∧ n = u ++ ks ++ x ++ [':']) (hv : IsSpace v)
    (ht : AnyValue t) (hw : AnyTail frame w) : AnyItems frame (n ++ v ++ t ++ w) := by
  rcases hn with ⟨rfl, rfl⟩ | ⟨hf, u, ks, x, hu, hk, hx, rfl⟩
  · rcases hw with hw | ⟨w, ds, hw, hd, rfl⟩
    · exact .one hv ht hw
    · have := AnyElements.cons hv ht hw hd
      show AnyElements _
      simpa using this
  · unfold AnyItems
    rw [if_neg hf]
    rcases hw with hw | ⟨w, ds, hw, hd, rfl⟩
    · have := AnyMembers.one hu hk hx hv ht hw
      simpa using this
    · unfold AnyItems at hd
      rw [if_neg hf] at hd
      have := AnyMembers.cons hu hk hx hv ht hw hd
      simpa using this

theorem isSpace_append {v w : List Char} (hv : IsSpace v) (hw : IsSpace w) : IsSpace (v ++ w) := fun c hc =>
  (List.mem_append.1 hc).elim (hv c) (hw c)

theorem anyItems_space {frame : Char} {w t : List Char} (hw : IsSpace w) (h : AnyItems frame t) :
    AnyItems frame (w ++ t) := by
  unfold AnyItems at *
  split at h
  · next hf =>
    rw [if_pos hf]
    cases h with
    | one h1 h2 h3 => simpa using AnyElements.one (isSpace_append hw h1) h2 h3
    | cons h1 h2 h3 h4 => simpa using AnyElements.cons (isSpace_append hw h1) h2 h3 h4
  · next hf =>
    rw [if_neg hf]
    cases h with
    | one h1 h2 h3 h4 h5 h6 => simpa using AnyMembers.one (isSpace_append hw h1) h2 h3 h4 h5 h6
    | cons h1 h2 h3 h4 h5 h6 h7 => simpa using AnyMembers.cons (isSpace_append hw h1) h2 h3 h4 h5 h6 h7

theorem skipName_sound {frame : Char} {cs r : List Char} (h : skipName frame cs = some r) :
    ∃ n, (n = [] ∧ frame = '[' ∨
      frame ≠ '[' ∧ ∃ u ks x, IsSpace u ∧ AnyString ks ∧ IsSpace x ∧ n = u ++ ks ++ x ++ [':']) ∧ cs = n ++ r := by
  unfold skipName at h
  split at h
  · next hf => cases h; exact ⟨[], .inl ⟨rfl, hf⟩, rfl⟩
  · next hf =>
    obtain ⟨u, hu, he, -⟩ := skipSpace_split cs
    cases hs : skipSpace cs with
    | nil => rw [hs] at h; cases h
    | cons c r1 =>
      rw [hs] at h he
      simp only at h
      split at h
      · next hc =>
        obtain ⟨r2, h1, h2⟩ := Option.bind_eq_some_iff.1 h
        obtain ⟨t, ht, rfl⟩ := skipString_sound h1
        obtain ⟨x, hx, he2, -⟩ := skipSpace_split r2
        cases hs2 : skipSpace r2 with
        | nil => rw [hs2] at h2; cases h2
        | cons c2 r3 =>
          rw [hs2] at h2 he2
          simp only at h2
          split at h2
          · next hc2 =>
            cases h2
            refine ⟨_, .inr ⟨hf, u, '"' :: t ++ ['"'], x, hu, ⟨t, ht, rfl⟩, hx, rfl⟩, ?_⟩
            rw [he, hc, he2, hc2]; simp
          · cases h2
      · cases h

theorem skip_sound (n : Nat) :
    (∀ stack cs rest, skipValue n stack cs = some rest →
      ∃ w t r, IsSpace w ∧ AnyValue t ∧ cs = w ++ t ++ r ∧ Unwind stack r rest) ∧
    (∀ stack cs rest, skipAfter n true stack cs = some rest → Unwind stack cs rest) ∧
    (∀ frame stack cs rest, skipAfter n false (frame :: stack) cs = some rest →
      ∃ t r, (IsSpace t ∨ AnyItems frame t) ∧ cs = t ++ closing frame :: r ∧ Unwind stack r rest) := by
  induction n with
  | zero =>
    refine ⟨?_, ?_, ?_⟩
    · intro _ _ _ h; cases h
    · intro _ _ _ h; cases h
    · intro _ _ _ _ h; cases h
  | succ n ih =>
    obtain ⟨ihV, ihA, ihO⟩ := ih
    have next : ∀ {frame stack cs rest}, (skipName frame cs).bind (skipValue n (frame :: stack)) = some rest →
        ∃ t r, AnyItems frame t ∧ cs = t ++ closing frame :: r ∧ Unwind stack r rest := by
      intro frame stack cs rest h
      obtain ⟨r, h1, h2⟩ := Option.bind_eq_some_iff.1 h
      obtain ⟨k, hk, rfl⟩ := skipName_sound h1
      obtain ⟨v, t, r', hv, ht, rfl, t', r'', ht', rfl, hu⟩ := ihV _ _ _ h2
      exact ⟨_, r'', anyItems_cons hk hv ht ht', by simp, hu⟩
    refine ⟨?_, ?_, ?_⟩
    · intro stack cs rest h
      obtain ⟨w, hw, he, -⟩ := skipSpace_split cs
      simp only [skipValue] at h
      cases hs : skipSpace cs with
      | nil => rw [hs] at h; cases h
      | cons c r =>
        rw [hs] at h he
        simp only at h
        suffices hk : ∃ t r', AnyValue t ∧ c :: r = t ++ r' ∧ Unwind stack r' rest by
          obtain ⟨t, r', ht, hr, hu⟩ := hk
          exact ⟨w, t, r', hw, ht, by rw [he, hr, List.append_assoc], hu⟩
        clear hs he hw
        split at h
        · next hc =>
          obtain ⟨r', h1, h2⟩ := Option.bind_eq_some_iff.1 h
          rw [hc, stripPrefix_sound h1]
          exact ⟨_, _, .null, rfl, ihA _ _ _ h2⟩
        split at h
        · next hc =>
          obtain ⟨r', h1, h2⟩ := Option.bind_eq_some_iff.1 h
          rw [hc, stripPrefix_sound h1]
          exact ⟨_, _, .true, rfl, ihA _ _ _ h2⟩
        split at h
        · next hc =>
          obtain ⟨r', h1, h2⟩ := Option.bind_eq_some_iff.1 h
          rw [hc, stripPrefix_sound h1]
          exact ⟨_, _, .false, rfl, ihA _ _ _ h2⟩
        split at h
        · next hc =>
          obtain ⟨r', h1, h2⟩ := Option.bind_eq_some_iff.1 h
          obtain ⟨ds, fr, ex, hi, hf, hx, rfl⟩ := skipNumber_sound h1
          exact ⟨['-'] ++ ds ++ fr ++ ex, r', .num ⟨_, _, _, _, rfl, by simp, hi, hf, hx⟩, by rw [hc]; simp, ihA _ _ _ h2⟩
        split at h
        · next hc =>
          obtain ⟨r', h1, h2⟩ := Option.bind_eq_some_iff.1 h
          obtain ⟨ds, fr, ex, hi, hf, hx, h3⟩ := skipNumber_sound h1
          exact ⟨[] ++ ds ++ fr ++ ex, r', .num ⟨_, _, _, _, rfl, by simp, hi, hf, hx⟩, by rw [h3]; simp, ihA _ _ _ h2⟩
        split at h
        · next hc =>
          obtain ⟨r', h1, h2⟩ := Option.bind_eq_some_iff.1 h
          obtain ⟨t, ht, rfl⟩ := skipString_sound h1
          exact ⟨'"' :: t ++ ['"'], r', .str ⟨t, ht, rfl⟩, by rw [hc]; simp, ihA _ _ _ h2⟩
        split at h
        · next hc =>
          obtain ⟨t, r', ht, rfl, hu⟩ := ihO _ _ _ _ h
          refine ⟨c :: t ++ [closing c], r', ?_, by simp, hu⟩
          rcases hc with rfl | rfl
          · rcases ht with ht | ht
            · exact .empty ht
            · exact .arr ht
          · rcases ht with ht | ht
            · exact .emptyObj ht
            · exact .obj ht
        · cases h
    · intro stack cs rest h
      cases stack with
      | nil => simp only [skipAfter] at h; cases h; rfl
      | cons frame stack =>
        simp only [skipAfter] at h
        obtain ⟨w, hw, he, -⟩ := skipSpace_split cs
        cases hs : skipSpace cs with
        | nil => rw [hs] at h; cases h
        | cons c r =>
          rw [hs] at h he
          simp only [and_true] at h
          split at h
          · next hc =>
            obtain ⟨t, r', ht, rfl, hu⟩ := next h
            exact ⟨w ++ ',' :: t, r', .inr ⟨w, t, hw, ht, rfl⟩, by rw [he, hc]; simp, hu⟩
          split at h
          · next hc => exact ⟨w, r, .inl hw, by rw [he, hc], ihA _ _ _ h⟩
          · simp at h
    · intro frame stack cs rest h
      simp only [skipAfter] at h
      obtain ⟨w, hw, he, -⟩ := skipSpace_split cs
      cases hs : skipSpace cs with
      | nil => rw [hs] at h; cases h
      | cons c r =>
        rw [hs] at h he
        simp only [Bool.false_eq_true, and_false, if_false] at h
        split at h
        · next hc => exact ⟨w, r, .inl hw, by rw [he, hc], ihA _ _ _ h⟩
        · obtain ⟨t, r', ht, ht', hu⟩ := next h
          exact ⟨w ++ t, r', .inr (anyItems_space hw ht), by rw [he, ht']; simp, hu⟩

/-! ### Every value is skipped -/

theorem skipValue_space {w : List Char} (h : IsSpace w) (n : Nat) (stack cs : List Char) :
    skipValue n stack (w ++ cs) = skipValue n stack cs := by
  cases n with
  | zero => rfl
  | succ n => simp only [skipValue, skipSpace_space h]

theorem anyValue_head {cs : List Char} (h : AnyValue cs) : ∃ c r, cs = c :: r ∧ NotSpace c ∧ c ≠ ']' ∧ c ≠ '}' := by
  cases h with
  | null => exact ⟨_, _, rfl, by decide, by decide, by decide⟩
  | true => exact ⟨_, _, rfl, by decide, by decide, by decide⟩
  | false => exact ⟨_, _, rfl, by decide, by decide, by decide⟩
  | num h =>
    obtain ⟨sign, ds, fr, ex, rfl, hs, hi, _⟩ := h
    simp only [List.mem_cons, List.not_mem_nil, or_false] at hs
    rcases hs with rfl | rfl
    · obtain ⟨d, r, rfl, hd⟩ := integer_head hi
      obtain ⟨h1, h2, h3, _⟩ := notSpace_digit hd
      exact ⟨_, _, rfl, h1, h2, h3⟩
    · exact ⟨_, _, rfl, by decide, by decide, by decide⟩
  | str h =>
    obtain ⟨cs, _, rfl⟩ := h
    exact ⟨_, _, rfl, by decide, by decide, by decide⟩
  | empty _ => exact ⟨_, _, rfl, by decide, by decide, by decide⟩
  | arr _ => exact ⟨_, _, rfl, by decide, by decide, by decide⟩
  | emptyObj _ => exact ⟨_, _, rfl, by decide, by decide, by decide⟩
  | obj _ => exact ⟨_, _, rfl, by decide, by decide, by decide⟩

theorem skipName_append {u ks x rest : List Char} (hu : IsSpace u) (hk : AnyString ks) (hx : IsSpace x) :
    skipName '{' (u ++ ks ++ x ++ ':' :: rest) = some rest := by
  obtain ⟨t, ht, rfl⟩ := hk
  unfold skipName
  rw [if_neg (by decide)]
  simp only [List.append_assoc, List.cons_append, List.nil_append]
  rw [skip_to hu (by decide)]
  simp only
  rw [if_pos trivial, skipString_append ht (by simp; omega)]
  simp only [Option.bind_some]
  rw [skip_to hx (by decide)]
  rfl

theorem skipAfter_close {frame : Char} {w stack rest : List Char} (hw : IsSpace w)
    (hf : frame = '[' ∨ frame = '{') {n : Nat} {b : Bool} :
    skipAfter (n + 1) b (frame :: stack) (w ++ closing frame :: rest) = skipAfter n true stack rest := by
  simp only [skipAfter]
  rcases hf with rfl | rfl
  · rw [show closing '[' = ']' from rfl, skip_to hw (by decide)]
    simp
  · rw [show closing '{' = '}' from rfl, skip_to hw (by decide)]
    simp

theorem skipAfter_comma {frame : Char} {w stack rest : List Char} (hw : IsSpace w) {n : Nat} :
    skipAfter (n + 1) true (frame :: stack) (w ++ ',' :: rest) =
      (skipName frame rest).bind (skipValue n (frame :: stack)) := by
  simp only [skipAfter]
  rw [skip_to hw (by decide)]
  simp

mutual
theorem skipValue_append {cs : List Char} (h : AnyValue cs) :
    ∀ {n : Nat} {stack rest : List Char}, 2 * (cs ++ rest).length + 1 < n → Stop rest →
      ∃ m, 2 * rest.length + 1 < m ∧ skipValue n stack (cs ++ rest) = skipAfter m true stack rest :=
  fun {n} {stack} {rest} hn hr => by
    obtain ⟨n, rfl⟩ : ∃ k, n = k + 1 := ⟨n - 1, by omega⟩
    match h with
    | .null => exact ⟨n, by simp at hn; omega, rfl⟩
    | .true => exact ⟨n, by simp at hn; omega, rfl⟩
    | .false => exact ⟨n, by simp at hn; omega, rfl⟩
    | .num ⟨sign, ds, fr, ex, hc, hs, hi, hf, he⟩ =>
      subst hc
      have hk := skipNumber_append hi hf he hr
      simp only [List.mem_cons, List.not_mem_nil, or_false] at hs
      rcases hs with rfl | rfl
      · obtain ⟨d, r, rfl, hd⟩ := integer_head hi
        obtain ⟨h1, _, _, h2, h3, h4, h5⟩ := notSpace_digit hd
        refine ⟨n, by simp at hn; omega, ?_⟩
        simp only [List.nil_append, List.cons_append, skipValue] at hk ⊢
        rw [skipSpace_solid h1]
        simp only
        rw [if_neg h2, if_neg h3, if_neg h4, if_neg h5, if_pos hd, hk]
        rfl
      · refine ⟨n, by simp at hn; omega, ?_⟩
        simp only [List.nil_append, List.cons_append, skipValue]
        rw [skipSpace_solid (by decide)]
        simp only
        rw [if_neg (by decide), if_neg (by decide), if_neg (by decide), if_pos trivial, hk]
        rfl
    | .str ⟨t, ht, hc⟩ =>
      subst hc
      refine ⟨n, by simp at hn; omega, ?_⟩
      simp only [List.cons_append, List.append_assoc, List.nil_append, skipValue]
      rw [skipSpace_solid (by decide)]
      simp only
      rw [if_neg (by decide), if_neg (by decide), if_neg (by decide), if_neg (by decide), if_neg (by decide),
        if_pos trivial, skipString_append ht (by simp; omega)]
      rfl
    | .empty (w := w) hw =>
      obtain ⟨n, rfl⟩ : ∃ k, n = k + 1 := ⟨n - 1, by omega⟩
      refine ⟨n, by simp at hn; omega, ?_⟩
      have := skipAfter_close (n := n) (stack := stack) (rest := rest) (b := .false) hw (frame := '[') (.inl rfl)
      rw [← this]
      simp only [List.cons_append, List.append_assoc, List.nil_append, skipValue]
      rw [skipSpace_solid (by decide)]
      rfl
    | .arr (cs := es) he =>
      obtain ⟨n, rfl⟩ : ∃ k, n = k + 1 := ⟨n - 1, by omega⟩
      obtain ⟨m, hm, e⟩ := skipElements_append he (n := n) (stack := stack) (rest := rest) (by simp at hn ⊢; omega)
      refine ⟨m, hm, e ▸ ?_⟩
      obtain ⟨c, r, hs, hc⟩ : ∃ c r, skipSpace (es ++ ']' :: rest) = c :: r ∧ c ≠ ']' := by
        cases he with
        | one hv h _ =>
          obtain ⟨c, r, rfl, h1, h2, _⟩ := anyValue_head h
          simp only [List.append_assoc, List.cons_append]
          exact ⟨_, _, skip_to hv h1 _, h2⟩
        | cons hv h _ _ =>
          obtain ⟨c, r, rfl, h1, h2, _⟩ := anyValue_head h
          simp only [List.append_assoc, List.cons_append]
          exact ⟨_, _, skip_to hv h1 _, h2⟩
      simp only [List.cons_append, List.append_assoc, List.nil_append, skipValue]
      rw [skipSpace_solid (by decide)]
      show skipAfter (n + 1) .false ('[' :: stack) (es ++ ']' :: rest) = _
      simp only [skipAfter, hs]
      rw [if_neg (by simp), if_neg (by simpa [closing] using hc), if_neg (by simp)]
      simp only [skipName, if_true, Option.bind_some]
      obtain ⟨w, hw, he', -⟩ := skipSpace_split (es ++ ']' :: rest)
      rw [he', skipValue_space hw, hs]
    | .emptyObj (w := w) hw =>
      obtain ⟨n, rfl⟩ : ∃ k, n = k + 1 := ⟨n - 1, by omega⟩
      refine ⟨n, by simp at hn; omega, ?_⟩
      have := skipAfter_close (n := n) (stack := stack) (rest := rest) (b := .false) hw (frame := '{') (.inr rfl)
      rw [← this]
      simp only [List.cons_append, List.append_assoc, List.nil_append, skipValue]
      rw [skipSpace_solid (by decide)]
      rfl
    | .obj (cs := es) he =>
      obtain ⟨n, rfl⟩ : ∃ k, n = k + 1 := ⟨n - 1, by omega⟩
      obtain ⟨m, hm, e⟩ := skipMembers_append he (n := n) (stack := stack) (rest := rest) (by simp at hn ⊢; omega)
      refine ⟨m, hm, e ▸ ?_⟩
      obtain ⟨r, hs⟩ : ∃ r, skipSpace (es ++ '}' :: rest) = '"' :: r := by
        cases he with
        | one hu h _ _ _ _ =>
          obtain ⟨ks, _, rfl⟩ := h
          simp only [List.append_assoc, List.cons_append]
          exact ⟨_, skip_to hu notSpace_quote _⟩
        | cons hu h _ _ _ _ _ =>
          obtain ⟨ks, _, rfl⟩ := h
          simp only [List.append_assoc, List.cons_append]
          exact ⟨_, skip_to hu notSpace_quote _⟩
      simp only [List.cons_append, List.append_assoc, List.nil_append, skipValue]
      rw [skipSpace_solid (by decide)]
      show skipAfter (n + 1) .false ('{' :: stack) (es ++ '}' :: rest) = _
      simp only [skipAfter, hs]
      rw [if_neg (by simp), if_neg (by decide), if_neg (by simp)]
      have : skipName '{' ('"' :: r) = skipName '{' (es ++ '}' :: rest) := by
        unfold skipName
        rw [hs, skipSpace_solid (by decide), if_neg (by decide), if_neg (by decide)]
      rw [this]
theorem skipElements_append {cs : List Char} (h : AnyElements cs) :
    ∀ {n : Nat} {stack rest : List Char}, 2 * (cs ++ ']' :: rest).length + 1 < n →
      ∃ m, 2 * rest.length + 1 < m ∧
        skipValue n ('[' :: stack) (cs ++ ']' :: rest) = skipAfter m true stack rest :=
  fun {n} {stack} {rest} hn => by
    match h with
    | .one (v := v) (w := w) (cs := cs) hv hj hw =>
      obtain ⟨m, hm, e⟩ := skipValue_append hj (n := n) (stack := '[' :: stack) (rest := w ++ ']' :: rest)
        (by simp at hn ⊢; omega) (stop_space hw (by simp))
      obtain ⟨m, rfl⟩ : ∃ k, m = k + 1 := ⟨m - 1, by omega⟩
      refine ⟨m, by simp at hm; omega, ?_⟩
      simp only [List.append_assoc]
      rw [skipValue_space hv, e]
      exact skipAfter_close (frame := '[') hw (.inl rfl)
    | .cons (v := v) (w := w) (cs := cs) (ds := ds) hv hj hw hl =>
      obtain ⟨m, hm, e⟩ := skipValue_append hj (n := n) (stack := '[' :: stack) (rest := w ++ ',' :: (ds ++ ']' :: rest))
        (by simp at hn ⊢; omega) (stop_space hw (by simp))
      obtain ⟨m, rfl⟩ : ∃ k, m = k + 1 := ⟨m - 1, by omega⟩
      obtain ⟨m', hm', e'⟩ := skipElements_append hl (n := m) (stack := stack) (rest := rest) (by simp at hm ⊢; omega)
      refine ⟨m', hm', ?_⟩
      simp only [List.append_assoc, List.cons_append]
      rw [skipValue_space hv, e, skipAfter_comma hw, ← e']
      rfl
theorem skipMembers_append {cs : List Char} (h : AnyMembers cs) :
    ∀ {n : Nat} {stack rest : List Char}, 2 * (cs ++ '}' :: rest).length + 1 < n →
      ∃ m, 2 * rest.length + 1 < m ∧
        (skipName '{' (cs ++ '}' :: rest)).bind (skipValue n ('{' :: stack)) = skipAfter m true stack rest :=
  fun {n} {stack} {rest} hn => by
    match h with
    | .one (u := u) (v := v) (w := w) (x := x) (ks := ks) (cs := cs) hu hk hv hw hj hx =>
      obtain ⟨m, hm, e⟩ := skipValue_append hj (n := n) (stack := '{' :: stack) (rest := x ++ '}' :: rest)
        (by simp at hn ⊢; omega) (stop_space hx (by simp))
      obtain ⟨m, rfl⟩ : ∃ k, m = k + 1 := ⟨m - 1, by omega⟩
      refine ⟨m, by simp at hm; omega, ?_⟩
      have hs := skipName_append (rest := w ++ (cs ++ (x ++ '}' :: rest))) hu hk hv
      simp only [List.append_assoc, List.cons_append] at hs ⊢
      rw [hs]
      simp only [Option.bind_some]
      rw [skipValue_space hw, e]
      exact skipAfter_close (frame := '{') hx (.inr rfl)
    | .cons (u := u) (v := v) (w := w) (x := x) (ks := ks) (cs := cs) (ds := ds) hu hk hv hw hj hx hm =>
      obtain ⟨m, hm1, e⟩ := skipValue_append hj (n := n) (stack := '{' :: stack) (rest := x ++ ',' :: (ds ++ '}' :: rest))
        (by simp at hn ⊢; omega) (stop_space hx (by simp))
      obtain ⟨m, rfl⟩ : ∃ k, m = k + 1 := ⟨m - 1, by omega⟩
      obtain ⟨m', hm', e'⟩ := skipMembers_append hm (n := m) (stack := stack) (rest := rest) (by simp at hm1 ⊢; omega)
      refine ⟨m', hm', ?_⟩
      have hs := skipName_append (rest := w ++ (cs ++ (x ++ ',' :: (ds ++ '}' :: rest)))) hu hk hv
      simp only [List.append_assoc, List.cons_append] at hs ⊢
      rw [hs]
      simp only [Option.bind_some]
      rw [skipValue_space hw, e, skipAfter_comma hx, ← e']
end

/-- What is skipped is a value, and every value is skipped. -/
theorem skip_iff {cs rest : List Char} (hr : Stop rest) :
    skipValue (2 * cs.length + 2) [] cs = some rest ↔ ∃ w t, IsSpace w ∧ AnyValue t ∧ cs = w ++ t ++ rest := by
  constructor
  · intro h
    obtain ⟨w, t, r, hw, ht, rfl, rfl⟩ := (skip_sound _).1 _ _ _ h
    exact ⟨w, t, hw, ht, rfl⟩
  · rintro ⟨w, t, hw, ht, rfl⟩
    obtain ⟨m, hm, e⟩ := skipValue_append ht (n := 2 * (w ++ t ++ rest).length + 2) (stack := []) (rest := rest)
      (by simp; omega) hr
    rw [List.append_assoc, skipValue_space hw, ← List.append_assoc, e]
    obtain ⟨m, rfl⟩ : ∃ k, m = k + 1 := ⟨m - 1, by omega⟩
    simp only [skipAfter]

end Wot
