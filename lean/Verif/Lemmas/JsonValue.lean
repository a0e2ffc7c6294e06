import Verif.Lemmas.JsonString
/-
Whatever the grammar relates to a text is scanned from it.
-/
namespace Wot

variable {fl : FloatText}

instance (c : Char) : Decidable (NotSpace c) := by unfold NotSpace; infer_instance

theorem scanValue_skip (n : Nat) (cs : List Char) : scanValue fl n (skipSpace cs) = scanValue fl n cs := by
  cases n with
  | zero => rfl
  | succ n => simp only [scanValue, skipSpace_idem]

theorem scanElements_skip (n : Nat) (cs : List Char) : scanElements fl n (skipSpace cs) = scanElements fl n cs := by
  cases n with
  | zero => rfl
  | succ n => simp only [scanElements, scanValue_skip]

theorem scanMembers_skip (n : Nat) (cs : List Char) : scanMembers fl n (skipSpace cs) = scanMembers fl n cs := by
  cases n with
  | zero => rfl
  | succ n => simp only [scanMembers, skipSpace_idem]

theorem scanValue_space {w : List Char} (h : IsSpace w) (n : Nat) (cs : List Char) :
    scanValue fl n (w ++ cs) = scanValue fl n cs := by
  rw [← scanValue_skip, skipSpace_space h, scanValue_skip]

/-! ### First characters -/

theorem notSpace_quote : NotSpace '"' := by decide

theorem notSpace_digit {c : Char} (h : c.isDigit = true) :
    NotSpace c ∧ c ≠ ']' ∧ c ≠ '}' ∧ c ≠ 'n' ∧ c ≠ 't' ∧ c ≠ 'f' ∧ c ≠ '-' := by
  refine ⟨⟨?_, ?_, ?_, ?_⟩, ?_, ?_, ?_, ?_, ?_, ?_⟩ <;> (rintro rfl; exact absurd h (by decide))

theorem integer_head {ds : List Char} (h : IsInteger ds) : ∃ d r, ds = d :: r ∧ d.isDigit = true := by
  obtain ⟨hne, hd⟩ := isDigits_iff.1 h.1
  cases ds with
  | nil => exact absurd rfl hne
  | cons d r => exact ⟨d, r, rfl, hd d (List.mem_cons_self ..)⟩

theorem valueText_head {j : Json} {cs : List Char} (h : ValueText fl j cs) :
    ∃ c r, cs = c :: r ∧ NotSpace c ∧ c ≠ ']' ∧ c ≠ '}' := by
  cases h with
  | null => exact ⟨_, _, rfl, by decide, by decide, by decide⟩
  | true => exact ⟨_, _, rfl, by decide, by decide, by decide⟩
  | false => exact ⟨_, _, rfl, by decide, by decide, by decide⟩
  | num h =>
    obtain ⟨minus, ds, fr, ex, hi, _, _, rfl, _⟩ := number_parts h
    cases minus with
    | true => exact ⟨_, _, rfl, by decide, by decide, by decide⟩
    | false =>
      obtain ⟨d, r, rfl, hd⟩ := integer_head hi
      obtain ⟨h1, h2, h3, _⟩ := notSpace_digit hd
      exact ⟨_, _, rfl, h1, h2, h3⟩
  | str h =>
    obtain ⟨cs, _, rfl⟩ := h
    exact ⟨_, _, rfl, by decide, by decide, by decide⟩
  | empty _ => exact ⟨_, _, rfl, by decide, by decide, by decide⟩
  | arr _ => exact ⟨_, _, rfl, by decide, by decide, by decide⟩
  | emptyObj _ => exact ⟨_, _, rfl, by decide, by decide, by decide⟩
  | obj _ => exact ⟨_, _, rfl, by decide, by decide, by decide⟩

theorem stop_of {c : Char} {cs : List Char} (h : c ∈ [' ', '\t', '\n', '\r', ',', ']', '}']) : Stop (c :: cs) := by
  rintro _ ⟨⟩
  have : ∀ c ∈ [' ', '\t', '\n', '\r', ',', ']', '}'], c.isDigit = false ∧ c ≠ '.' ∧ c ≠ 'e' ∧ c ≠ 'E' := by decide
  exact this c h

theorem stop_space {w : List Char} {c : Char} {cs : List Char} (hw : IsSpace w) (hc : c ∈ [',', ']', '}']) :
    Stop (w ++ c :: cs) := by
  cases w with
  | nil =>
    exact stop_of (by
      simp only [List.mem_cons, List.not_mem_nil, or_false] at hc ⊢
      rcases hc with h | h | h <;> simp [h])
  | cons a w =>
    have := hw a (List.mem_cons_self ..)
    exact stop_of (by
      simp only [List.mem_cons, List.not_mem_nil, or_false] at this ⊢
      rcases this with h | h | h | h <;> simp [h])

theorem stop_space_nil {w : List Char} (hw : IsSpace w) : Stop w := by
  cases w with
  | nil => exact nofun
  | cons a w =>
    have := hw a (List.mem_cons_self ..)
    exact stop_of (by
      simp only [List.mem_cons, List.not_mem_nil, or_false] at this ⊢
      rcases this with h | h | h | h <;> simp [h])

theorem skip_to {w : List Char} (hw : IsSpace w) {c : Char} (hc : NotSpace c) (cs : List Char) :
    skipSpace (w ++ c :: cs) = c :: cs := by rw [skipSpace_space hw, skipSpace_solid hc]

theorem elementsText_head {l : List Json} {cs : List Char} (h : ElementsText fl l cs) (rest : List Char) :
    ∃ c r, skipSpace (cs ++ rest) = c :: r ∧ c ≠ ']' := by
  cases h with
  | one hv h _ =>
    obtain ⟨c, r, rfl, h1, h2, _⟩ := valueText_head h
    simp only [List.append_assoc, List.cons_append]
    exact ⟨_, _, skip_to hv h1 _, h2⟩
  | cons hv h _ _ =>
    obtain ⟨c, r, rfl, h1, h2, _⟩ := valueText_head h
    simp only [List.append_assoc, List.cons_append]
    exact ⟨_, _, skip_to hv h1 _, h2⟩

theorem membersText_head {m : List (String × Json)} {cs : List Char} (h : MembersText fl m cs) (rest : List Char) :
    ∃ r, skipSpace (cs ++ rest) = '"' :: r := by
  cases h with
  | one hu h _ _ _ _ =>
    obtain ⟨ks, _, rfl⟩ := h
    simp only [List.append_assoc, List.cons_append]
    exact ⟨_, skip_to hu notSpace_quote _⟩
  | cons hu h _ _ _ _ _ =>
    obtain ⟨ks, _, rfl⟩ := h
    simp only [List.append_assoc, List.cons_append]
    exact ⟨_, skip_to hu notSpace_quote _⟩

/-! ### Every text of the grammar is read -/

theorem scanValue_number {x : JNum} {cs : List Char} (h : NumberText fl x cs) {n : Nat} {rest : List Char}
    (hr : Stop rest) : scanValue fl (n + 1) (cs ++ rest) = some (.num x, rest) := by
  obtain ⟨minus, ds, fr, ex, hi, hf, he, rfl, hx⟩ := number_parts h
  have hs := scanNumber_append (fl := fl) (minus := minus) hi hf he hr
  rw [hx] at hs
  cases minus with
  | true =>
    simp only [if_true, List.cons_append, List.nil_append, scanValue]
    rw [skipSpace_solid (by decide)]
    simp only
    rw [if_neg (by decide), if_neg (by decide), if_neg (by decide), if_pos trivial, hs]
    rfl
  | false =>
    obtain ⟨d, r, rfl, hd⟩ := integer_head hi
    obtain ⟨h1, _, _, h2, h3, h4, h5⟩ := notSpace_digit hd
    simp only [Bool.false_eq_true, if_false, List.nil_append, List.cons_append, scanValue] at hs ⊢
    rw [skipSpace_solid h1]
    simp only
    rw [if_neg h2, if_neg h3, if_neg h4, if_neg h5, if_pos hd, hs]
    rfl

theorem scanMembers_step {n : Nat} {k : String} {j : Json} {u v w x ks cs rest : List Char} {c : Char}
    (hu : IsSpace u) (hk : StringText k ks) (hv : IsSpace v) (hx : IsSpace x) (hc : NotSpace c)
    (hl : ks.length ≤ n)
    (hj : scanValue fl n (w ++ (cs ++ (x ++ c :: rest))) = some (j, x ++ c :: rest)) :
    scanMembers fl (n + 1) (u ++ ks ++ v ++ ':' :: w ++ cs ++ x ++ c :: rest) =
      if c = '}' then some ([(k, j)], rest)
      else if c = ',' then (scanMembers fl n rest).map fun (m, r) => ((k, j) :: m, r) else none := by
  obtain ⟨t, ht, rfl⟩ := hk
  simp only [List.append_assoc, List.cons_append, List.nil_append, scanMembers]
  rw [skip_to hu notSpace_quote]
  simp only [if_pos trivial]
  have hl' : t.length < n := by simp at hl; omega
  rw [scanString_append ht hl']
  simp only [Option.bind_some]
  rw [skip_to hv (by decide)]
  simp only [if_true, hj, Option.bind_some, String.ofList_toList]
  rw [skip_to hx hc]

mutual
theorem scanValue_append {j : Json} {cs : List Char} (h : ValueText fl j cs) :
    ∀ {n : Nat} {rest : List Char}, cs.length < n → Stop rest → scanValue fl n (cs ++ rest) = some (j, rest) :=
  fun {n} {rest} hn hr => by
    obtain ⟨n, rfl⟩ : ∃ k, n = k + 1 := ⟨n - 1, by omega⟩
    match h with
    | .null => rfl
    | .true => rfl
    | .false => rfl
    | .num h => exact scanValue_number h hr
    | .str ⟨t, ht, hc⟩ =>
      subst hc
      simp only [List.cons_append, List.append_assoc, List.nil_append, scanValue]
      rw [skipSpace_solid (by decide)]
      simp only
      rw [if_neg (by decide), if_neg (by decide), if_neg (by decide), if_neg (by decide), if_neg (by decide),
        if_pos trivial, scanString_append ht (by simp at hn; omega)]
      simp
    | .empty hw =>
      simp only [List.cons_append, List.append_assoc, List.nil_append, scanValue]
      rw [skipSpace_solid (by decide)]
      simp only
      rw [if_neg (by decide), if_neg (by decide), if_neg (by decide), if_neg (by decide), if_neg (by decide),
        if_neg (by decide), if_pos trivial, skip_to hw (by decide)]
      rfl
    | .arr (cs := es) he =>
      have ih := scanElements_append he (n := n) (rest := rest) (by simp at hn; omega)
      obtain ⟨c, r, hs, hc⟩ := elementsText_head he (']' :: rest)
      simp only [List.cons_append, List.append_assoc, List.nil_append, scanValue]
      rw [skipSpace_solid (by decide)]
      simp only
      rw [if_neg (by decide), if_neg (by decide), if_neg (by decide), if_neg (by decide), if_neg (by decide),
        if_neg (by decide), if_pos trivial, hs]
      simp only
      rw [if_neg hc, ← hs, scanElements_skip, ih]
      rfl
    | .emptyObj hw =>
      simp only [List.cons_append, List.append_assoc, List.nil_append, scanValue]
      rw [skipSpace_solid (by decide)]
      simp only
      rw [if_neg (by decide), if_neg (by decide), if_neg (by decide), if_neg (by decide), if_neg (by decide),
        if_neg (by decide), if_neg (by decide), if_pos trivial, skip_to hw (by decide)]
      rfl
    | .obj (cs := es) he =>
      have ih := scanMembers_append he (n := n) (rest := rest) (by simp at hn; omega)
      obtain ⟨r, hs⟩ := membersText_head he ('}' :: rest)
      simp only [List.cons_append, List.append_assoc, List.nil_append, scanValue]
      rw [skipSpace_solid (by decide)]
      simp only
      rw [if_neg (by decide), if_neg (by decide), if_neg (by decide), if_neg (by decide), if_neg (by decide),
        if_neg (by decide), if_neg (by decide), if_pos trivial, hs]
      simp only
      rw [if_neg (by decide), ← hs, scanMembers_skip, ih]
      rfl
theorem scanElements_append {l : List Json} {cs : List Char} (h : ElementsText fl l cs) :
    ∀ {n : Nat} {rest : List Char}, cs.length + 1 < n →
      scanElements fl n (cs ++ ']' :: rest) = some (l, rest) :=
  fun {n} {rest} hn => by
    obtain ⟨n, rfl⟩ : ∃ k, n = k + 1 := ⟨n - 1, by omega⟩
    match h with
    | .one (v := v) (w := w) (cs := cs) hv hj hw =>
      have ih := scanValue_append hj (n := n) (rest := w ++ ']' :: rest) (by simp at hn; omega)
        (stop_space hw (by simp))
      simp only [List.append_assoc, scanElements]
      rw [scanValue_space hv, ih]
      simp only [Option.bind_some]
      rw [skip_to hw (by decide)]
      rfl
    | .cons (v := v) (w := w) (cs := cs) (ds := ds) hv hj hw hl =>
      have ih := scanValue_append hj (n := n) (rest := w ++ ',' :: (ds ++ ']' :: rest)) (by simp at hn; omega)
        (stop_space hw (by simp))
      have ih' := scanElements_append hl (n := n) (rest := rest) (by simp at hn; omega)
      simp only [List.append_assoc, List.cons_append, scanElements]
      rw [scanValue_space hv, ih]
      simp only [Option.bind_some]
      rw [skip_to hw (by decide)]
      simp only
      rw [if_neg (by decide), if_pos trivial, ih']
      rfl
theorem scanMembers_append {m : List (String × Json)} {cs : List Char} (h : MembersText fl m cs) :
    ∀ {n : Nat} {rest : List Char}, cs.length + 1 < n →
      scanMembers fl n (cs ++ '}' :: rest) = some (m, rest) :=
  fun {n} {rest} hn => by
    obtain ⟨n, rfl⟩ : ∃ k, n = k + 1 := ⟨n - 1, by omega⟩
    match h with
    | .one (w := w) (x := x) (cs := cs) hu hk hv hw hj hx =>
      have ih := scanValue_append hj (n := n) (rest := x ++ '}' :: rest) (by simp at hn; omega)
        (stop_space hx (by simp))
      rw [scanMembers_step hu hk hv hx (by decide) (by simp at hn; omega) (by rw [scanValue_space hw, ih]), if_pos rfl]
    | .cons (w := w) (x := x) (cs := cs) (ds := ds) hu hk hv hw hj hx hm =>
      have ih := scanValue_append hj (n := n) (rest := x ++ ',' :: (ds ++ '}' :: rest)) (by simp at hn; omega)
        (stop_space hx (by simp))
      have ih' := scanMembers_append hm (n := n) (rest := rest) (by simp at hn; omega)
      have := scanMembers_step (fl := fl) (rest := ds ++ '}' :: rest) hu hk hv hx (c := ',') (by decide)
        (n := n) (by simp at hn; omega) (by rw [scanValue_space hw, ih])
      rw [if_neg (by decide), if_pos rfl, ih'] at this
      simpa using this
end

end Wot
