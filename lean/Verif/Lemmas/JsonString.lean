import Verif.Lemmas.JsonNumber
/-
The texts of strings are scanned as the grammar says, and written so.
-/
namespace Wot

/-! ### Hexadecimal digits -/

theorem hexDigit_iff {c : Char} {n : Nat} : HexDigit c n ↔ hexVal c = some n := by
  constructor
  · rintro (⟨h, rfl⟩ | ⟨h1, h2, rfl | rfl⟩)
    · have : ∀ n < 10, hexVal (Char.ofNat ('0'.toNat + n)) = some n := by decide
      exact this n h
    · have : ∀ n < 16, 10 ≤ n → hexVal (Char.ofNat ('a'.toNat + (n - 10))) = some n := by decide
      exact this n h2 h1
    · have : ∀ n < 16, 10 ≤ n → hexVal (Char.ofNat ('A'.toNat + (n - 10))) = some n := by decide
      exact this n h2 h1
  · intro h
    have e : ∀ k, k = c.toNat → c = Char.ofNat k := by rintro _ rfl; exact (Char.ofNat_toNat c).symm
    unfold hexVal at h
    split at h
    · next hr =>
      have h1 : 48 ≤ c.toNat := hr.1
      have h2 : c.toNat ≤ 57 := hr.2
      cases h
      refine .inl ⟨by omega, e _ ?_⟩
      simp only [Char.reduceToNat]; omega
    · split at h
      · next hr =>
        have h1 : 97 ≤ c.toNat := hr.1
        have h2 : c.toNat ≤ 102 := hr.2
        cases h
        refine .inr ⟨by omega, by omega, .inl (e _ ?_)⟩
        simp only [Char.reduceToNat]; omega
      · split at h
        · next hr =>
          have h1 : 65 ≤ c.toNat := hr.1
          have h2 : c.toNat ≤ 70 := hr.2
          cases h
          refine .inr ⟨by omega, by omega, .inr (e _ ?_)⟩
          simp only [Char.reduceToNat]; omega
        · cases h

theorem hexVal_lt {c : Char} {n : Nat} (h : hexVal c = some n) : n < 16 := by
  rcases hexDigit_iff.2 h with ⟨h, _⟩ | ⟨_, h, _⟩ <;> omega

theorem scanHex_append {hex rest : List Char} {n : Nat} (h : HexDigits hex n) :
    scanHex (hex ++ rest) = some (n, rest) := by
  obtain ⟨c3, c2, c1, c0, n3, n2, n1, n0, rfl, h3, h2, h1, h0, rfl⟩ := h
  simp only [List.cons_append, List.nil_append, scanHex, hexDigit_iff.1 h3, hexDigit_iff.1 h2, hexDigit_iff.1 h1,
    hexDigit_iff.1 h0]
  simp only [Option.bind_eq_bind, Option.bind_some, Option.pure_def, Option.some.injEq, Prod.mk.injEq, and_true]
  omega

theorem scanHex_sound {cs rest : List Char} {n : Nat} (h : scanHex cs = some (n, rest)) :
    ∃ hex, HexDigits hex n ∧ cs = hex ++ rest ∧ n < 0x10000 := by
  unfold scanHex at h
  split at h
  · next a b c d cs =>
    obtain ⟨n3, h3, h⟩ := Option.bind_eq_some_iff.1 h
    obtain ⟨n2, h2, h⟩ := Option.bind_eq_some_iff.1 h
    obtain ⟨n1, h1, h⟩ := Option.bind_eq_some_iff.1 h
    obtain ⟨n0, h0, h⟩ := Option.bind_eq_some_iff.1 h
    have l3 := hexVal_lt h3; have l2 := hexVal_lt h2; have l1 := hexVal_lt h1; have l0 := hexVal_lt h0
    cases h
    exact ⟨[a, b, c, d], ⟨a, b, c, d, n3, n2, n1, n0, rfl, hexDigit_iff.2 h3, hexDigit_iff.2 h2, hexDigit_iff.2 h1,
      hexDigit_iff.2 h0, by omega⟩, rfl, by omega⟩
  · cases h

theorem char_range (c : Char) : c.toNat < 0xD800 ∨ (0xDFFF < c.toNat ∧ c.toNat < 0x110000) := by
  rcases c.valid with h | h
  · exact .inl h
  · exact .inr h

theorem toNat_ofNat {n : Nat} (h : n < 0xD800 ∨ (0xDFFF < n ∧ n < 0x110000)) : (Char.ofNat n).toNat = n := by
  have hv : n.isValidChar := h
  simp only [Char.ofNat, dif_pos hv]
  rfl

/-! ### Characters -/

theorem scanString_char {n : Nat} {c : Char} {cs rest : List Char} (h : CharText c cs) :
    scanString (n + 1) (cs ++ rest) = (scanString n rest).map fun (s, r) => (c :: s, r) := by
  cases h with
  | plain h1 h2 h3 =>
    simp only [List.cons_append, List.nil_append, scanString, if_neg h2, if_neg h3, if_neg (Nat.not_lt.2 h1)]
  | short h =>
    simp only [List.cons_append, List.nil_append, scanString]
    rw [if_neg (by decide), if_pos trivial]
    simp only [shortEscapes, List.mem_cons, Prod.mk.injEq, List.not_mem_nil, or_false] at h
    rcases h with ⟨rfl, rfl⟩ | ⟨rfl, rfl⟩ | ⟨rfl, rfl⟩ | ⟨rfl, rfl⟩ | ⟨rfl, rfl⟩ | ⟨rfl, rfl⟩ | ⟨rfl, rfl⟩ | ⟨rfl, rfl⟩ <;>
      rfl
  | number h =>
    simp only [List.cons_append, scanString]
    rw [if_neg (by decide), if_pos trivial]
    have : scanEscape ('u' :: (‹List Char› ++ rest)) = some (c, rest) := by
      show scanUnicode _ = _
      have hr := char_range c
      rw [scanUnicode, scanHex_append h]
      simp only [Option.bind_some]
      rw [if_neg (by omega), if_neg (by omega), Char.ofNat_toNat]
    rw [this]
    rfl
  | @pair _ high low hi lo h1 h2 h3 h4 h5 =>
    simp only [List.cons_append, List.append_assoc, scanString]
    rw [if_neg (by decide), if_pos trivial]
    have : scanEscape ('u' :: (high ++ '\\' :: 'u' :: (low ++ rest))) = some (c, rest) := by
      show scanUnicode _ = _
      rw [scanUnicode, scanHex_append h3]
      simp only [Option.bind_some]
      rw [if_neg (by omega), if_pos (by omega)]
      simp only [scanHex_append h4, Option.bind_some]
      rw [if_pos (by omega)]
      have : (0xD800 + hi - 0xD800) * 0x400 + (0xDC00 + lo - 0xDC00) + 0x10000 = c.toNat := by omega
      rw [this, Char.ofNat_toNat]
    rw [this]
    rfl

theorem charText_length {c : Char} {cs : List Char} (h : CharText c cs) : 1 ≤ cs.length := by
  cases h <;> simp

theorem scanString_append {s cs : List Char} (h : CharsText s cs) :
    ∀ {n : Nat} {rest : List Char}, cs.length < n → scanString n (cs ++ '"' :: rest) = some (s, rest) := by
  induction h with
  | nil =>
    intro n rest hn
    obtain ⟨n, rfl⟩ : ∃ k, n = k + 1 := ⟨n - 1, by simp at hn; omega⟩
    simp [scanString]
  | cons hc _ ih =>
    intro n rest hn
    have := charText_length hc
    rw [List.length_append] at hn
    obtain ⟨n, rfl⟩ : ∃ k, n = k + 1 := ⟨n - 1, by omega⟩
    rw [List.append_assoc, scanString_char hc, ih (by omega)]
    rfl

theorem scanEscape_sound {cs rest : List Char} {c : Char} (h : scanEscape cs = some (c, rest)) :
    ∃ t, CharText c ('\\' :: t) ∧ cs = t ++ rest := by
  cases cs with
  | nil => cases h
  | cons e cs =>
    simp only [scanEscape] at h
    split at h
    · next he =>
      cases h
      exact ⟨[_], .short (by rcases he with rfl | rfl | rfl <;> simp [shortEscapes]), rfl⟩
    split at h
    · next he => cases h; subst he; exact ⟨[_], .short (by simp [shortEscapes]), rfl⟩
    split at h
    · next he => cases h; subst he; exact ⟨[_], .short (by simp [shortEscapes]), rfl⟩
    split at h
    · next he => cases h; subst he; exact ⟨[_], .short (by simp [shortEscapes]), rfl⟩
    split at h
    · next he => cases h; subst he; exact ⟨[_], .short (by simp [shortEscapes]), rfl⟩
    split at h
    · next he => cases h; subst he; exact ⟨[_], .short (by simp [shortEscapes]), rfl⟩
    split at h
    · next he =>
      subst he
      obtain ⟨⟨n, r⟩, hn, h'⟩ := Option.bind_eq_some_iff.1 h
      clear h
      obtain ⟨hex, hhex, rfl, hlt⟩ := scanHex_sound hn
      simp only at h'
      split at h'
      · cases h'
      · next h1 =>
        split at h'
        · next h2 =>
          split at h'
          · next r =>
            obtain ⟨⟨m, r'⟩, hm, h''⟩ := Option.bind_eq_some_iff.1 h'
            clear h'
            obtain ⟨low, hlow, rfl, _⟩ := scanHex_sound hm
            simp only at h''
            split at h''
            · next h3 =>
              obtain ⟨rfl, rfl⟩ := Prod.mk.inj (Option.some.inj h'')
              refine ⟨'u' :: hex ++ '\\' :: 'u' :: low, ?_, by simp⟩
              refine .pair (h := n - 0xD800) (l := m - 0xDC00) (by omega) (by omega) ?_ ?_ ?_
              · rwa [show 0xD800 + (n - 0xD800) = n by omega]
              · rwa [show 0xDC00 + (m - 0xDC00) = m by omega]
              · rw [toNat_ofNat (by omega)]; omega
            · cases h''
          · cases h'
        · next h2 =>
          cases h'
          refine ⟨'u' :: hex, .number ?_, rfl⟩
          rwa [toNat_ofNat (by omega)]
    · cases h

theorem scanString_sound {n : Nat} : ∀ {cs s rest : List Char}, scanString n cs = some (s, rest) →
    ∃ t, CharsText s t ∧ cs = t ++ '"' :: rest := by
  induction n with
  | zero => intro cs s rest h; cases h
  | succ n ih =>
    intro cs s rest h
    cases cs with
    | nil => cases h
    | cons c cs =>
      simp only [scanString] at h
      split at h
      · next hc => cases h; subst hc; exact ⟨[], .nil, rfl⟩
      · next hq =>
        split at h
        · next hc =>
          subst hc
          obtain ⟨⟨x, r⟩, hx, h⟩ := Option.bind_eq_some_iff.1 h
          obtain ⟨⟨s', r'⟩, hs, h⟩ := Option.map_eq_some_iff.1 h
          cases h
          obtain ⟨t1, h1, rfl⟩ := scanEscape_sound hx
          obtain ⟨t2, h2, rfl⟩ := ih hs
          exact ⟨'\\' :: t1 ++ t2, .cons h1 h2, by simp⟩
        · next hb =>
          split at h
          · cases h
          · next hlt =>
            obtain ⟨⟨s', r'⟩, hs, h⟩ := Option.map_eq_some_iff.1 h
            cases h
            obtain ⟨t2, h2, rfl⟩ := ih hs
            exact ⟨[c] ++ t2, .cons (.plain (Nat.not_lt.1 hlt) hq hb) h2, rfl⟩

/-! ### Writing -/

theorem hexDigit_char {n : Nat} (h : n < 16) : HexDigit (digitChar n) n := by
  have : ∀ n < 16, hexVal (digitChar n) = some n := by decide
  exact hexDigit_iff.2 (this n h)

theorem escapeChar_text (c : Char) : CharText c (escapeChar c) := by
  have e : ∀ {k}, c.toNat = k → c = Char.ofNat k := by rintro _ rfl; exact (Char.ofNat_toNat c).symm
  unfold escapeChar
  split
  · next h => subst h; exact .short (by simp [shortEscapes])
  split
  · next h => subst h; exact .short (by simp [shortEscapes])
  split
  · next h => rw [e h]; exact .short (by simp [shortEscapes])
  split
  · next h => rw [e h]; exact .short (by simp [shortEscapes])
  split
  · next h => rw [e h]; exact .short (by simp [shortEscapes])
  split
  · next h => rw [e h]; exact .short (by simp [shortEscapes])
  split
  · next h => rw [e h]; exact .short (by simp [shortEscapes])
  split
  · next h =>
    refine .number ⟨_, _, _, _, 0, 0, c.toNat / 16, c.toNat % 16, rfl, ?_, ?_, ?_, ?_, by omega⟩
    · exact .inl ⟨by omega, rfl⟩
    · exact .inl ⟨by omega, rfl⟩
    · exact hexDigit_char (by omega)
    · exact hexDigit_char (by omega)
  · next h1 h2 _ _ _ _ _ h => exact .plain (Nat.not_lt.1 h) h1 h2

theorem chars_text (s : List Char) : CharsText s (s.flatMap escapeChar) := by
  induction s with
  | nil => exact .nil
  | cons c s ih => exact .cons (escapeChar_text c) ih

theorem stringText_text (s : String) : StringText s (stringText s) := ⟨_, chars_text _, rfl⟩

theorem decimal_digits (n : Nat) :
    decimal n ≠ [] ∧ (∀ c ∈ decimal n, c.isDigit = true) ∧ digitsValue (decimal n) = n ∧
      (0 < n → (decimal n).head? ≠ some '0') := by
  have hd : ∀ d < 10, (digitChar d).isDigit = true ∧ (digitChar d).toNat - 48 = d ∧ (0 < d → digitChar d ≠ '0') := by
    decide
  induction n using Nat.strongRecOn with
  | _ n ih =>
    unfold decimal
    split
    · next h =>
      obtain ⟨h1, h2, h3⟩ := hd n h
      refine ⟨by simp, by simpa using h1, by simpa [digitsValue] using h2, fun hn => ?_⟩
      simpa using h3 hn
    · next h =>
      obtain ⟨i1, i2, i3, i4⟩ := ih (n / 10) (by omega)
      obtain ⟨h1, h2, _⟩ := hd (n % 10) (by omega)
      refine ⟨by simp, ?_, ?_, fun _ => ?_⟩
      · intro c hc
        rcases List.mem_append.1 hc with hc | hc
        · exact i2 c hc
        · rw [List.mem_singleton.1 hc]; exact h1
      · rw [digitsValue_snoc, i3, h2]; omega
      · have := i4 (by omega)
        cases hx : decimal (n / 10) with
        | nil => exact absurd hx i1
        | cons a l => rw [hx] at this; simpa using this

theorem decimal_integer (n : Nat) : IsInteger (decimal n) ∧ DigitsDenote (decimal n) n := by
  obtain ⟨h1, h2, h3, h4⟩ := decimal_digits n
  refine ⟨⟨isDigits_iff.2 ⟨h1, h2⟩, fun h => ?_⟩, by
    have := denote_of_digits _ h2
    rwa [h3] at this⟩
  by_cases hn : 0 < n
  · exact absurd h (h4 hn)
  · have : n = 0 := by omega
    subst this
    rw [decimal]
    rfl

end Wot
