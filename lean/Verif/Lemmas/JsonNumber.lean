import Verif.Spec.JsonText
/-
The texts of numbers are scanned as the grammar says.
-/
namespace Wot

theorem skipSpace_space {w : List Char} (h : IsSpace w) (cs : List Char) : skipSpace (w ++ cs) = skipSpace cs := by
  induction w with
  | nil => rfl
  | cons c w ih =>
    have hc := h c (List.mem_cons_self ..)
    have : c = ' ' ∨ c = '\n' ∨ c = '\t' ∨ c = '\r' := by
      simp only [List.mem_cons, List.not_mem_nil, or_false] at hc
      rcases hc with h | h | h | h <;> simp [h]
    simp only [List.cons_append, skipSpace, if_pos this]
    exact ih fun c hc => h c (List.mem_cons_of_mem _ hc)

/-- Not white space. -/
def NotSpace (c : Char) : Prop := c ≠ ' ' ∧ c ≠ '\n' ∧ c ≠ '\t' ∧ c ≠ '\r'

theorem skipSpace_solid {c : Char} (h : NotSpace c) (cs : List Char) : skipSpace (c :: cs) = c :: cs := by
  simp [skipSpace, h.1, h.2.1, h.2.2.1, h.2.2.2]

theorem skipSpace_split (cs : List Char) :
    ∃ w, IsSpace w ∧ cs = w ++ skipSpace cs ∧ ∀ c r, skipSpace cs = c :: r → NotSpace c := by
  induction cs with
  | nil => exact ⟨[], nofun, rfl, nofun⟩
  | cons c cs ih =>
    obtain ⟨w, hw, he, hs⟩ := ih
    by_cases hc : c = ' ' ∨ c = '\n' ∨ c = '\t' ∨ c = '\r'
    · refine ⟨c :: w, ?_, ?_, ?_⟩
      · intro x hx
        rcases List.mem_cons.1 hx with rfl | hx
        · simp only [List.mem_cons, List.not_mem_nil, or_false]
          rcases hc with h | h | h | h <;> simp [h]
        · exact hw x hx
      · simp only [skipSpace, if_pos hc, List.cons_append, ← he]
      · simpa only [skipSpace, if_pos hc] using hs
    · refine ⟨[], nofun, by simp [skipSpace, if_neg hc], ?_⟩
      simp only [skipSpace, if_neg hc]
      rintro _ _ ⟨⟩
      simpa [NotSpace, not_or] using hc

theorem skipSpace_idem (cs : List Char) : skipSpace (skipSpace cs) = skipSpace cs := by
  obtain ⟨w, _, _, hs⟩ := skipSpace_split cs
  cases h : skipSpace cs with
  | nil => rfl
  | cons c r => exact skipSpace_solid (hs c r h) r

theorem skipSpace_nil_iff {cs : List Char} : skipSpace cs = [] ↔ IsSpace cs := by
  constructor
  · intro h
    obtain ⟨w, hw, he, _⟩ := skipSpace_split cs
    rw [h, List.append_nil] at he
    exact he ▸ hw
  · intro h
    have := skipSpace_space h []
    simpa [skipSpace] using this

/-! ### Digits -/

theorem isDigit_iff {c : Char} : c.isDigit = true ↔ ∃ d, d < 10 ∧ c = Char.ofNat ('0'.toNat + d) := by
  constructor
  · intro h
    have h1 : 48 ≤ c.toNat ∧ c.toNat ≤ 57 := by
      simp only [Char.isDigit, Bool.and_eq_true, decide_eq_true_eq] at h
      exact ⟨h.1, h.2⟩
    refine ⟨c.toNat - 48, by omega, ?_⟩
    rw [show '0'.toNat + (c.toNat - 48) = c.toNat by simp only [Char.reduceToNat]; omega, Char.ofNat_toNat]
  · rintro ⟨d, hd, rfl⟩
    have : ∀ d < 10, (Char.ofNat ('0'.toNat + d)).isDigit = true := by decide
    exact this d hd

theorem digit_mem_iff {c : Char} :
    c ∈ ['0', '1', '2', '3', '4', '5', '6', '7', '8', '9'] ↔ c.isDigit = true := by
  constructor
  · intro h
    have : ∀ c ∈ ['0', '1', '2', '3', '4', '5', '6', '7', '8', '9'], c.isDigit = true := by decide
    exact this c h
  · intro h
    obtain ⟨d, hd, rfl⟩ := isDigit_iff.1 h
    have : ∀ d < 10, Char.ofNat ('0'.toNat + d) ∈ ['0', '1', '2', '3', '4', '5', '6', '7', '8', '9'] := by decide
    exact this d hd

theorem digit_toNat {d : Nat} (h : d < 10) : (Char.ofNat ('0'.toNat + d)).toNat - 48 = d := by
  have : ∀ d < 10, (Char.ofNat ('0'.toNat + d)).toNat - 48 = d := by decide
  exact this d h

theorem digitsValue_snoc (cs : List Char) (c : Char) :
    digitsValue (cs ++ [c]) = 10 * digitsValue cs + (c.toNat - 48) := by
  simp [digitsValue]

theorem denote_value {cs : List Char} {n : Nat} (h : DigitsDenote cs n) : digitsValue cs = n := by
  induction h with
  | nil => rfl
  | snoc hd _ ih => rw [digitsValue_snoc, ih, digit_toNat hd]

theorem list_snoc_ind {α : Type} {P : List α → Prop} (hn : P []) (hs : ∀ l a, P l → P (l ++ [a])) (l : List α) : P l := by
  have : ∀ r : List α, P r.reverse := by
    intro r
    induction r with
    | nil => exact hn
    | cons a r ih => rw [List.reverse_cons]; exact hs _ _ ih
  simpa using this l.reverse

theorem denote_of_digits (cs : List Char) : (∀ c ∈ cs, c.isDigit = true) → DigitsDenote cs (digitsValue cs) := by
  induction cs using list_snoc_ind with
  | hn => exact fun _ => .nil
  | hs cs c ih =>
    intro h
    obtain ⟨d, hd, rfl⟩ := isDigit_iff.1 (h c (by simp))
    rw [digitsValue_snoc, digit_toNat hd]
    exact .snoc hd (ih fun c hc => h c (by simp [hc]))

theorem isDigits_iff {cs : List Char} : IsDigits cs ↔ cs ≠ [] ∧ ∀ c ∈ cs, c.isDigit = true := by
  simp only [IsDigits, digit_mem_iff]

/-- What follows is not part of the digits. -/
def NoDigit (cs : List Char) : Prop := ∀ c, cs.head? = some c → c.isDigit = false

theorem scanDigits_append {ds rest : List Char} (h : ∀ c ∈ ds, c.isDigit = true) (hr : NoDigit rest) :
    scanDigits (ds ++ rest) = (ds, rest) := by
  induction ds with
  | nil =>
    cases rest with
    | nil => rfl
    | cons c cs => simp [scanDigits, hr c rfl]
  | cons d ds ih =>
    simp [scanDigits, h d (List.mem_cons_self ..), ih fun c hc => h c (List.mem_cons_of_mem _ hc)]

theorem scanDigits_split (cs : List Char) :
    cs = (scanDigits cs).1 ++ (scanDigits cs).2 ∧ (∀ c ∈ (scanDigits cs).1, c.isDigit = true) ∧
      NoDigit (scanDigits cs).2 := by
  induction cs with
  | nil => exact ⟨rfl, nofun, nofun⟩
  | cons c cs ih =>
    by_cases hc : c.isDigit = true
    · simp only [scanDigits, if_pos hc]
      refine ⟨by rw [List.cons_append, ← ih.1], ?_, ih.2.2⟩
      intro x hx
      rcases List.mem_cons.1 hx with rfl | hx
      · exact hc
      · exact ih.2.1 x hx
    · simp only [scanDigits, if_neg hc]
      refine ⟨rfl, nofun, ?_⟩
      rintro _ ⟨⟩
      simpa using hc

/-- What can follow a number. -/
def Stop (cs : List Char) : Prop := ∀ c, cs.head? = some c → c.isDigit = false ∧ c ≠ '.' ∧ c ≠ 'e' ∧ c ≠ 'E'

theorem Stop.noDigit {cs : List Char} (h : Stop cs) : NoDigit cs := fun c hc => (h c hc).1

theorem scanExponent_append {ex rest : List Char} (h : IsExponent ex) (hr : Stop rest) :
    scanExponent (ex ++ rest) = some (ex, rest) := by
  rcases h with rfl | ⟨e, sign, ds, rfl, he, hs, hd⟩
  · cases rest with
    | nil => rfl
    | cons c cs =>
      obtain ⟨_, _, h1, h2⟩ := hr c rfl
      simp [scanExponent, h1, h2]
  · have he' : e = 'e' ∨ e = 'E' := by simpa using he
    obtain ⟨hne, hd⟩ := isDigits_iff.1 hd
    have hsign : scanSign (sign ++ (ds ++ rest)) = (sign, ds ++ rest) := by
      simp only [List.mem_cons, List.not_mem_nil, or_false] at hs
      rcases hs with rfl | rfl | rfl
      · cases ds with
        | nil => exact absurd rfl hne
        | cons d ds =>
          have hdd := hd d (List.mem_cons_self ..)
          simp only [List.nil_append, List.cons_append]
          unfold scanSign
          split
          · next h => cases h; exact absurd hdd (by decide)
          · next h => cases h; exact absurd hdd (by decide)
          · rfl
      · rfl
      · rfl
    simp only [List.cons_append, List.append_assoc, scanExponent, if_pos he', hsign,
      scanDigits_append hd hr.noDigit, if_neg hne]

theorem scanFraction_append {fr rest : List Char} (h : IsFraction fr) (hr : NoDigit rest)
    (hp : rest.head? ≠ some '.') : scanFraction (fr ++ rest) = some (fr, rest) := by
  rcases h with rfl | ⟨ds, rfl, hd⟩
  · simp only [List.nil_append]
    unfold scanFraction
    split
    · exact absurd rfl hp
    · rfl
  · obtain ⟨hne, hd⟩ := isDigits_iff.1 hd
    simp only [List.cons_append, scanFraction, scanDigits_append hd hr, if_neg hne]

theorem exponent_head {ex rest : List Char} (h : IsExponent ex) (hr : Stop rest) :
    NoDigit (ex ++ rest) ∧ (ex ++ rest).head? ≠ some '.' := by
  rcases h with rfl | ⟨e, sign, ds, rfl, he, _⟩
  · exact ⟨hr.noDigit, fun h => (hr _ h).2.1 rfl⟩
  · have he' : e = 'e' ∨ e = 'E' := by simpa using he
    constructor
    · rintro _ ⟨⟩
      rcases he' with rfl | rfl <;> decide
    · intro h
      have : e = '.' := by simpa using h
      subst this
      rcases he' with h | h <;> exact absurd h (by decide)

theorem fraction_head {fr rest : List Char} (h : IsFraction fr) (hr : NoDigit rest) : NoDigit (fr ++ rest) := by
  rcases h with rfl | ⟨ds, rfl, _⟩
  · exact hr
  · rintro _ ⟨⟩; decide

theorem scanNumber_append {fl : FloatText} {minus : Bool} {ds fr ex rest : List Char} (hi : IsInteger ds)
    (hf : IsFraction fr) (he : IsExponent ex) (hr : Stop rest) :
    scanNumber fl minus (ds ++ fr ++ ex ++ rest) = (numberOf fl minus ds (fr ++ ex)).map fun n => (n, rest) := by
  obtain ⟨h1, h2⟩ := exponent_head he hr
  obtain ⟨hne, hd⟩ := isDigits_iff.1 hi.1
  have hs : scanDigits (ds ++ fr ++ ex ++ rest) = (ds, fr ++ (ex ++ rest)) := by
    rw [List.append_assoc, List.append_assoc]
    exact scanDigits_append hd (fraction_head hf h1)
  unfold scanNumber
  rw [hs]
  split
  · next h => cases h; exact absurd rfl hne
  · next h =>
    cases h
    have := hi.2 rfl
    cases this
  · next h =>
    cases h
    rw [scanFraction_append hf h1 h2]
    simp only [Option.bind_some, scanExponent_append he hr]

theorem scanFraction_sound {cs fr rest : List Char} (h : scanFraction cs = some (fr, rest)) :
    IsFraction fr ∧ cs = fr ++ rest := by
  unfold scanFraction at h
  split at h
  · next cs =>
    obtain ⟨h1, h2, _⟩ := scanDigits_split cs
    split at h
    · cases h
    · next hne =>
      cases h
      exact ⟨.inr ⟨_, rfl, isDigits_iff.2 ⟨hne, h2⟩⟩, by rw [List.cons_append, ← h1]⟩
  · cases h
    exact ⟨.inl rfl, rfl⟩

theorem scanSign_sound (cs : List Char) :
    (scanSign cs).1 ∈ [[], ['+'], ['-']] ∧ cs = (scanSign cs).1 ++ (scanSign cs).2 := by
  unfold scanSign
  split <;> simp

theorem scanExponent_sound {cs ex rest : List Char} (h : scanExponent cs = some (ex, rest)) :
    IsExponent ex ∧ cs = ex ++ rest := by
  unfold scanExponent at h
  split at h
  · cases h; exact ⟨.inl rfl, rfl⟩
  · next c cs =>
    split at h
    · next he =>
      split at h
      · cases h
      · next hne =>
        obtain ⟨h1, h2, _⟩ := scanDigits_split (scanSign cs).2
        obtain ⟨h3, h4⟩ := scanSign_sound cs
        cases h
        refine ⟨.inr ⟨c, _, _, rfl, by simpa using he, h3, isDigits_iff.2 ⟨hne, h2⟩⟩, ?_⟩
        rw [List.cons_append, List.cons_append, List.append_assoc, ← h1, ← h4]
    · cases h; exact ⟨.inl rfl, rfl⟩

theorem scanNumber_sound {fl : FloatText} {minus : Bool} {cs rest : List Char} {x : JNum}
    (h : scanNumber fl minus cs = some (x, rest)) :
    ∃ ds fr ex, IsInteger ds ∧ IsFraction fr ∧ IsExponent ex ∧ cs = ds ++ fr ++ ex ++ rest ∧
      numberOf fl minus ds (fr ++ ex) = some x := by
  unfold scanNumber at h
  obtain ⟨h1, h2, _⟩ := scanDigits_split cs
  split at h
  · cases h
  · cases h
  · next ds r hne hz hd =>
    rw [hd] at h1 h2
    obtain ⟨⟨fr, r1⟩, hf, h⟩ := Option.bind_eq_some_iff.1 h
    obtain ⟨⟨ex, r2⟩, he, h⟩ := Option.bind_eq_some_iff.1 h
    obtain ⟨n, hn, h⟩ := Option.map_eq_some_iff.1 h
    cases h
    obtain ⟨hf', rfl⟩ := scanFraction_sound hf
    obtain ⟨he', rfl⟩ := scanExponent_sound he
    refine ⟨ds, fr, ex, ⟨isDigits_iff.2 ⟨?_, h2⟩, ?_⟩, hf', he', ?_, hn⟩
    · exact fun h0 => hne h0
    · intro hh
      cases ds with
      | nil => cases hh
      | cons d ds =>
        cases hh
        cases ds with
        | nil => rfl
        | cons e ds => exact (hz e ds rfl).elim
    · simpa using h1

theorem numberOf_iff {fl : FloatText} {minus : Bool} {ds fr ex : List Char} {x : JNum} (hi : IsInteger ds)
    (hf : IsFraction fr) (he : IsExponent ex) (h : numberOf fl minus ds (fr ++ ex) = some x) :
    NumberText fl x ((if minus then ['-'] else []) ++ ds ++ fr ++ ex) := by
  have hd := denote_of_digits ds (isDigits_iff.1 hi.1).2
  unfold numberOf at h
  simp only at h
  split at h
  · next hne =>
    obtain ⟨f, hf', rfl⟩ := Option.map_eq_some_iff.1 h
    refine .float (by cases minus <;> simp) hi hf he hne ?_
    simpa using hf'
  · next hemp =>
    have hemp : fr = [] ∧ ex = [] := by simpa using hemp
    obtain ⟨rfl, rfl⟩ := hemp
    simp only [List.append_nil] at h ⊢
    cases minus with
    | true =>
      simp only [if_true] at h ⊢
      split at h
      · next hr =>
        cases h
        exact .neg hi (by rwa [Nat.sub_add_cancel hr.1]) (by omega)
      · next hr =>
        obtain ⟨f, hf', rfl⟩ := Option.map_eq_some_iff.1 h
        exact .low hi hd (by omega) hf'
    | false =>
      simp only [Bool.false_eq_true, if_false, List.nil_append] at h ⊢
      split at h
      · next hr =>
        cases h
        exact .pos hi hd hr
      · next hr =>
        obtain ⟨f, hf', rfl⟩ := Option.map_eq_some_iff.1 h
        exact .big hi hd (by omega) hf'

/-- The texts of numbers, taken apart. -/
theorem number_parts {fl : FloatText} {x : JNum} {cs : List Char} (h : NumberText fl x cs) :
    ∃ minus ds fr ex, IsInteger ds ∧ IsFraction fr ∧ IsExponent ex ∧
      cs = (if minus then ['-'] else []) ++ (ds ++ fr ++ ex) ∧ numberOf fl minus ds (fr ++ ex) = some x := by
  cases h with
  | pos hi hd hn =>
    refine ⟨false, _, [], [], hi, .inl rfl, .inl rfl, by simp, ?_⟩
    simp [numberOf, denote_value hd, hn]
  | neg hi hd hn =>
    refine ⟨true, _, [], [], hi, .inl rfl, .inl rfl, by simp, ?_⟩
    simp [numberOf, denote_value hd, hn]
  | big hi hd hn hr =>
    refine ⟨false, _, [], [], hi, .inl rfl, .inl rfl, by simp, ?_⟩
    simp only [numberOf, denote_value hd]
    rw [if_neg (by simp), if_neg (by simp), if_neg (by omega)]
    simp [hr]
  | low hi hd hn hr =>
    refine ⟨true, _, [], [], hi, .inl rfl, .inl rfl, by simp, ?_⟩
    simp only [numberOf, denote_value hd]
    rw [if_neg (by simp), if_pos trivial, if_neg (by omega)]
    simp [hr]
  | @float sign ds fr ex f hs hi hf he hne hr =>
    have : ∃ minus : Bool, sign = if minus then ['-'] else [] := by
      simp only [List.mem_cons, List.not_mem_nil, or_false] at hs
      rcases hs with rfl | rfl
      · exact ⟨false, rfl⟩
      · exact ⟨true, rfl⟩
    obtain ⟨minus, rfl⟩ := this
    refine ⟨minus, _, _, _, hi, hf, he, by simp, ?_⟩
    simp only [numberOf, if_pos hne]
    simpa using hr

end Wot
