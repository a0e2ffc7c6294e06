import Verif.Spec.Layout
import Verif.Lemmas.JsonText
namespace Wot
variable {fl : FloatText}

theorem lineBreak_eq (d : Nat) : lineBreak d = newLine d := by
  simp only [lineBreak, newLine]
  congr 1
  induction d with
  | zero => rfl
  | succ d ih => rw [List.replicate_succ, List.flatten_cons, ih, show 2 * (d + 1) = 2 * d + 1 + 1 by omega]; rfl

theorem laidOut_plain {q : Bool} {d : Nat} {c : Char} {cs : List Char} (h : c ∉ ['\\', '"', '[', ']', '{', '}', ',', ':']) :
    laidOut q d (c :: cs) = c :: laidOut q d cs := by
  simp only [List.mem_cons, List.not_mem_nil, or_false, not_or] at h
  conv => lhs; unfold laidOut
  split <;> simp_all
  rename_i e; obtain ⟨rfl, rfl⟩ := e
  cases q <;> rfl

theorem laidOut_quoted {d : Nat} {c : Char} {cs : List Char} (h : c ≠ '\\') (h' : c ≠ '"') :
    laidOut true d (c :: cs) = c :: laidOut true d cs := by
  conv => lhs; unfold laidOut
  split <;> simp_all
  all_goals (rename_i e; obtain ⟨rfl, rfl⟩ := e; conv => rhs; unfold laidOut)
  all_goals simp

theorem laidOut_open {d : Nat} {c : Char} {b a : Char} {cs : List Char} (hb : (a, b) ∈ [('[', ']'), ('{', '}')]) (h : c ≠ b) :
    laidOut false d (a :: c :: cs) = a :: newLine (d + 1) ++ laidOut false (d + 1) (c :: cs) := by
  simp only [List.mem_cons, List.not_mem_nil, or_false, Prod.mk.injEq] at hb
  rcases hb with ⟨rfl, rfl⟩ | ⟨rfl, rfl⟩ <;>
  · conv => lhs; unfold laidOut
    split <;> simp_all [lineBreak_eq]
    rename_i e; obtain ⟨rfl, rfl⟩ := e
    simp

theorem laidOut_close {d : Nat} {c : Char} {cs : List Char} (h : c = ']' ∨ c = '}') :
    laidOut false (d + 1) (c :: cs) = newLine d ++ c :: laidOut false d cs := by
  rcases h with rfl | rfl <;> (conv => lhs; unfold laidOut) <;> simp [lineBreak_eq]

theorem laidOut_comma {d : Nat} {cs : List Char} :
    laidOut false d (',' :: cs) = ',' :: newLine d ++ laidOut false d cs := by
  conv => lhs; unfold laidOut
  simp [lineBreak_eq]

theorem laidOut_colon {d : Nat} {cs : List Char} : laidOut false d (':' :: cs) = ':' :: ' ' :: laidOut false d cs := by
  conv => lhs; unfold laidOut
  simp

theorem laidOut_chars {d : Nat} (s : List Char) (rest : List Char) :
    laidOut true d (s.flatMap escapeChar ++ rest) = s.flatMap escapeChar ++ laidOut true d rest := by
  induction s with
  | nil => rfl
  | cons c s ih =>
    rw [List.flatMap_cons, List.append_assoc]
    have esc : ∀ (x : Char) (cs : List Char), laidOut true d ('\\' :: x :: cs) = '\\' :: x :: laidOut true d cs := by
      intro x cs; rw [laidOut]
    have hex : ∀ n < 32, ∀ cs, laidOut true d (digitChar (n / 16) :: digitChar (n % 16) :: cs) =
        digitChar (n / 16) :: digitChar (n % 16) :: laidOut true d cs := by
      intro n hn cs
      have : ∀ n < 16, digitChar n ≠ '\\' ∧ digitChar n ≠ '"' := by decide
      rw [laidOut_quoted (this _ (by omega)).1 (this _ (by omega)).2, laidOut_quoted (this _ (by omega)).1 (this _ (by omega)).2]
    have zero : ∀ cs, laidOut true d ('0' :: cs) = '0' :: laidOut true d cs :=
      fun cs => laidOut_quoted (by decide) (by decide)
    suffices h : ∀ cs, laidOut true d (escapeChar c ++ cs) = escapeChar c ++ laidOut true d cs by rw [h, ih, List.append_assoc]
    intro cs
    unfold escapeChar
    repeat' split
    all_goals simp only [List.cons_append, List.nil_append, esc, zero]
    · rw [hex _ (by assumption)]
    · rw [laidOut_quoted (by assumption) (by assumption)]

theorem laidOut_string {d : Nat} (s : String) (rest : List Char) :
    laidOut false d (stringText s ++ rest) = stringText s ++ laidOut false d rest := by
  simp only [stringText, List.cons_append, List.append_assoc, List.nil_append]
  have : ∀ q cs, laidOut q d ('"' :: cs) = '"' :: laidOut (!q) d cs := by intro q cs; rw [laidOut]
  rw [this]
  simp only [Bool.not_false]
  rw [laidOut_chars, this]
  simp

theorem laidOut_number {d : Nat} {cs : List Char} (h : ∀ c ∈ cs, c.isDigit = true ∨ c ∈ ['+', '-', '.', 'e', 'E'])
    (rest : List Char) : laidOut false d (cs ++ rest) = cs ++ laidOut false d rest := by
  induction cs with
  | nil => rfl
  | cons c cs ih =>
    rw [List.cons_append, laidOut_plain, ih fun x hx => h x (List.mem_cons_of_mem _ hx)]; rfl
    intro hc
    have := h c (by simp)
    simp only [List.mem_cons, List.not_mem_nil, or_false] at hc
    rcases hc with rfl | rfl | rfl | rfl | rfl | rfl | rfl | rfl <;> revert this <;> decide

theorem number_chars {x : JNum} (h : x.Kept fl) : ∀ c ∈ x.text fl, c.isDigit = true ∨ c ∈ ['+', '-', '.', 'e', 'E'] := by
  have dig : ∀ {ds : List Char}, IsDigits ds → ∀ c ∈ ds, c.isDigit = true := fun h => (isDigits_iff.1 h).2
  cases x with
  | pos n => exact fun c hc => .inl ((decimal_digits n).2.1 c hc)
  | neg n =>
    intro c hc
    rcases List.mem_cons.1 hc with rfl | hc
    · simp
    · exact .inl ((decimal_digits _).2.1 c hc)
  | float f =>
    obtain ⟨sign, ds, fr, ex, e, hs, hi, hf, he, -, -⟩ := h
    intro c hc
    rw [JNum.text, e] at hc
    simp only [List.mem_append] at hc
    rcases hc with ((hc | hc) | hc) | hc
    · simp only [List.mem_cons, List.not_mem_nil, or_false] at hs
      rcases hs with rfl | rfl <;> simp_all
    · exact .inl (dig hi.1 c hc)
    · rcases hf with rfl | ⟨ds, rfl, hd⟩
      · cases hc
      · rcases List.mem_cons.1 hc with rfl | hc
        · simp
        · exact .inl (dig hd c hc)
    · rcases he with rfl | ⟨e, sg, ds, rfl, h1, h2, hd⟩
      · cases hc
      · simp only [List.cons_append, List.mem_cons, List.mem_append] at hc
        simp only [List.mem_cons, List.not_mem_nil, or_false] at h1 h2
        rcases hc with rfl | hc | hc
        · rcases h1 with rfl | rfl <;> simp
        · rcases h2 with rfl | rfl | rfl <;> simp_all
        · exact .inl (dig hd c hc)

theorem compact_head {j : Json} (h : j.NumbersKept fl) : ∃ c cs, j.compact fl = c :: cs ∧ c ≠ ']' := by
  have := valueText_head (compact_text j h)
  obtain ⟨c, cs, e, -, hc⟩ := this
  exact ⟨c, cs, e, by rintro rfl; revert hc; simp⟩

theorem laidOut_compact (j : Json) : ∀ (d : Nat) (rest : List Char), j.NumbersKept fl →
    laidOut false d (j.compact fl ++ rest) = j.pretty fl d ++ laidOut false d rest := by
  induction j using Json.ind with
  | hnull => intro d rest _; simp [Json.compact, Json.pretty, laidOut_plain]
  | hbool b => intro d rest _; cases b <;> simp [Json.compact, Json.pretty, laidOut_plain]
  | hnum n => exact fun d rest h => laidOut_number (number_chars (h n .here)) rest
  | hstr s => exact fun d rest _ => laidOut_string s rest
  | harr l ih =>
    intro d rest h
    cases l with
    | nil => simp [Json.compact, Json.pretty, laidOut]
    | cons j l =>
      have hk : ∀ x ∈ j :: l, x.NumbersKept fl := fun x hx n hn => h n (.element hx hn)
      have tail : ∀ l' : List Json, (∀ x ∈ l', x ∈ j :: l) →
          laidOut false (d + 1) (Json.compactList fl l' ++ rest) = Json.prettyList fl d l' ++ laidOut false d rest := by
        intro l' hl
        induction l' with
        | nil => simp [Json.compactList, Json.prettyList, laidOut_close]
        | cons x l' ihl =>
          rw [Json.compactList, Json.prettyList, List.append_assoc, List.cons_append, laidOut_comma,
            ih x (hl x (by simp)) _ _ (hk x (hl x (by simp))), ihl fun y hy => hl y (List.mem_cons_of_mem _ hy)]
          simp
      rw [Json.compact, Json.pretty, List.append_assoc, List.cons_append]
      obtain ⟨c, cs, e, hc⟩ := compact_head (hk j (by simp))
      have := laidOut_open (d := d) (a := '[') (by simp) hc (cs := cs ++ (Json.compactList fl l ++ rest))
      rw [e, List.cons_append, this, ← List.cons_append, ← e, ih j (by simp) _ _ (hk j (by simp)), tail l fun x hx => List.mem_cons_of_mem _ hx]
      simp
  | hobj m ih =>
    intro d rest h
    cases m with
    | nil => simp [Json.compact, Json.pretty, laidOut]
    | cons kv m =>
      obtain ⟨k, j⟩ := kv
      have hk : ∀ x ∈ (k, j) :: m, x.2.NumbersKept fl := fun x hx n hn => h n (.member hx hn)
      have tail : ∀ m' : List (String × Json), (∀ x ∈ m', x ∈ (k, j) :: m) →
          laidOut false (d + 1) (Json.compactMembers fl m' ++ rest) = Json.prettyMembers fl d m' ++ laidOut false d rest := by
        intro m' hl
        induction m' with
        | nil => simp [Json.compactMembers, Json.prettyMembers, laidOut_close]
        | cons x m' ihl =>
          obtain ⟨k', j'⟩ := x
          have e1 := ih (k', j') (hl _ (by simp)) (d + 1) (Json.compactMembers fl m' ++ rest) (hk _ (hl _ (by simp)))
          have e2 := ihl fun y hy => hl y (List.mem_cons_of_mem _ hy)
          simp only [Json.compactMembers, Json.prettyMembers, List.append_assoc, List.cons_append, laidOut_comma,
            laidOut_string, laidOut_colon] at e1 ⊢
          rw [e1, e2]
      have e1 := ih (k, j) (by simp) (d + 1) (Json.compactMembers fl m ++ rest) (hk _ (by simp))
      have e2 := tail m fun x hx => List.mem_cons_of_mem _ hx
      have e3 := laidOut_open (d := d) (a := '{') (b := '}') (c := '"') (by simp) (by decide)
        (cs := k.toList.flatMap escapeChar ++ ['"'] ++ (':' :: (j.compact fl ++ (Json.compactMembers fl m ++ rest))))
      have e4 : ∀ r, '"' :: (k.toList.flatMap escapeChar ++ ['"'] ++ r) = stringText k ++ r := by intro r; simp [stringText]
      rw [e4, laidOut_string, laidOut_colon, e1, e2] at e3
      rw [Json.compact, Json.pretty]
      simpa [List.append_assoc] using e3

end Wot
