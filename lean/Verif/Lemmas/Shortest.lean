import Verif.Lemmas.Layout
/- No text of a tree is shorter than the compact one. -/
namespace Wot
variable {fl : FloatText}

theorem denote_lt {ds : List Char} {n : Nat} (h : DigitsDenote ds n) : n < 10 ^ ds.length := by
  induction h with
  | nil => decide
  | snoc hd _ ih => rw [List.length_append, List.length_singleton, Nat.pow_succ]; omega

theorem decimal_length (n : Nat) : ∀ L, 1 ≤ L → n < 10 ^ L → (decimal n).length ≤ L := by
  induction n using Nat.strongRecOn with
  | _ n ih =>
    intro L hL hn
    unfold decimal
    split
    · exact hL
    · cases L with
      | zero => omega
      | succ L =>
        rw [Nat.pow_succ] at hn
        have h1 : 1 ≤ L := by
          cases L with
          | zero => simp at hn; omega
          | succ L => omega
        have := ih (n / 10) (by omega) L h1 (by omega)
        simp only [List.length_append, List.length_singleton]
        omega

theorem integer_shortest {ds : List Char} {n : Nat} (hi : IsInteger ds) (hd : DigitsDenote ds n) :
    (decimal n).length ≤ ds.length := by
  have : 1 ≤ ds.length := by
    cases ds with
    | nil => exact absurd rfl hi.1.1
    | cons d r => simp
  exact decimal_length n _ this (denote_lt hd)

theorem char_shortest {c : Char} {cs : List Char} (h : CharText c cs) : (escapeChar c).length ≤ cs.length := by
  have six : (escapeChar c).length ≤ 6 := by unfold escapeChar; repeat' split
                                             all_goals simp
  have hex : ∀ {hex n}, HexDigits hex n → hex.length = 4 := by
    rintro hex n ⟨_, _, _, _, _, _, _, _, rfl, _⟩; rfl
  cases h with
  | plain h1 h2 h3 =>
    have : escapeChar c = [c] := by
      unfold escapeChar
      rw [if_neg h2, if_neg h3, if_neg (by omega), if_neg (by omega), if_neg (by omega), if_neg (by omega),
        if_neg (by omega), if_neg (by omega)]
    rw [this]; simp
  | short h =>
    simp only [shortEscapes, List.mem_cons, List.not_mem_nil, or_false, Prod.mk.injEq] at h
    rcases h with ⟨rfl, rfl⟩ | ⟨rfl, rfl⟩ | ⟨rfl, rfl⟩ | ⟨rfl, rfl⟩ | ⟨rfl, rfl⟩ | ⟨rfl, rfl⟩ | ⟨rfl, rfl⟩ | ⟨rfl, rfl⟩ <;>
      decide
  | number h => have := hex h; simp only [List.length_cons]; omega
  | pair _ _ h1 h2 _ =>
    have := hex h1; have := hex h2
    simp only [List.cons_append, List.length_cons, List.length_append]; omega

theorem chars_shortest {s cs : List Char} (h : CharsText s cs) : (s.flatMap escapeChar).length ≤ cs.length := by
  induction h with
  | nil => simp
  | cons h _ ih =>
    have := char_shortest h
    simp only [List.flatMap_cons, List.length_append]; omega

theorem string_shortest {s : String} {cs : List Char} (h : StringText s cs) : (stringText s).length ≤ cs.length := by
  obtain ⟨cs, h, rfl⟩ := h
  have := chars_shortest h
  simp only [stringText, List.cons_append, List.length_cons, List.length_append]; omega

mutual
theorem value_shortest {j : Json} {cs : List Char} (h : ValueText fl j cs) (hf : j.FloatsShortest fl) :
    (j.compact fl).length ≤ cs.length := by
  cases h with
  | null => exact Nat.le_refl _
  | true => exact Nat.le_refl _
  | false => exact Nat.le_refl _
  | num h =>
    rename_i n
    cases n with
    | pos n => cases h with | pos hi hd _ => exact integer_shortest hi hd
    | neg n =>
      cases h with
      | neg hi hd _ => have := integer_shortest hi hd; simp only [Json.compact, JNum.text, List.length_cons]; omega
    | float f => exact hf f .here _ h
  | str h => exact string_shortest h
  | empty => simp [Json.compact]
  | emptyObj => simp [Json.compact]
  | arr h =>
    have := elements_shortest h fun x hx f hn => hf f (.element hx hn)
    rw [Json.compactList] at this
    simp only [Json.compact, List.cons_append, List.length_cons, List.length_append] at this ⊢
    simp only [List.length_nil]; omega
  | obj h =>
    have := members_shortest h fun x hx f hn => hf f (.member hx hn)
    rw [Json.compactMembers] at this
    simp only [Json.compact, List.cons_append, List.length_cons, List.length_append] at this ⊢
    simp only [List.length_nil]; omega
theorem elements_shortest {l : List Json} {cs : List Char} (h : ElementsText fl l cs)
    (hf : ∀ x ∈ l, x.FloatsShortest fl) : (Json.compactList fl l).length ≤ cs.length + 2 := by
  cases h with
  | one _ h _ =>
    have := value_shortest h (hf _ (by simp))
    simp only [Json.compactList, List.cons_append, List.length_cons, List.length_append, List.length_nil]; omega
  | cons _ h _ hl =>
    have := value_shortest h (hf _ (by simp))
    have := elements_shortest hl fun x hx => hf x (List.mem_cons_of_mem _ hx)
    rw [Json.compactList]
    simp only [List.cons_append, List.length_cons, List.length_append]; omega
theorem members_shortest {m : List (String × Json)} {cs : List Char} (h : MembersText fl m cs)
    (hf : ∀ x ∈ m, x.2.FloatsShortest fl) : (Json.compactMembers fl m).length ≤ cs.length + 2 := by
  cases h with
  | one _ hk _ _ h _ =>
    have := value_shortest h (hf (_, _) (List.mem_cons_self ..))
    have := string_shortest hk
    simp only [Json.compactMembers, List.cons_append, List.length_cons, List.length_append, List.length_nil]; omega
  | cons _ hk _ _ h _ hl =>
    have := value_shortest h (hf (_, _) (List.mem_cons_self ..))
    have := string_shortest hk
    have := members_shortest hl fun x hx => hf x (List.mem_cons_of_mem _ hx)
    rw [Json.compactMembers]
    simp only [List.cons_append, List.length_cons, List.length_append]; omega
end

/-! ### One line -/

/-- Not a control character. -/
def Visible (cs : List Char) : Prop := ∀ c ∈ cs, 32 ≤ c.toNat

theorem Visible.append {a b : List Char} (ha : Visible a) (hb : Visible b) : Visible (a ++ b) :=
  fun c hc => (List.mem_append.1 hc).elim (ha c) (hb c)

theorem Visible.cons {c : Char} {b : List Char} (hc : 32 ≤ c.toNat) (hb : Visible b) : Visible (c :: b) := by
  intro x hx; rcases List.mem_cons.1 hx with rfl | hx
  · exact hc
  · exact hb x hx

theorem visible_string (s : String) : Visible (stringText s) := by
  have : Visible (s.toList.flatMap escapeChar) := by
    intro x hx
    obtain ⟨c, -, hx⟩ := List.mem_flatMap.1 hx
    have hex : ∀ n < 16, 32 ≤ (digitChar n).toNat := by decide
    unfold escapeChar at hx
    repeat' split at hx
    all_goals simp only [List.mem_cons, List.not_mem_nil, or_false] at hx
    all_goals first
      | (rcases hx with rfl | rfl <;> decide)
      | (rcases hx with rfl | rfl | rfl | rfl | rfl | rfl <;> first | decide | exact hex _ (by omega))
      | (subst hx; omega)
  exact Visible.cons (by decide) (this.append (Visible.cons (by decide) nofun))

theorem visible_number {x : JNum} (h : x.Kept fl) : Visible (x.text fl) := by
  intro c hc
  rcases number_chars h c hc with h | h
  · obtain ⟨d, hd, rfl⟩ := isDigit_iff.1 h
    exact (by decide : ∀ d < 10, 32 ≤ (Char.ofNat ('0'.toNat + d)).toNat) d hd
  · simp only [List.mem_cons, List.not_mem_nil, or_false] at h
    rcases h with rfl | rfl | rfl | rfl | rfl <;> decide

theorem visible_compact (j : Json) : j.NumbersKept fl → Visible (j.compact fl) := by
  induction j using Json.ind with
  | hnull => intro _; simp [Json.compact, Visible]
  | hbool b => intro _; cases b <;> simp [Json.compact, Visible]
  | hnum n => exact fun h => visible_number (h n .here)
  | hstr s => exact fun _ => visible_string s
  | harr l ih =>
    intro h
    have tail : ∀ l' : List Json, (∀ x ∈ l', x ∈ l) → Visible (Json.compactList fl l') := by
      intro l' hl
      induction l' with
      | nil => simp [Json.compactList, Visible]
      | cons x l' ihl =>
        rw [Json.compactList]
        exact (Visible.cons (by decide) (ih x (hl x (by simp)) fun n hn => h n (.element (hl x (by simp)) hn))).append
          (ihl fun y hy => hl y (List.mem_cons_of_mem _ hy))
    cases l with
    | nil => simp [Json.compact, Visible]
    | cons j l =>
      rw [Json.compact]
      exact (Visible.cons (by decide) (ih j (by simp) fun n hn => h n (.element (by simp) hn))).append
        (tail l fun x hx => List.mem_cons_of_mem _ hx)
  | hobj m ih =>
    intro h
    have one : ∀ k j, (k, j) ∈ m → ∀ c : Char, 32 ≤ c.toNat → Visible (c :: stringText k ++ ':' :: j.compact fl) :=
      fun k j hk c hc => (Visible.cons hc (visible_string k)).append
        (Visible.cons (by decide) (ih (k, j) hk fun n hn => h n (.member hk hn)))
    have tail : ∀ m' : List (String × Json), (∀ x ∈ m', x ∈ m) → Visible (Json.compactMembers fl m') := by
      intro m' hl
      induction m' with
      | nil => simp [Json.compactMembers, Visible]
      | cons x m' ihl =>
        obtain ⟨k, j⟩ := x
        rw [Json.compactMembers]
        exact (one k j (hl _ (by simp)) ',' (by decide)).append (ihl fun y hy => hl y (List.mem_cons_of_mem _ hy))
    cases m with
    | nil => simp [Json.compact, Visible]
    | cons x m =>
      obtain ⟨k, j⟩ := x
      rw [Json.compact]
      exact (one k j (by simp) '{' (by decide)).append (tail m fun x hx => List.mem_cons_of_mem _ hx)

end Wot
