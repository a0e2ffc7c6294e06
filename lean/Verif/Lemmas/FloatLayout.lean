import Verif.Lemmas.FloatWrite
import Verif.Lemmas.JsonString
/-
The texts of the decimal numbers of floats, and which floats are read again from them.
-/
namespace Wot

open FloatText F64

/-- The text of a decimal number that is not an integer. -/
structure LayoutOf (D : Decimal) (cs : List Char) : Prop where
  text : DecimalText D cs
  parts : ∃ ds fr ex, cs = ds ++ fr ++ ex ∧ IsInteger ds ∧ IsFraction fr ∧ IsExponent ex ∧ fr ++ ex ≠ []

theorem LayoutOf.point {ds fs ex : List Char} {n : Nat} {z : Int} (hi : IsInteger ds) (hf : IsDigits fs)
    (hd : DigitsDenote (ds ++ fs) n) (he : ExponentDenotes ex z) : LayoutOf ⟨n, z - fs.length⟩ (ds ++ '.' :: fs ++ ex) where
  text := .point hi hf hd he
  parts := ⟨ds, '.' :: fs, ex, rfl, hi, .inr ⟨fs, rfl, hf⟩, he.isExponent, by simp⟩

theorem LayoutOf.whole {ds ex : List Char} {n : Nat} {z : Int} (hi : IsInteger ds) (hd : DigitsDenote ds n)
    (he : ExponentDenotes ex z) (hne : ex ≠ []) : LayoutOf ⟨n, z⟩ (ds ++ ex) where
  text := .whole hi hd he
  parts := ⟨ds, [], ex, by simp, hi, .inl rfl, he.isExponent, by simpa using hne⟩

theorem foldl_zeros (n j : Nat) :
    (List.replicate j '0').foldl (fun n c => 10 * n + (c.toNat - 48)) n = n * 10^j := by
  induction j generalizing n with
  | zero => simp
  | succ j ih =>
    rw [List.replicate_succ, List.foldl_cons, ih, show '0'.toNat - 48 = 0 by decide, Nat.pow_succ]
    rw [Nat.add_zero, Nat.mul_comm 10 n, Nat.mul_assoc, Nat.mul_comm 10]

theorem denote_trailing {cs : List Char} {n : Nat} (j : Nat) (h : DigitsDenote cs n) (hd : ∀ c ∈ cs, c.isDigit = true) :
    DigitsDenote (cs ++ List.replicate j '0') (n * 10^j) := by
  have := denote_of_digits (cs ++ List.replicate j '0') fun c hc => by
    rcases List.mem_append.1 hc with hc | hc
    · exact hd c hc
    · rw [List.eq_of_mem_replicate hc]; decide
  rwa [show digitsValue (cs ++ List.replicate j '0') = n * 10^j by
    unfold digitsValue
    rw [List.foldl_append, foldl_eq, denote_value h, foldl_zeros]] at this

theorem denote_leading {cs : List Char} {n : Nat} (j : Nat) (h : DigitsDenote cs n) (hd : ∀ c ∈ cs, c.isDigit = true) :
    DigitsDenote (List.replicate j '0' ++ cs) n := by
  have := denote_of_digits (List.replicate j '0' ++ cs) fun c hc => by
    rcases List.mem_append.1 hc with hc | hc
    · rw [List.eq_of_mem_replicate hc]; decide
    · exact hd c hc
  rwa [show digitsValue (List.replicate j '0' ++ cs) = n by
    unfold digitsValue
    rw [List.foldl_append, foldl_zeros, Nat.zero_mul, foldl_eq, denote_value h]] at this

theorem exponentText_denotes (e : Int) : ExponentDenotes ('e' :: exponentText e) e := by
  obtain ⟨hi, hd⟩ := decimal_integer e.natAbs
  unfold exponentText
  by_cases h : e < 0
  · rw [if_pos h]
    have := ExponentDenotes.minus (e := 'e') (by simp) hi.1 hd
    rwa [show -(e.natAbs : Int) = e by omega] at this
  · rw [if_neg h]
    have := ExponentDenotes.plus (e := 'e') (sign := []) (by simp) (by simp) hi.1 hd
    rwa [show (e.natAbs : Int) = e by omega] at this

theorem exponentText_length {e : Int} (h : e.natAbs < 10^3) : (exponentText e).length ≤ 4 := by
  have := decimal_length e.natAbs 3 (by decide) h
  unfold exponentText
  split <;> simp <;> omega

/-- What `format64` writes. -/
theorem layout_text {c : Nat} (hc : 0 < c) (k : Int) :
    if 0 ≤ k ∧ ((decimal c).length : Int) + k ≤ 16 then LayoutOf ⟨c * 10^(k.toNat + 1), -1⟩ (layout c k)
    else LayoutOf ⟨c, k⟩ (layout c k) := by
  obtain ⟨hi, hd⟩ := decimal_integer c
  obtain ⟨hne, hall⟩ := isDigits_iff.1 hi.1
  have hhead : (decimal c).head? ≠ some '0' := by
    intro h
    have := hi.2 h
    rw [this] at hd
    have := denote_value hd
    have e : digitsValue ['0'] = 0 := by decide
    omega
  have hlen : 0 < (decimal c).length := List.length_pos_iff.2 hne
  unfold layout
  dsimp only
  generalize decimal c = ds at *
  have lead : ∀ j, 0 < j → IsInteger (ds.take j) := by
    intro j hj
    refine ⟨isDigits_iff.2 ⟨?_, fun x hx => hall x (List.mem_of_mem_take hx)⟩, fun h => ?_⟩
    · rw [← List.length_pos_iff, List.length_take]; omega
    · rw [List.head?_take, if_neg (by omega)] at h
      exact absurd h hhead
  have rest : ∀ j, j < ds.length → IsDigits (ds.drop j) := fun j hj =>
    isDigits_iff.2 ⟨by rw [← List.length_pos_iff, List.length_drop]; omega, fun x hx => hall x (List.mem_of_mem_drop hx)⟩
  split
  · next h =>
    have hz := denote_trailing (k.toNat + 1) hd hall
    have := LayoutOf.point (ds := ds ++ List.replicate k.toNat '0') (fs := ['0']) (ex := []) (n := c * 10^(k.toNat + 1)) (z := 0)
      ⟨isDigits_iff.2 ⟨by simp [hne], fun x hx => by
        rcases List.mem_append.1 hx with hx | hx
        · exact hall x hx
        · rw [List.eq_of_mem_replicate hx]; decide⟩, fun h => by
          obtain ⟨d, r, rfl⟩ := List.exists_cons_of_ne_nil hne
          simp only [List.cons_append, List.head?_cons] at h
          exact absurd h hhead⟩
      (isDigits_iff.2 ⟨by simp, by simp⟩)
      (by rw [List.append_assoc, ← List.replicate_succ']; exact hz) .none
    simpa using this
  · next h1 =>
    split
    · next h =>
      have hk : (ds.length : Int) + k = ((ds.length + k).toNat : Int) := by omega
      generalize hj : (ds.length + k).toNat = j at *
      have := LayoutOf.point (ds := ds.take j) (fs := ds.drop j) (ex := []) (n := c) (z := 0) (lead j (by omega))
        (rest j (by omega)) (by rwa [List.take_append_drop]) .none
      rw [List.length_drop, show (0 : Int) - ((ds.length - j : Nat) : Int) = k by omega, List.append_nil] at this
      exact this
    · next h2 =>
      split
      · next h =>
        have hk : (ds.length : Int) + k = -((-(ds.length + k)).toNat : Int) := by omega
        generalize hj : (-(ds.length + k)).toNat = j at *
        have := LayoutOf.point (ds := ['0']) (fs := List.replicate j '0' ++ ds) (ex := []) (n := c) (z := 0)
          ⟨isDigits_iff.2 ⟨by simp, by simp⟩, fun _ => rfl⟩
          (isDigits_iff.2 ⟨by simp [hne], fun x hx => by
            rcases List.mem_append.1 hx with hx | hx
            · rw [List.eq_of_mem_replicate hx]; decide
            · exact hall x hx⟩)
          (denote_leading (j + 1) hd hall) .none
        rw [List.length_append, List.length_replicate,
          show (0 : Int) - ((j + ds.length : Nat) : Int) = k by omega, List.append_nil] at this
        exact this
      · next h3 =>
        split
        · next h =>
          have := LayoutOf.whole hi hd (exponentText_denotes (ds.length + k - 1)) (by simp)
          rw [show (ds.length : Int) + k - 1 = k by omega] at *
          exact this
        · next h =>
          have := LayoutOf.point (ds := ds.take 1) (fs := ds.drop 1) (n := c) (lead 1 (by omega)) (rest 1 (by omega))
            (by rwa [List.take_append_drop]) (exponentText_denotes (ds.length + k - 1))
          rw [List.length_drop, show (ds.length : Int) + k - 1 - ((ds.length - 1 : Nat) : Int) = k by omega] at this
          exact this

theorem layout_length {c : Nat} {k : Int} (hc : c < 10^18) (h1 : -330 ≤ k) (h2 : k ≤ 310) : (layout c k).length < 2^30 := by
  have hl := decimal_length c 18 (by decide) hc
  unfold layout
  dsimp only
  have he := exponentText_length (e := ((decimal c).length : Int) + k - 1) (by omega)
  repeat' split
  all_goals simp only [List.length_append, List.length_cons, List.length_replicate, List.length_nil, List.length_take, List.length_drop]
  all_goals omega

end Wot
