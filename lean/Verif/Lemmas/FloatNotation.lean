import Verif.Lemmas.FloatBack
/-
How floats are written.
-/
namespace Wot

open FloatText F64

theorem decimal_last {c : Nat} (h : c % 10 ≠ 0) : (decimal c).getLast? ≠ some '0' := by
  have hd : ∀ d < 10, d ≠ 0 → digitChar d ≠ '0' := by decide
  unfold decimal
  split
  · next hlt =>
    rw [List.getLast?_singleton]
    intro e
    exact hd c hlt (by omega) (Option.some.inj e)
  · rw [List.getLast?_append, List.getLast?_singleton]
    intro e
    exact hd (c % 10) (Nat.mod_lt _ (by decide)) h (Option.some.inj e)

theorem decimal_bounds {c : Nat} (hc : 0 < c) : 10^((decimal c).length - 1) ≤ c ∧ c < 10^(decimal c).length := by
  refine ⟨?_, denote_lt (decimal_integer c).2⟩
  by_cases h1 : (decimal c).length ≤ 1
  · rw [show (decimal c).length - 1 = 0 by omega]; exact hc
  · by_cases h : 10^((decimal c).length - 1) ≤ c
    · exact h
    · have := decimal_length c ((decimal c).length - 1) (by omega) (by omega)
      omega

theorem last_drop {ds : List Char} {j : Nat} (h : j < ds.length) : (ds.drop j).getLast? = ds.getLast? := by
  rw [List.getLast?_drop, if_neg (by omega)]

theorem last_append_ne {as ds : List Char} (h : ds ≠ []) : (as ++ ds).getLast? = ds.getLast? := by
  rw [List.getLast?_append]
  cases e : ds.getLast? with
  | none => exact absurd (List.getLast?_eq_none_iff.1 e) h
  | some _ => rfl

theorem exponentText_form (e : Int) : IsInteger (exponentText e) ∨ ∃ n, exponentText e = '-' :: n ∧ IsInteger n := by
  have := (decimal_integer e.natAbs).1
  unfold exponentText
  split
  · exact .inr ⟨_, rfl, this⟩
  · exact .inl this

/-- The notation depends on the place of the point. -/
theorem layout_notation {c : Nat} {k : Int} (hc : 0 < c) (h10 : c % 10 ≠ 0) :
    (-5 < ((decimal c).length : Int) + k ∧ ((decimal c).length : Int) + k ≤ 16 → PlainText (layout c k)) ∧
    (¬ (-5 < ((decimal c).length : Int) + k ∧ ((decimal c).length : Int) + k ≤ 16) → ScientificText (layout c k)) := by
  obtain ⟨hi, hd⟩ := decimal_integer c
  obtain ⟨hne, hall⟩ := isDigits_iff.1 hi.1
  have hlast := decimal_last h10
  have hhead : (decimal c).head? ≠ some '0' := by
    intro h
    have := hi.2 h
    rw [this] at hd
    have := denote_value hd
    have e : digitsValue ['0'] = 0 := by decide
    omega
  have hlen : 0 < (decimal c).length := List.length_pos_iff.2 hne
  unfold layout
  dsimp only
  generalize decimal c = ds at *
  have lead : ∀ j, 0 < j → IsInteger (ds.take j) := by
    intro j hj
    refine ⟨isDigits_iff.2 ⟨?_, fun x hx => hall x (List.mem_of_mem_take hx)⟩, fun h => ?_⟩
    · rw [← List.length_pos_iff, List.length_take]; omega
    · rw [List.head?_take, if_neg (by omega)] at h
      exact absurd h hhead
  have rest : ∀ j, j < ds.length → IsDigits (ds.drop j) := fun j hj =>
    isDigits_iff.2 ⟨by rw [← List.length_pos_iff, List.length_drop]; omega, fun x hx => hall x (List.mem_of_mem_drop hx)⟩
  constructor
  · intro h
    split
    · refine ⟨ds ++ List.replicate k.toNat '0', ['0'], rfl, ⟨isDigits_iff.2 ⟨by simp [hne], fun x hx => ?_⟩, fun h => ?_⟩,
        isDigits_iff.2 ⟨by simp, by simp⟩, .inl rfl⟩
      · rcases List.mem_append.1 hx with hx | hx
        · exact hall x hx
        · rw [List.eq_of_mem_replicate hx]; decide
      · obtain ⟨d, r, rfl⟩ := List.exists_cons_of_ne_nil hne
        simp only [List.cons_append, List.head?_cons] at h
        exact absurd h hhead
    · next h1 =>
      split
      · next h2 =>
        refine ⟨_, _, rfl, lead _ (by omega), rest _ (by omega), .inr ?_⟩
        rw [last_drop (by omega)]
        exact hlast
      · rw [if_pos (by omega)]
        refine ⟨['0'], List.replicate (-(ds.length + k)).toNat '0' ++ ds, rfl, ⟨isDigits_iff.2 ⟨by simp, by simp⟩, fun _ => rfl⟩,
          isDigits_iff.2 ⟨by simp [hne], fun x hx => ?_⟩, .inr ?_⟩
        · rcases List.mem_append.1 hx with hx | hx
          · rw [List.eq_of_mem_replicate hx]; decide
          · exact hall x hx
        · rw [last_append_ne hne]; exact hlast
  · intro h
    rw [if_neg (by omega), if_neg (by omega), if_neg (by omega)]
    obtain ⟨d, r, rfl⟩ := List.exists_cons_of_ne_nil hne
    have h1 : IsDigits [d] := isDigits_iff.2 ⟨by simp, fun x hx => by
      rw [List.mem_singleton.1 hx]; exact hall d (List.mem_cons_self ..)⟩
    have h2 : d ≠ '0' := fun e => hhead (by rw [e]; rfl)
    split
    · next hl =>
      have : r = [] := List.eq_nil_of_length_eq_zero (by rw [List.length_cons] at hl; omega)
      subst this
      exact ⟨d, [], _, rfl, h1, h2, .inl rfl, exponentText_form _⟩
    · next hl =>
      rw [List.length_cons] at hl
      refine ⟨d, '.' :: r, _, rfl, h1, h2, .inr ⟨r, rfl, ?_, ?_⟩, exponentText_form _⟩
      · exact rest 1 (by rw [List.length_cons]; omega)
      · have := last_drop (ds := d :: r) (j := 1) (by rw [List.length_cons]; omega)
        rw [show List.drop 1 (d :: r) = r from rfl] at this
        rw [this]; exact hlast

theorem plain_iff {c : Nat} {k : Int} (hc : 0 < c) :
    (Decimal.mk c k).Plain ↔ -5 < ((decimal c).length : Int) + k ∧ ((decimal c).length : Int) + k ≤ 16 := by
  obtain ⟨h1, h2⟩ := decimal_bounds hc
  have hlen : 0 < (decimal c).length := List.length_pos_iff.2 (decimal_digits c).1
  generalize (decimal c).length = L at *
  have hp : ∀ {a b : Nat}, a ≤ b → 10^a ≤ 10^b := fun h => Nat.pow_le_pow_right (by decide) h
  have hq : 0 < 10^k.toNat := Nat.pow_pos (by decide)
  have lo := Nat.mul_le_mul_right (10^k.toNat) h1
  have hi := Nat.mul_lt_mul_of_pos_right h2 hq
  rw [← Nat.pow_add] at lo hi
  have lo5 := Nat.mul_le_mul_right (10^5) lo
  have hi5 := Nat.mul_lt_mul_of_pos_right hi (show 0 < 10^5 by decide)
  rw [← Nat.pow_add] at lo5 hi5
  show (10^(-k).toNat ≤ c * 10^k.toNat * 10^5 ∧ c * 10^k.toNat < 10^16 * 10^(-k).toNat) ↔ _
  rw [← Nat.pow_add]
  constructor
  · rintro ⟨a, b⟩
    constructor
    · by_cases h : -5 < (L : Int) + k
      · exact h
      · have := @hp (L + k.toNat + 5) (-k).toNat (by omega)
        omega
    · by_cases h : (L : Int) + k ≤ 16
      · exact h
      · have := @hp (16 + (-k).toNat) (L - 1 + k.toNat) (by omega)
        omega
  · rintro ⟨a, b⟩
    have e1 := @hp (-k).toNat (L - 1 + k.toNat + 5) (by omega)
    have e2 := @hp (L + k.toNat) (16 + (-k).toNat) (by omega)
    omega

/-- The shortest decimal number does not end with a zero. -/
theorem shortest_last {m c : Nat} {k : Int} (hr : RoundsTo m c k) (hmax : ∀ k', k < k' → ∀ c', ¬ RoundsTo m c' k') : c % 10 ≠ 0 := by
  intro h
  obtain ⟨c', rfl⟩ : ∃ c', c = c' * 10 := ⟨c / 10, by omega⟩
  have e : (Decimal.mk (c' * 10) k).num * (Decimal.mk c' (k + 1)).den = (Decimal.mk c' (k + 1)).num * (Decimal.mk (c' * 10) k).den := by
    show c' * 10 * 10^k.toNat * 2^1074 * 10^(-(k + 1)).toNat = c' * 10^(k + 1).toNat * 2^1074 * 10^(-k).toNat
    rw [mul_right_swap _ (2^1074), mul_right_swap _ (2^1074)]
    refine congrArg (· * 2^1074) ?_
    show c' * 10 * 10^k.toNat * 10^(-(k + 1)).toNat = c' * 10^(k + 1).toNat * 10^(-k).toNat
    rw [Nat.mul_assoc, Nat.mul_assoc, Nat.mul_assoc c', Nat.mul_comm 10, ← Nat.pow_add, ← Nat.pow_add, ← Nat.pow_succ]
    exact congrArg (c' * 10 ^ ·) (by omega)
  exact hmax (k + 1) (by omega) c' (Rounds.between (Decimal.mk (c' * 10) k).den_pos (Decimal.mk (c' * 10) k).den_pos
    (Decimal.mk c' (k + 1)).den_pos hr hr (Nat.le_of_eq e) (Nat.le_of_eq e.symm))

end Wot
