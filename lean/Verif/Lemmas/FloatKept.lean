import Verif.Lemmas.FloatLayout
/-
The floats nearest to short decimal numbers are read again from what is written for them.
-/
namespace Wot

open FloatText F64

/-- The relative distance of a normal number to the next. -/
theorem magUnits_next {m : Nat} (h : 2^52 ≤ m) : (magUnits (m + 1) - magUnits m) * 2^52 ≤ magUnits m := by
  have he : 0 < m / 2^52 := Nat.div_pos h (by decide)
  have hf : m % 2^52 < 2^52 := Nat.mod_lt _ (by decide)
  have hm : m / 2^52 * 2^52 + m % 2^52 = m := by have := Nat.div_add_mod m (2^52); rw [Nat.mul_comm]; exact this
  have h1 := magUnits_pattern (f := m % 2^52) he (by omega)
  have h2 := magUnits_pattern (f := m % 2^52 + 1) he (by omega)
  rw [hm] at h1
  rw [← Nat.add_assoc, hm] at h2
  rw [h1, h2, ← Nat.sub_mul, show 2^52 + (m % 2^52 + 1) - (2^52 + m % 2^52) = 1 by omega, Nat.one_mul, Nat.mul_comm]
  exact Nat.mul_le_mul_right _ (by omega)

theorem magUnits_prev {m : Nat} (h : 2^52 ≤ m) : (magUnits m - magUnits (m - 1)) * 2^52 ≤ magUnits m := by
  by_cases h1 : m = 2^52
  · rw [h1]; decide
  · have := magUnits_next (m := m - 1) (by omega)
    rw [show m - 1 + 1 = m by omega] at this
    exact Nat.le_trans this (magUnits_le_iff.2 (by omega))

theorem ratio_core {A B P Q n1 d1 n2 d2 : Nat} (key : A * P ≤ B * Q) (h2 : 2 * n2 ≤ A * d2) (h1 : B * d1 ≤ 2 * n1) :
    n2 * d1 * P ≤ n1 * d2 * Q := by
  have : 2 * (n2 * d1 * P) ≤ 2 * (n1 * d2 * Q) :=
    calc 2 * (n2 * d1 * P) = 2 * n2 * (d1 * P) := by ac_rfl
      _ ≤ A * d2 * (d1 * P) := Nat.mul_le_mul_right _ h2
      _ = A * P * (d2 * d1) := by ac_rfl
      _ ≤ B * Q * (d2 * d1) := Nat.mul_le_mul_right _ key
      _ = B * d1 * (d2 * Q) := by ac_rfl
      _ ≤ 2 * n1 * (d2 * Q) := Nat.mul_le_mul_right _ h1
      _ = 2 * (n1 * d2 * Q) := by ac_rfl
  omega

theorem gap_core {a b c P : Nat} (h1 : a < b) (h2 : b < c) (g1 : (c - b) * P ≤ b) (g2 : (b - a) * P ≤ b) (hP : 0 < P) :
    (b + c) * (P - 1) ≤ (a + b) * P := by
  obtain ⟨x, rfl⟩ : ∃ x, b = a + x := ⟨b - a, by omega⟩
  obtain ⟨y, rfl⟩ : ∃ y, c = a + x + y := ⟨c - (a + x), by omega⟩
  obtain ⟨Q, rfl⟩ : ∃ Q, P = Q + 1 := ⟨P - 1, by omega⟩
  rw [show a + x + y - (a + x) = y by omega] at g1
  rw [show a + x - a = x by omega] at g2
  rw [Nat.add_sub_cancel]
  simp only [Nat.add_mul, Nat.mul_add, Nat.mul_one] at *
  omega

/-- Numbers that are rounded to the same normal number are close. -/
theorem Rounds.ratio {n1 d1 n2 d2 m : Nat} (hm : 2^52 ≤ m) (h1 : Rounds n1 d1 m) (h2 : Rounds n2 d2 m) :
    n2 * d1 * (2^52 - 1) ≤ n1 * d2 * 2^52 :=
  ratio_core (gap_core (magUnits_lt (by omega)) (magUnits_succ m) (magUnits_next hm) (magUnits_prev hm) (by decide)) h2.high h1.low

/-- Numbers that are at least one are rounded to normal numbers. -/
theorem Rounds.normal {n d m : Nat} (hd : 0 < d) (h : Rounds n d m) (hn : 2^1074 * d ≤ n) : 2^52 ≤ m := by
  by_cases hm : 2^52 ≤ m
  · exact hm
  · exfalso
    have h1 := h.high
    have h2 : (magUnits m + magUnits (m + 1)) * d ≤ 2^53 * d := by
      refine Nat.mul_le_mul_right d ?_
      rw [magUnits_small (by omega), magUnits_small (by omega)]
      omega
    have h3 : 2^53 * d < 2 * (2^1074 * d) := by
      rw [← Nat.mul_assoc]
      exact Nat.mul_lt_mul_of_pos_right (by decide +kernel) hd
    omega

/-- The decimal number that is written has no more digits than any other for the float. -/
theorem digits_le {m c d : Nat} {k j : Int} {L : Nat} (hL : 0 < L) (hr : RoundsTo m c k) (hmax : ∀ k', k < k' → ∀ c', ¬ RoundsTo m c' k')
    (hD : RoundsTo m d j) (hd : d < 10^L) : c < 10^L := by
  by_cases hc : c < 10^L
  · exact hc
  · exfalso
    have hj : j ≤ k := by
      by_cases hj : j ≤ k
      · exact hj
      · exact absurd hD (hmax j (by omega) d)
    obtain ⟨L, rfl⟩ : ∃ L', L = L' + 1 := ⟨L - 1, by omega⟩
    refine hmax (k + 1) (by omega) (10^L) (Rounds.between (Decimal.mk d j).den_pos (Decimal.mk c k).den_pos
      (Decimal.mk (10^L) (k + 1)).den_pos hD hr ?_ ?_)
    · show d * 10^j.toNat * 2^1074 * 10^(-(k + 1)).toNat ≤ 10^L * 10^(k + 1).toNat * 2^1074 * 10^(-j).toNat
      rw [mul_right_swap _ (2^1074), mul_right_swap _ (2^1074)]
      refine Nat.mul_le_mul_right _ ?_
      refine Nat.le_trans (Nat.mul_le_mul_right _ (Nat.mul_le_mul_right _ (Nat.le_of_lt hd))) ?_
      rw [← Nat.pow_add, ← Nat.pow_add, ← Nat.pow_add, ← Nat.pow_add]
      exact Nat.pow_le_pow_right (by decide) (by omega)
    · show 10^L * 10^(k + 1).toNat * 2^1074 * 10^(-k).toNat ≤ c * 10^k.toNat * 2^1074 * 10^(-(k + 1)).toNat
      rw [mul_right_swap _ (2^1074), mul_right_swap _ (2^1074)]
      refine Nat.mul_le_mul_right _ ?_
      refine Nat.le_trans ?_ (Nat.mul_le_mul_right _ (Nat.mul_le_mul_right _ (Nat.le_of_not_lt hc)))
      rw [← Nat.pow_add, ← Nat.pow_add, ← Nat.pow_add, ← Nat.pow_add]
      exact Nat.pow_le_pow_right (by decide) (by omega)

/-- The value of a decimal number that is an integer, compared with another for the same float. -/
theorem ratio_integer {m c d : Nat} {k j : Int} (hk : 0 ≤ k) (hc : 0 < c) (hr : RoundsTo m c k) (hD : RoundsTo m d j) :
    c * 10^k.toNat * 10^(-j).toNat * (2^52 - 1) ≤ d * 10^j.toNat * 2^52 ∧
    d * 10^j.toNat * (2^52 - 1) ≤ c * 10^k.toNat * 10^(-j).toNat * 2^52 := by
  have ht : 0 < 2^1074 := Nat.two_pow_pos _
  have hden : (Decimal.mk c k).den = 1 := by
    show 10^(-k).toNat = 1
    rw [show (-k).toNat = 0 by omega]
  have hm : 2^52 ≤ m := by
    refine Rounds.normal (Decimal.mk c k).den_pos hr ?_
    rw [hden, Nat.mul_one]
    exact Nat.le_mul_of_pos_left _ (Nat.mul_pos hc (Nat.pow_pos (by decide)))
  have r1 := Rounds.ratio hm hD hr
  have r2 := Rounds.ratio hm hr hD
  rw [hden, Nat.mul_one] at r1 r2
  have e1 : (Decimal.mk c k).num = c * 10^k.toNat * 2^1074 := rfl
  have e2 : (Decimal.mk d j).num = d * 10^j.toNat * 2^1074 := rfl
  have e3 : (Decimal.mk d j).den = 10^(-j).toNat := rfl
  rw [e1, e2, e3] at r1 r2
  generalize 2^1074 = T at *
  generalize c * 10^k.toNat = A at *
  generalize d * 10^j.toNat = B at *
  generalize 10^(-j).toNat = E at *
  constructor
  · refine Nat.le_of_mul_le_mul_right ?_ ht
    rw [mul_right_swap _ _ T, mul_right_swap B _ T, mul_right_swap A E T]
    exact r1
  · refine Nat.le_of_mul_le_mul_right ?_ ht
    rw [mul_right_swap _ _ T, mul_right_swap _ (2^52) T, mul_right_swap A E T]
    exact r2

theorem mul_cancel_le {a b e p q : Nat} (he : 0 < e) (h : a * e * p ≤ b) (hb : b ≤ q * e) : a * p ≤ q := by
  refine Nat.le_of_mul_le_mul_right ?_ he
  calc a * p * e = a * e * p := by ac_rfl
    _ ≤ b := h
    _ ≤ q * e := hb

/-- The decimal number written for the float nearest to a short one. -/
theorem short_written {m c : Nat} {k : Int} {D : Decimal} (hc : 0 < c) (hr : RoundsTo m c k)
    (hmax : ∀ k', k < k' → ∀ c', ¬ RoundsTo m c' k') (hs : D.Short) (hD : Rounds D.num D.den m) :
    c < 10^15 ∧ -22 ≤ k ∧ k ≤ 22 ∧ (0 ≤ k → ((decimal c).length : Int) + k ≤ 16 → c * 10^(k.toNat + 1) < 2^53) := by
  obtain ⟨d, j⟩ := D
  have h1 := digits_le (L := 15) (by decide) hr hmax hD hs.digits
  have hj : -22 ≤ j := hs.exponent
  have hjk : j ≤ k := by
    by_cases hj : j ≤ k
    · exact hj
    · exact absurd hD (hmax j (by omega) d)
  refine ⟨h1, by omega, ?_, ?_⟩
  · by_cases hk : 0 ≤ k
    · obtain ⟨r1, -⟩ := ratio_integer hk hc hr hD
      have he : 0 < 10^(-j).toNat := Nat.pow_pos (by decide)
      have hb : d * 10^j.toNat * 2^52 ≤ 10^22 * 2^52 * 10^(-j).toNat := by
        rw [mul_right_swap (10^22)]
        refine Nat.mul_le_mul_right _ ?_
        rcases hs.range with h | h
        · dsimp only at h
          exact Nat.le_trans h (Nat.mul_le_mul_right _ (by decide))
        · exact Nat.le_of_lt h.2
      have := mul_cancel_le he r1 hb
      by_cases hle : k ≤ 22
      · exact hle
      · exfalso
        have : 10^23 ≤ c * 10^k.toNat :=
          Nat.le_trans (Nat.pow_le_pow_right (by decide) (by omega)) (Nat.le_mul_of_pos_left _ hc)
        omega
    · omega
  · intro hk hlen
    obtain ⟨r1, r2⟩ := ratio_integer hk hc hr hD
    have he : 0 < 10^(-j).toNat := Nat.pow_pos (by decide)
    rcases hs.range with h | h
    · have hb : d * 10^j.toNat * 2^52 ≤ 9 * 10^14 * 2^52 * 10^(-j).toNat := by
        rw [mul_right_swap (9 * 10^14)]
        exact Nat.mul_le_mul_right _ h
      have := mul_cancel_le he r1 hb
      rw [Nat.pow_succ, ← Nat.mul_assoc]
      omega
    · exfalso
      have hlt : c * 10^k.toNat < 10^16 := by
        have := denote_lt (decimal_integer c).2
        refine Nat.lt_of_lt_of_le (Nat.mul_lt_mul_of_pos_right this (Nat.pow_pos (by decide))) ?_
        rw [← Nat.pow_add]
        exact Nat.pow_le_pow_right (by decide) (by omega)
      have h3 : 2 * 10^16 * (2^52 - 1) * 10^(-j).toNat ≤ c * 10^k.toNat * 2^52 * 10^(-j).toNat := by
        rw [mul_right_swap, mul_right_swap _ (2^52)]
        exact Nat.le_trans (Nat.mul_le_mul_right _ h.1) r2
      have := Nat.le_of_mul_le_mul_right h3 he
      omega

/-- What is written for a number other than zero. -/
theorem writeFloat_eq {x : F64} (hx : x.mag ≠ 0) : writeFloat x =
    signText x.neg ++ layout (shortest x.mag 640 310).1 (shortest x.mag 640 310).2 := by
  unfold writeFloat
  rw [if_neg hx]
  rfl

theorem LayoutOf.keeps {x : F64} {D : Decimal} {cs : List Char} (h : LayoutOf D cs) (hw : writeFloat x = signText x.neg ++ cs)
    (hr : readFloat (writeFloat x) = some x) : serdeJson.Keeps x := by
  obtain ⟨ds, fr, ex, rfl, h1, h2, h3, h4⟩ := h.parts
  refine ⟨signText x.neg, ds, fr, ex, ?_, ?_, h1, h2, h3, h4, hr⟩
  · show writeFloat x = _
    rw [hw]
    simp [List.append_assoc]
  · unfold signText; cases x.neg <;> simp

/-- It is read again, if the text has few digits. -/
theorem LayoutOf.reads {x : F64} {D : Decimal} {cs : List Char} (h : LayoutOf D cs) (hw : writeFloat x = signText x.neg ++ cs)
    (hl : cs.length < 2^30) (hn : D.digits < 2^53) (h1 : -22 ≤ D.exponent) (h2 : D.exponent ≤ 22)
    (hr : Rounds D.num D.den x.mag) : serdeJson.Keeps x := by
  refine h.keeps hw ?_
  obtain ⟨a, b⟩ := readFloat_small x.neg h.text hl hn h1 h2
  rw [hw, a]
  have e := (roundQ_iff D.den_pos).2 hr
  rw [e] at b ⊢
  obtain ⟨f1, f2⟩ := make_facts x.neg b
  rw [f64_ext f1 f2]

theorem zero_keeps {x : F64} (hx : x.mag = 0) : serdeJson.Keeps x := by
  have hw : writeFloat x = signText x.neg ++ ['0', '.', '0'] := by
    unfold writeFloat
    rw [if_pos hx]
    rfl
  have hl : LayoutOf ⟨0, 0 - ((['0'] : List Char).length : Int)⟩ (['0'] ++ '.' :: ['0'] ++ []) :=
    .point ⟨isDigits_iff.2 ⟨by simp, by simp⟩, fun _ => rfl⟩ (isDigits_iff.2 ⟨by simp, by simp⟩)
      (denote_of_digits ['0', '0'] (by simp)) .none
  refine hl.reads hw (by decide) (by decide) (by decide) (by decide) ?_
  rw [hx, num_zero]
  exact ⟨by simp [magUnits_zero], by omega, fun h => by omega⟩

/-- The form with a fraction denotes the same number. -/
theorem rounds_point {m c : Nat} {k : Int} (hk : 0 ≤ k) (h : RoundsTo m c k) : RoundsTo m (c * 10^(k.toNat + 1)) (-1) := by
  have := h.scale 10 (by decide)
  have e1 : (Decimal.mk c k).den * 10 = (Decimal.mk (c * 10^(k.toNat + 1)) (-1)).den := by
    show 10^(-k).toNat * 10 = 10^1
    rw [show (-k).toNat = 0 by omega]
  have e2 : (Decimal.mk c k).num * 10 = (Decimal.mk (c * 10^(k.toNat + 1)) (-1)).num := by
    show c * 10^k.toNat * 2^1074 * 10 = c * 10^(k.toNat + 1) * 10^0 * 2^1074
    rw [Nat.pow_zero, Nat.mul_one, mul_right_swap, Nat.pow_succ 10, ← Nat.mul_assoc]
  rw [e1, e2] at this
  exact this

theorem short_keeps {x : F64} (h : x.IsShort) : serdeJson.Keeps x := by
  obtain ⟨D, hs, hD⟩ := h
  by_cases hx : x.mag = 0
  · exact zero_keeps hx
  · obtain ⟨hf, hD⟩ := nearest_iff.1 hD
    have hw := writeFloat_eq hx
    obtain ⟨hr, hc, -, hmax⟩ := shortest_facts (by omega) hf (c := (shortest x.mag 640 310).1) (k := (shortest x.mag 640 310).2) rfl
    generalize (shortest x.mag 640 310).1 = c at *
    generalize (shortest x.mag 640 310).2 = k at *
    obtain ⟨s1, s2, s3, s4⟩ := short_written hc hr hmax hs hD
    have hl := layout_text hc k
    have hlen := layout_length (Nat.lt_trans s1 (by decide)) (by omega) (by omega : k ≤ 310)
    split at hl
    · next h => exact hl.reads hw hlen (s4 h.1 h.2) (by show (-22 : Int) ≤ -1; omega) (by show (-1 : Int) ≤ 22; omega) (rounds_point h.1 hr)
    · exact hl.reads hw hlen (by dsimp only; omega) s2 s3 hr

end Wot
