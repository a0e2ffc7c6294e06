import Verif.Lemmas.JsonSkip
import Verif.Lemmas.Nesting
import Verif.Lemmas.Numbers
/-
A Thing is read from exactly the texts of Things, and from a JSON text as from its tree.
-/
namespace Wot

variable {fl : FloatText} {N : Nat}

/-- The function reads the texts of the relation. -/
structure ReadsText (N : Nat) {α : Type} (value : List Char → Option (α × List Char)) (P : α → List Char → Prop) : Prop where
  sound : ∀ {cs a r}, value cs = some (a, r) → ∃ w t, IsSpace w ∧ P a t ∧ cs = w ++ t ++ r
  complete : ∀ {a w t rest}, IsSpace w → P a t → Stop rest → (w ++ t ++ rest).length < N →
    value (w ++ t ++ rest) = some (a, rest)

/-- The texts of the relation begin with a character that neither is white space nor closes anything. -/
def BeginsText {α : Type} (P : α → List Char → Prop) : Prop := ∀ {a t}, P a t → ∃ c r, t = c :: r ∧ NotSpace c ∧ c ≠ ']' ∧ c ≠ '}'

theorem reads_value : ReadsText N (scanValue fl N) (ValueText fl) where
  sound h := (scan_sound N).1 _ _ _ h
  complete hw ht hr hl := by
    rw [List.append_assoc, scanValue_space hw]
    exact scanValue_append ht (by simp at hl; omega) hr

theorem begins_value : BeginsText (ValueText fl) := valueText_head

/-! ### Arrays -/

section
variable {value : List Char → Option (Json × List Char)} {P : Json → List Char → Prop}

theorem scanElementsBy_sound (hv : ReadsText N value P) (n : Nat) : ∀ {cs l rest},
    scanElementsBy value n cs = some (l, rest) → ∃ t, ElementsBy P l t ∧ cs = t ++ ']' :: rest := by
  induction n with
  | zero => intro _ _ _ h; cases h
  | succ n ih =>
    intro cs l rest h
    simp only [scanElementsBy] at h
    obtain ⟨⟨j, r⟩, hj, h'⟩ := Option.bind_eq_some_iff.1 h
    clear h
    obtain ⟨v, t, hv, ht, rfl⟩ := hv.sound hj
    simp only at h'
    obtain ⟨w, hw, he, -⟩ := skipSpace_split r
    cases hs : skipSpace r with
    | nil => rw [hs] at h'; cases h'
    | cons c r' =>
      rw [hs] at h' he
      simp only at h'
      split at h'
      · next hc =>
        cases h'
        exact ⟨v ++ t ++ w, .one hv ht hw, by rw [he, hc]; simp⟩
      · split at h'
        · next hc =>
          obtain ⟨⟨l', r''⟩, h1, h2⟩ := Option.map_eq_some_iff.1 h'
          cases h2
          obtain ⟨t', ht', rfl⟩ := ih h1
          exact ⟨v ++ t ++ w ++ ',' :: t', .cons hv ht hw ht', by rw [he, hc]; simp⟩
        · cases h'

theorem scanElementsBy_append (hv : ReadsText N value P) {l : List Json} {cs : List Char} (h : ElementsBy P l cs) :
    ∀ {n : Nat} {rest : List Char}, cs.length < n → (cs ++ ']' :: rest).length < N →
      scanElementsBy value n (cs ++ ']' :: rest) = some (l, rest) := by
  induction h with
  | @one j v w cs h1 h2 h3 =>
    intro n rest hn hN
    obtain ⟨n, rfl⟩ : ∃ k, n = k + 1 := ⟨n - 1, by omega⟩
    have := hv.complete (rest := w ++ ']' :: rest) h1 h2 (stop_space h3 (by simp)) (by simp at hN ⊢; omega)
    simp only [List.append_assoc, scanElementsBy] at this ⊢
    rw [this]
    simp only [Option.bind_some]
    rw [skip_to h3 (by decide)]
    rfl
  | @cons j l v w cs ds h1 h2 h3 _ ih =>
    intro n rest hn hN
    obtain ⟨n, rfl⟩ : ∃ k, n = k + 1 := ⟨n - 1, by omega⟩
    have := hv.complete (rest := w ++ ',' :: (ds ++ ']' :: rest)) h1 h2 (stop_space h3 (by simp)) (by simp at hN ⊢; omega)
    have ih := ih (n := n) (rest := rest) (by simp at hn; omega) (by simp at hN ⊢; omega)
    simp only [List.append_assoc, List.cons_append, scanElementsBy] at this ⊢
    rw [this]
    simp only [Option.bind_some]
    rw [skip_to h3 (by decide)]
    simp only
    rw [if_neg (by decide), if_pos trivial, ih]
    rfl

theorem scanElementsBy_skip (hs : ∀ cs, value (skipSpace cs) = value cs) (n : Nat) (cs : List Char) :
    scanElementsBy value n (skipSpace cs) = scanElementsBy value n cs := by
  cases n with
  | zero => rfl
  | succ n => simp only [scanElementsBy, hs]

theorem value_array {j : Json} {cs : List Char} (h : ValueText fl j cs) {r : List Char} (hc : cs = '[' :: r) : ∃ l, j = .arr l := by
  cases h with
  | null => cases hc
  | true => cases hc
  | false => cases hc
  | num h =>
    obtain ⟨minus, ds, fr, ex, hi, _, _, rfl, _⟩ := number_parts h
    cases minus with
    | true => cases hc
    | false =>
      obtain ⟨d, r, rfl, hd⟩ := integer_head hi
      cases hc
      exact absurd hd (by decide)
  | str h =>
    obtain ⟨cs, _, rfl⟩ := h
    cases hc
  | empty _ => exact ⟨_, rfl⟩
  | arr _ => exact ⟨_, rfl⟩
  | emptyObj _ => cases hc
  | obj _ => cases hc

theorem value_object {j : Json} {cs : List Char} (h : ValueText fl j cs) {r : List Char} (hc : cs = '{' :: r) : ∃ m, j = .obj m := by
  cases h with
  | null => cases hc
  | true => cases hc
  | false => cases hc
  | num h =>
    obtain ⟨minus, ds, fr, ex, hi, _, _, rfl, _⟩ := number_parts h
    cases minus with
    | true => cases hc
    | false =>
      obtain ⟨d, r, rfl, hd⟩ := integer_head hi
      cases hc
      exact absurd hd (by decide)
  | str h =>
    obtain ⟨cs, _, rfl⟩ := h
    cases hc
  | empty _ => cases hc
  | arr _ => cases hc
  | emptyObj _ => exact ⟨_, rfl⟩
  | obj _ => exact ⟨_, rfl⟩

/-- Arrays and objects begin with their brackets. -/
theorem value_open {j : Json} {c : Char} {cs : List Char} (h : ValueText fl j (c :: cs)) :
    (c ≠ '[' → ∀ l, j ≠ .arr l) ∧ (c ≠ '{' → ∀ m, j ≠ .obj m) := by
  refine ⟨?_, ?_⟩ <;> rintro hc l rfl <;> cases h <;> exact hc rfl

theorem reads_array (hv : ReadsText N value P) (hb : BeginsText P) (hs : ∀ cs, value (skipSpace cs) = value cs) :
    ReadsText N (scanArrayBy fl value N) (ArrayBy fl P) where
  sound {cs j rest} h := by
    unfold scanArrayBy at h
    obtain ⟨w, hw, he, -⟩ := skipSpace_split cs
    cases hs1 : skipSpace cs with
    | nil => rw [hs1] at h; cases h
    | cons c r =>
      rw [hs1] at h he
      simp only at h
      split at h
      · next hc =>
        obtain ⟨x, hx, he2, -⟩ := skipSpace_split r
        cases hs2 : skipSpace r with
        | nil => rw [hs2] at h; cases h
        | cons d ds =>
          rw [hs2] at h he2
          simp only at h
          split at h
          · next hd =>
            cases h
            exact ⟨w, '[' :: x ++ [']'], hw, .empty hx, by rw [he, hc, he2, hd]; simp⟩
          · obtain ⟨⟨l, r'⟩, h1, h2⟩ := Option.map_eq_some_iff.1 h
            cases h2
            rw [← hs2, scanElementsBy_skip hs] at h1
            obtain ⟨t, ht, rfl⟩ := scanElementsBy_sound hv _ h1
            exact ⟨w, '[' :: t ++ [']'], hw, .arr ht, by rw [he, hc]; simp⟩
      · next hc =>
        obtain ⟨w', t, hw', ht, e⟩ := reads_value.sound h
        obtain ⟨c', r', rfl, hc', -⟩ := valueText_head ht
        have : c' = c := by
          have := skip_to hw' hc' (r' ++ rest)
          rw [e] at hs1
          simp only [List.append_assoc, List.cons_append] at hs1
          rw [hs1] at this
          exact (List.cons.inj this).1.symm
        subst this
        exact ⟨w', _, hw', .other ((value_open ht).1 hc) ht, e⟩
  complete {j w t rest} hw ht hr hl := by
    unfold scanArrayBy
    cases ht with
    | @empty x hx =>
      simp only [List.append_assoc, List.cons_append, List.nil_append]
      rw [skip_to hw (by decide)]
      simp only
      rw [if_pos trivial, skip_to hx (by decide)]
      rfl
    | @arr l cs h =>
      have ih := scanElementsBy_append hv h (n := N) (rest := rest) (by simp at hl; omega) (by simp at hl ⊢; omega)
      obtain ⟨c, r, h1, h2⟩ : ∃ c r, skipSpace (cs ++ ']' :: rest) = c :: r ∧ c ≠ ']' := by
        cases h with
        | one hv h _ =>
          obtain ⟨c, r, rfl, h1, h2, _⟩ := hb h
          simp only [List.append_assoc, List.cons_append]
          exact ⟨_, _, skip_to hv h1 _, h2⟩
        | cons hv h _ _ =>
          obtain ⟨c, r, rfl, h1, h2, _⟩ := hb h
          simp only [List.append_assoc, List.cons_append]
          exact ⟨_, _, skip_to hv h1 _, h2⟩
      simp only [List.append_assoc, List.cons_append, List.nil_append]
      rw [skip_to hw (by decide)]
      simp only
      rw [if_pos trivial, h1]
      simp only
      rw [if_neg h2, ← h1, scanElementsBy_skip hs, ih]
      rfl
    | other hj h =>
      have := reads_value.complete hw h hr hl
      obtain ⟨c, r, rfl, h1, -⟩ := valueText_head h
      rw [this]
      simp only [List.append_assoc, List.cons_append]
      rw [skip_to hw h1]
      simp only
      rw [if_neg]
      rintro rfl
      obtain ⟨l, rfl⟩ := value_array h rfl
      exact hj l rfl

theorem begins_array : BeginsText (ArrayBy fl P) := by
  intro j t h
  cases h with
  | empty _ => exact ⟨_, _, rfl, by decide, by decide, by decide⟩
  | arr _ => exact ⟨_, _, rfl, by decide, by decide, by decide⟩
  | other _ h => exact valueText_head h

end

/-! ### Objects -/

section
variable {value : String → List Char → Option (Option Json × List Char)} {P : String → Option Json → List Char → Prop}

theorem scanMembersBy_skip (n : Nat) (cs : List Char) :
    scanMembersBy value n (skipSpace cs) = scanMembersBy value n cs := by
  cases n with
  | zero => rfl
  | succ n => simp only [scanMembersBy, skipSpace_idem]

theorem member_list (k : String) (o : Option Json) :
    (o.map fun j => (k, j)).toList = o.toList.map fun j => (k, j) := by
  cases o <;> rfl

theorem scanMembersBy_sound (hv : ∀ k, ReadsText N (value k) (P k)) (n : Nat) : ∀ {cs m rest},
    scanMembersBy value n cs = some (m, rest) → ∃ t, MembersBy P m t ∧ cs = t ++ '}' :: rest := by
  induction n with
  | zero => intro _ _ _ h; cases h
  | succ n ih =>
    intro cs m rest h
    simp only [scanMembersBy, member_list] at h
    obtain ⟨u, hu, he, -⟩ := skipSpace_split cs
    cases hs : skipSpace cs with
    | nil => rw [hs] at h; cases h
    | cons c r =>
      rw [hs] at h he
      simp only at h
      split at h
      · next hc =>
        obtain ⟨⟨k, r1⟩, hk, h'⟩ := Option.bind_eq_some_iff.1 h
        clear h
        obtain ⟨ks, hks, rfl⟩ := scanString_sound hk
        simp only at h'
        obtain ⟨v, hv1, he1, -⟩ := skipSpace_split r1
        cases hs1 : skipSpace r1 with
        | nil => rw [hs1] at h'; cases h'
        | cons c1 r2 =>
          rw [hs1] at h' he1
          simp only at h'
          split at h'
          · next hc1 =>
            obtain ⟨⟨o, r3⟩, hj, h''⟩ := Option.bind_eq_some_iff.1 h'
            clear h'
            obtain ⟨w, t, hw, ht, rfl⟩ := (hv _).sound hj
            simp only at h''
            obtain ⟨x, hx, he2, -⟩ := skipSpace_split r3
            have hkt : StringText (String.ofList k) ('"' :: ks ++ ['"']) := ⟨ks, by simpa using hks, rfl⟩
            cases hs2 : skipSpace r3 with
            | nil => rw [hs2] at h''; cases h''
            | cons c2 r4 =>
              rw [hs2] at h'' he2
              simp only at h''
              split at h''
              · next hc2 =>
                cases h''
                refine ⟨_, .one hu hkt hv1 hw ht hx, ?_⟩
                rw [he, hc, he1, hc1, he2, hc2]; simp
              · split at h''
                · next hc2 =>
                  obtain ⟨⟨l', r''⟩, h1, h2⟩ := Option.map_eq_some_iff.1 h''
                  cases h2
                  obtain ⟨t', ht', rfl⟩ := ih h1
                  refine ⟨_, .cons hu hkt hv1 hw ht hx ht', ?_⟩
                  rw [he, hc, he1, hc1, he2, hc2]; simp
                · cases h''
          · cases h'
      · cases h

theorem scanMembersBy_step {n : Nat} {k : String} {o : Option Json} {u v w x ks cs rest : List Char} {c : Char}
    (hu : IsSpace u) (hk : StringText k ks) (hv : IsSpace v) (hx : IsSpace x) (hc : NotSpace c)
    (hl : ks.length ≤ n)
    (hj : value k (w ++ cs ++ (x ++ c :: rest)) = some (o, x ++ c :: rest)) :
    scanMembersBy value (n + 1) (u ++ ks ++ v ++ ':' :: w ++ cs ++ x ++ c :: rest) =
      if c = '}' then some (o.toList.map fun j => (k, j), rest)
      else if c = ',' then (scanMembersBy value n rest).map fun (m, r) => ((o.toList.map fun j => (k, j)) ++ m, r)
      else none := by
  obtain ⟨t, ht, rfl⟩ := hk
  simp only [List.append_assoc, List.cons_append, List.nil_append, scanMembersBy, member_list] at hj ⊢
  rw [skip_to hu notSpace_quote]
  simp only [if_pos trivial]
  have hl' : t.length < n := by simp at hl; omega
  rw [scanString_append ht hl']
  simp only [Option.bind_some]
  rw [skip_to hv (by decide)]
  simp only [if_true, hj, Option.bind_some, String.ofList_toList]
  rw [skip_to hx hc]

theorem scanMembersBy_append (hv : ∀ k, ReadsText N (value k) (P k)) {m : Members} {cs : List Char} (h : MembersBy P m cs) :
    ∀ {n : Nat} {rest : List Char}, cs.length < n → (cs ++ '}' :: rest).length < N →
      scanMembersBy value n (cs ++ '}' :: rest) = some (m, rest) := by
  induction h with
  | @one k o u v w x ks cs h1 h2 h3 h4 h5 h6 =>
    intro n rest hn hN
    obtain ⟨n, rfl⟩ : ∃ k, n = k + 1 := ⟨n - 1, by omega⟩
    have := (hv k).complete (rest := x ++ '}' :: rest) h4 h5 (stop_space h6 (by simp)) (by simp at hN ⊢; omega)
    rw [scanMembersBy_step h1 h2 h3 h6 (by decide) (by simp at hn; omega) this, if_pos rfl]
  | @cons k o m u v w x ks cs ds h1 h2 h3 h4 h5 h6 _ ih =>
    intro n rest hn hN
    obtain ⟨n, rfl⟩ : ∃ k, n = k + 1 := ⟨n - 1, by omega⟩
    have := (hv k).complete (rest := x ++ ',' :: (ds ++ '}' :: rest)) h4 h5 (stop_space h6 (by simp)) (by simp at hN ⊢; omega)
    have ih := ih (n := n) (rest := rest) (by simp at hn; omega) (by simp at hN ⊢; omega)
    have := scanMembersBy_step (value := value) h1 h2 h3 h6 (c := ',') (by decide) (n := n) (by simp at hn; omega) this
    rw [if_neg (by decide), if_pos rfl, ih] at this
    simpa using this

theorem reads_object (hv : ∀ k, ReadsText N (value k) (P k)) : ReadsText N (scanObjectBy fl value N) (ObjectBy fl P) where
  sound {cs j rest} h := by
    unfold scanObjectBy at h
    obtain ⟨w, hw, he, -⟩ := skipSpace_split cs
    cases hs1 : skipSpace cs with
    | nil => rw [hs1] at h; cases h
    | cons c r =>
      rw [hs1] at h he
      simp only at h
      split at h
      · next hc =>
        obtain ⟨x, hx, he2, -⟩ := skipSpace_split r
        cases hs2 : skipSpace r with
        | nil => rw [hs2] at h; cases h
        | cons d ds =>
          rw [hs2] at h he2
          simp only at h
          split at h
          · next hd =>
            cases h
            exact ⟨w, '{' :: x ++ ['}'], hw, .empty hx, by rw [he, hc, he2, hd]; simp⟩
          · obtain ⟨⟨l, r'⟩, h1, h2⟩ := Option.map_eq_some_iff.1 h
            cases h2
            rw [← hs2, scanMembersBy_skip] at h1
            obtain ⟨t, ht, rfl⟩ := scanMembersBy_sound hv _ h1
            exact ⟨w, '{' :: t ++ ['}'], hw, .obj ht, by rw [he, hc]; simp⟩
      · next hc =>
        obtain ⟨w', t, hw', ht, e⟩ := reads_value.sound h
        obtain ⟨c', r', rfl, hc', -⟩ := valueText_head ht
        have : c' = c := by
          have := skip_to hw' hc' (r' ++ rest)
          rw [e] at hs1
          simp only [List.append_assoc, List.cons_append] at hs1
          rw [hs1] at this
          exact (List.cons.inj this).1.symm
        subst this
        exact ⟨w', _, hw', .other ((value_open ht).2 hc) ht, e⟩
  complete {j w t rest} hw ht hr hl := by
    unfold scanObjectBy
    cases ht with
    | @empty x hx =>
      simp only [List.append_assoc, List.cons_append, List.nil_append]
      rw [skip_to hw (by decide)]
      simp only
      rw [if_pos trivial, skip_to hx (by decide)]
      rfl
    | @obj m cs h =>
      have ih := scanMembersBy_append hv h (n := N) (rest := rest) (by simp at hl; omega) (by simp at hl ⊢; omega)
      obtain ⟨r, h1⟩ : ∃ r, skipSpace (cs ++ '}' :: rest) = '"' :: r := by
        cases h with
        | one hu h _ _ _ _ =>
          obtain ⟨ks, _, rfl⟩ := h
          simp only [List.append_assoc, List.cons_append]
          exact ⟨_, skip_to hu notSpace_quote _⟩
        | cons hu h _ _ _ _ _ =>
          obtain ⟨ks, _, rfl⟩ := h
          simp only [List.append_assoc, List.cons_append]
          exact ⟨_, skip_to hu notSpace_quote _⟩
      simp only [List.append_assoc, List.cons_append, List.nil_append]
      rw [skip_to hw (by decide)]
      simp only
      rw [if_pos trivial, h1]
      simp only
      rw [if_neg (by decide), ← h1, scanMembersBy_skip, ih]
      rfl
    | other hj h =>
      have := reads_value.complete hw h hr hl
      obtain ⟨c, r, rfl, h1, -⟩ := valueText_head h
      rw [this]
      simp only [List.append_assoc, List.cons_append]
      rw [skip_to hw h1]
      simp only
      rw [if_neg]
      rintro rfl
      obtain ⟨l, rfl⟩ := value_object h rfl
      exact hj l rfl

theorem begins_object : BeginsText (ObjectBy fl P) := by
  intro j t h
  cases h with
  | empty _ => exact ⟨_, _, rfl, by decide, by decide, by decide⟩
  | obj _ => exact ⟨_, _, rfl, by decide, by decide, by decide⟩
  | other _ h => exact valueText_head h

theorem scanObjectBy_skip (n : Nat) (cs : List Char) :
    scanObjectBy fl value n (skipSpace cs) = scanObjectBy fl value n cs := by
  simp only [scanObjectBy, skipSpace_idem, scanValue_skip]

end

/-! ### Things -/

theorem reads_struct (fields : List String) : ReadsText N (scanStruct fl fields N) (StructText fl fields) := by
  refine reads_object fun k => ⟨?_, ?_⟩
  · intro cs o r h
    split at h
    · next hk =>
      obtain ⟨⟨j, r'⟩, h1, h2⟩ := Option.map_eq_some_iff.1 h
      cases h2
      obtain ⟨w, t, hw, ht, rfl⟩ := reads_value.sound h1
      exact ⟨w, t, hw, .inl ⟨by simpa using hk, j, rfl, ht⟩, rfl⟩
    · next hk =>
      obtain ⟨r', h1, h2⟩ := Option.map_eq_some_iff.1 h
      cases h2
      obtain ⟨w, t, r', hw, ht, rfl, rfl⟩ := (skip_sound _).1 _ _ _ h1
      exact ⟨w, t, hw, .inr ⟨by simpa using hk, rfl, ht⟩, rfl⟩
  · intro o w t rest hw ht hr hl
    rcases ht with ⟨hk, j, rfl, ht⟩ | ⟨hk, rfl, ht⟩
    · rw [if_pos (by simpa using hk), reads_value.complete hw ht hr hl]
      rfl
    · rw [if_neg (by simpa using hk), (skip_iff hr).2 ⟨w, t, hw, ht, rfl⟩]
      rfl

theorem reads_thing : ReadsText N (scanThing fl N) (ThingValueText fl) := by
  have links := reads_array (fl := fl) (N := N) (reads_struct (fl := fl) (N := N) ["href", "type", "rel", "anchor", "sizes", "hreflang"])
    begins_object (fun cs => scanObjectBy_skip N cs)
  refine reads_object fun k => ⟨?_, ?_⟩
  · intro cs o r h
    obtain ⟨⟨j, r'⟩, h1, h2⟩ := Option.map_eq_some_iff.1 h
    cases h2
    split at h1
    · next hk =>
      obtain ⟨w, t, hw, ht, rfl⟩ := (reads_struct _).sound h1
      exact ⟨w, t, hw, ⟨j, rfl, .inl ⟨hk, ht⟩⟩, rfl⟩
    split at h1
    · next hk =>
      obtain ⟨w, t, hw, ht, rfl⟩ := links.sound h1
      exact ⟨w, t, hw, ⟨j, rfl, .inr (.inl ⟨hk, ht⟩)⟩, rfl⟩
    · next h2 h3 =>
      obtain ⟨w, t, hw, ht, rfl⟩ := reads_value.sound h1
      exact ⟨w, t, hw, ⟨j, rfl, .inr (.inr ⟨h2, h3, ht⟩)⟩, rfl⟩
  · intro o w t rest hw ht hr hl
    obtain ⟨j, rfl, ⟨hk, ht⟩ | ⟨hk, ht⟩ | ⟨h1, h2, ht⟩⟩ := ht
    · rw [if_pos hk, (reads_struct _).complete hw ht hr hl]
      rfl
    · rw [if_neg (by rw [hk]; decide), if_pos hk, links.complete hw ht hr hl]
      rfl
    · rw [if_neg h1, if_neg h2, reads_value.complete hw ht hr hl]
      rfl

/-- The texts of Things are read, and no others. -/
theorem thing_parse_iff {j : Json} {text : String} : Thing.parse fl text = some j ↔ ThingText fl j text := by
  unfold Thing.parse
  constructor
  · intro h
    split at h
    · next j' r hs =>
      split at h
      · next hr =>
        cases h
        obtain ⟨w, t, hw, ht, he⟩ := reads_thing.sound hs
        exact ⟨w, t, r, hw, ht, skipSpace_nil_iff.1 hr, he⟩
      · cases h
    · cases h
  · rintro ⟨v, cs, w, hv, hj, hw, he⟩
    have : scanThing fl (text.toList.length + 1) text.toList = some (j, w) := by
      rw [he]
      exact reads_thing.complete hv hj (stop_space_nil hw) (Nat.lt_succ_self _)
    rw [this]
    simp only
    rw [if_pos (skipSpace_nil_iff.2 hw)]

/-! ### JSON texts are texts of Things -/

theorem counted_name (kv : String × Json) : (countedMember kv).1 = kv.1 := by
  unfold countedMember
  split
  · rfl
  · split <;> rfl

theorem anyChar_of {c : Char} {cs : List Char} (h : CharText c cs) : AnyChars cs := by
  have one : ∀ {cs}, AnyChar cs → AnyChars cs := fun {cs} h => by simpa using AnyChars.cons h .nil
  cases h with
  | plain h1 h2 h3 => exact one (.plain h1 h2 h3)
  | short h =>
    refine one (.short ?_)
    simp only [shortEscapes, List.mem_cons, Prod.mk.injEq, List.not_mem_nil, or_false] at h ⊢
    rcases h with ⟨h, -⟩ | ⟨h, -⟩ | ⟨h, -⟩ | ⟨h, -⟩ | ⟨h, -⟩ | ⟨h, -⟩ | ⟨h, -⟩ | ⟨h, -⟩ <;> simp [h]
  | number h => exact one (.number h)
  | pair _ _ h1 h2 _ => exact .cons (.number h1) (one (.number h2))

theorem anyChars_append {cs ds : List Char} (h : AnyChars cs) (h' : AnyChars ds) : AnyChars (cs ++ ds) := by
  induction h with
  | nil => exact h'
  | cons hc _ ih => rw [List.append_assoc]; exact .cons hc ih

theorem anyString_of {s : String} {cs : List Char} (h : StringText s cs) : AnyString cs := by
  obtain ⟨t, ht, rfl⟩ := h
  refine ⟨t, ?_, rfl⟩
  generalize s.toList = l at ht
  induction ht with
  | nil => exact .nil
  | cons hc _ ih => exact anyChars_append (anyChar_of hc) ih

mutual
theorem anyValue_of {j : Json} {cs : List Char} (h : ValueText fl j cs) : AnyValue cs := by
  match h with
  | .null => exact .null
  | .true => exact .true
  | .false => exact .false
  | .num h =>
    obtain ⟨minus, ds, fr, ex, hi, hf, he, rfl, -⟩ := number_parts h
    exact .num ⟨if minus then ['-'] else [], ds, fr, ex, by simp, by cases minus <;> simp, hi, hf, he⟩
  | .str h => exact .str (anyString_of h)
  | .empty hw => exact .empty hw
  | .arr h => exact .arr (anyElements_of h)
  | .emptyObj hw => exact .emptyObj hw
  | .obj h => exact .obj (anyMembers_of h)
theorem anyElements_of {l : List Json} {cs : List Char} (h : ElementsText fl l cs) : AnyElements cs := by
  match h with
  | .one hv hj hw => exact .one hv (anyValue_of hj) hw
  | .cons hv hj hw hl => exact .cons hv (anyValue_of hj) hw (anyElements_of hl)
theorem anyMembers_of {m : Members} {cs : List Char} (h : MembersText fl m cs) : AnyMembers cs := by
  match h with
  | .one hu hk hv hw hj hx => exact .one hu (anyString_of hk) hv hw (anyValue_of hj) hx
  | .cons hu hk hv hw hj hx hm => exact .cons hu (anyString_of hk) hv hw (anyValue_of hj) hx (anyMembers_of hm)
end

theorem membersBy_of {P : String → Option Json → List Char → Prop} {g : String × Json → Option Json}
    (hg : ∀ k j cs, ValueText fl j cs → P k (g (k, j)) cs) {m : Members} {cs : List Char} (h : MembersText fl m cs) :
    MembersBy P (m.flatMap fun kv => (g kv).toList.map fun j => (kv.1, j)) cs := by
  match h with
  | .one hu hk hv hw hj hx =>
    have := MembersBy.one (P := P) hu hk hv hw (hg _ _ _ hj) hx
    simpa using this
  | .cons hu hk hv hw hj hx hm =>
    have := MembersBy.cons hu hk hv hw (hg _ _ _ hj) hx (membersBy_of hg hm)
    simpa using this

theorem elementsBy_of {P : Json → List Char → Prop} {g : Json → Json} (hg : ∀ j cs, ValueText fl j cs → P (g j) cs)
    {l : List Json} {cs : List Char} (h : ElementsText fl l cs) : ElementsBy P (l.map g) cs := by
  match h with
  | .one hv hj hw => exact .one hv (hg _ _ hj) hw
  | .cons hv hj hw hl => exact .cons hv (hg _ _ hj) hw (elementsBy_of hg hl)

theorem objectBy_of {P : String → Option Json → List Char → Prop} {g : String × Json → Option Json}
    (hg : ∀ k j cs, ValueText fl j cs → P k (g (k, j)) cs) {m : Members} {cs : List Char} (h : ValueText fl (.obj m) cs) :
    ObjectBy fl P (.obj (m.flatMap fun kv => (g kv).toList.map fun j => (kv.1, j))) cs := by
  cases h with
  | emptyObj hw => exact .empty hw
  | obj h => exact .obj (membersBy_of hg h)

theorem structText_of {fields : List String} {j : Json} {cs : List Char} (h : ValueText fl j cs) :
    StructText fl fields (j.onlyMembers fields) cs := by
  cases j with
  | obj m =>
    have := objectBy_of (g := fun kv => if fields.contains kv.1 then some kv.2 else none)
      (P := fun k o cs => (k ∈ fields ∧ ∃ j, o = some j ∧ ValueText fl j cs) ∨ (k ∉ fields ∧ o = none ∧ AnyValue cs))
      (fun k j cs h => by
        by_cases hk : k ∈ fields
        · exact .inl ⟨hk, j, if_pos (by simpa using hk), h⟩
        · exact .inr ⟨hk, if_neg (by simpa using hk), anyValue_of h⟩) h
    have e : (m.flatMap fun kv => (if fields.contains kv.1 then some kv.2 else none).toList.map fun j => (kv.1, j)) =
        m.filter fun kv => fields.contains kv.1 := by
      clear this h
      induction m with
      | nil => rfl
      | cons kv m ih =>
        rw [List.flatMap_cons, List.filter_cons, ih]
        split <;> rfl
    rw [e] at this
    exact this
  | null => exact .other nofun h
  | bool => exact .other nofun h
  | num => exact .other nofun h
  | str => exact .other nofun h
  | arr => exact .other nofun h

theorem linksText_of {j : Json} {cs : List Char} (h : ValueText fl j cs) :
    ArrayBy fl (StructText fl ["href", "type", "rel", "anchor", "sizes", "hreflang"]) j.onlyLinks cs := by
  cases j with
  | arr l =>
    cases h with
    | empty hw => exact .empty hw
    | arr h => exact .arr (elementsBy_of (fun _ _ h => structText_of h) h)
  | null => exact .other nofun h
  | bool => exact .other nofun h
  | num => exact .other nofun h
  | str => exact .other nofun h
  | obj => exact .other nofun h

theorem thingText_of {j : Json} {text : String} (h : JsonText fl j text) : ThingText fl j.counted text := by
  obtain ⟨v, cs, w, hv, h, hw, e⟩ := h
  refine ⟨v, cs, w, hv, ?_, hw, e⟩
  cases j with
  | obj m =>
    have := objectBy_of (g := fun kv => some (countedMember kv).2)
      (P := fun k o cs => ∃ j, o = some j ∧
        ((k = "version" ∧ StructText fl ["instance", "model"] j cs) ∨
         (k = "links" ∧ ArrayBy fl (StructText fl ["href", "type", "rel", "anchor", "sizes", "hreflang"]) j cs) ∨
         (k ≠ "version" ∧ k ≠ "links" ∧ ValueText fl j cs)))
      (fun k j cs h => by
        refine ⟨_, rfl, ?_⟩
        unfold countedMember
        by_cases h1 : k = "version"
        · exact .inl ⟨h1, by rw [if_pos h1]; exact structText_of h⟩
        by_cases h2 : k = "links"
        · exact .inr (.inl ⟨h2, by rw [if_neg h1, if_pos h2]; exact linksText_of h⟩)
        · exact .inr (.inr ⟨h1, h2, by rw [if_neg h1, if_neg h2]; exact h⟩)) h
    have e : (m.flatMap fun kv => (some (countedMember kv).2).toList.map fun j => (kv.1, j)) = m.map countedMember := by
      rw [List.map_eq_flatMap]
      congr 1
      funext kv
      show [(kv.1, (countedMember kv).2)] = [countedMember kv]
      rw [← counted_name kv]
    rw [e] at this
    exact this
  | null => exact .other nofun h
  | bool => exact .other nofun h
  | num => exact .other nofun h
  | str => exact .other nofun h
  | arr => exact .other nofun h

/-! ### What is skipped does not matter -/

variable {X : ExtTypes} {C : ExtCodecs X} {env : SerdeEnv}

theorem occ_only {fields : List String} {k : String} (hk : k ∈ fields) (es : Members) :
    occ k (es.filter fun kv => fields.contains kv.1) = occ k es := by
  induction es with
  | nil => rfl
  | cons kv es ih =>
    unfold occ at *
    rw [List.filter_cons]
    split
    · rw [List.filterMap_cons, List.filterMap_cons, ih]
    · next h =>
      rw [List.filterMap_cons, ih, if_neg]
      rintro rfl
      exact h (by simpa using hk)

theorem deVersion_only (j : Json) : deVersion (j.onlyMembers ["instance", "model"]) = deVersion j := by
  cases j with
  | obj es => simp only [Json.onlyMembers, deVersion, required, optional, defaulted, occ_only (List.mem_cons_self ..),
      occ_only (List.mem_cons_of_mem _ (List.mem_cons_self ..))]
  | _ => rfl

theorem deLink_only (j : Json) :
    deLink env (j.onlyMembers ["href", "type", "rel", "anchor", "sizes", "hreflang"]) = deLink env j := by
  cases j with
  | obj es =>
    have h : ∀ k ∈ ["href", "type", "rel", "anchor", "sizes", "hreflang"], occ k (es.filter fun kv =>
        ["href", "type", "rel", "anchor", "sizes", "hreflang"].contains kv.1) = occ k es := fun k hk => occ_only hk es
    simp only [Json.onlyMembers, deLink, required, optional, defaulted, h "href" (by simp), h "type" (by simp), h "rel" (by simp),
      h "anchor" (by simp), h "sizes" (by simp), h "hreflang" (by simp)]
  | _ => rfl

theorem deLinks_only (j : Json) : deVec (deLink env) j.onlyLinks = deVec (deLink env) j := by
  cases j with
  | arr l =>
    show mapOpt (deLink env) (l.map _) = mapOpt (deLink env) l
    induction l with
    | nil => rfl
    | cons j l ih => simp only [List.map_cons, mapOpt, deLink_only, ih]
  | _ => rfl

theorem occ_counted (k : String) (es : Members) :
    occ k (es.map countedMember) = (occ k es).map fun j => (countedMember (k, j)).2 := by
  induction es with
  | nil => rfl
  | cons kv es ih =>
    unfold occ at *
    rw [List.map_cons, List.filterMap_cons, List.filterMap_cons, ih, counted_name]
    by_cases hk : kv.1 = k
    · subst hk
      simp
    · simp [hk]

theorem occ_counted_other {k : String} (h1 : k ≠ "version") (h2 : k ≠ "links") (es : Members) :
    occ k (es.map countedMember) = occ k es := by
  rw [occ_counted]
  simp [countedMember, h1, h2]

theorem rest_counted (es : Members) : rest thingKeys (es.map countedMember) = rest thingKeys es := by
  induction es with
  | nil => rfl
  | cons kv es ih =>
    unfold rest at *
    have e : (countedMember kv).1 = kv.1 := counted_name kv
    rw [List.map_cons, List.filter_cons, List.filter_cons, ih, e]
    split
    · next h =>
      unfold countedMember
      rw [if_neg, if_neg]
      · intro hk; rw [hk] at h; exact absurd h (by decide)
      · intro hk; rw [hk] at h; exact absurd h (by decide)
    · rfl

theorem optional_same {α : Type} {k : String} {de : Json → Option α} (h : ∀ j, de (countedMember (k, j)).2 = de j)
    (hn : ∀ j, (countedMember (k, j)).2 = .null ↔ j = .null) (es : Members) :
    optional k de (es.map countedMember) = optional k de es := by
  have : ∀ j, deOption de (countedMember (k, j)).2 = deOption de j := by
    intro j
    by_cases hj : j = .null
    · rw [(hn j).2 hj, hj]
    · have : (countedMember (k, j)).2 ≠ .null := fun h => hj ((hn j).1 h)
      have e : ∀ i : Json, i ≠ .null → deOption de i = (de i).map some := by
        intro i hi
        cases i <;> first | exact absurd rfl hi | rfl
      rw [e _ this, e _ hj, h]
  unfold optional defaulted
  rw [occ_counted]
  match occ k es with
  | [] => rfl
  | [v] => exact this v
  | _ :: _ :: _ => rfl

theorem onlyMembers_null {fields : List String} (j : Json) : j.onlyMembers fields = .null ↔ j = .null := by
  cases j <;> simp [Json.onlyMembers]

theorem onlyLinks_null (j : Json) : j.onlyLinks = .null ↔ j = .null := by
  cases j <;> simp [Json.onlyLinks]

theorem fromText_counted (j : Json) : (fromText C env j.counted : Option (Thing X)) = fromText C env j := by
  cases j with
  | obj es =>
    have hv : optional "version" deVersion (es.map countedMember) = optional "version" deVersion es :=
      optional_same (k := "version") deVersion_only onlyMembers_null es
    have hl : optional "links" (deVec (deLink env)) (es.map countedMember) = optional "links" (deVec (deLink env)) es :=
      optional_same (k := "links") deLinks_only onlyLinks_null es
    have ho : ∀ {α : Type} {k : String} {de : Json → Option α}, k ≠ "version" → k ≠ "links" →
        optional k de (es.map countedMember) = optional k de es := by
      intro α k de h1 h2
      unfold optional defaulted
      rw [occ_counted_other h1 h2]
    have hr : ∀ {α : Type} {k : String} {de : Json → Option α}, k ≠ "version" → k ≠ "links" →
        required k de (es.map countedMember) = required k de es := by
      intro α k de h1 h2
      unfold required
      rw [occ_counted_other h1 h2]
    have hd : ∀ {α : Type} {k : String} {d : α} {de : Json → Option α}, k ≠ "version" → k ≠ "links" →
        defaulted k d de (es.map countedMember) = defaulted k d de es := by
      intro α k d de h1 h2
      unfold defaulted
      rw [occ_counted_other h1 h2]
    unfold fromText
    simp only [Json.counted, deThing]
    rw [hd (by decide) (by decide), ho (k := "id") (by decide) (by decide), ho (k := "@type") (by decide) (by decide),
      hr (k := "title") (by decide) (by decide), ho (k := "titles") (by decide) (by decide),
      ho (k := "description") (by decide) (by decide), ho (k := "descriptions") (by decide) (by decide), hv,
      ho (k := "created") (by decide) (by decide), ho (k := "modified") (by decide) (by decide),
      ho (k := "support") (by decide) (by decide), ho (k := "base") (by decide) (by decide),
      ho (k := "properties") (by decide) (by decide), ho (k := "actions") (by decide) (by decide),
      ho (k := "events") (by decide) (by decide), hl, ho (k := "forms") (by decide) (by decide),
      hr (k := "security") (by decide) (by decide), hr (k := "securityDefinitions") (by decide) (by decide),
      ho (k := "uriVariables") (by decide) (by decide), ho (k := "profile") (by decide) (by decide),
      ho (k := "schemaDefinitions") (by decide) (by decide), rest_counted]
  | _ => rfl

/-- From a JSON text a Thing is read as from its tree. -/
theorem fromString_text {j : Json} {text : String} (h : JsonText fl j text) :
    (Thing.fromString C env fl text : Option (Thing X)) = fromStr C env j := by
  rw [Thing.fromString, thing_parse_iff.2 (thingText_of h), Option.bind_some, fromText_counted]
  rfl

theorem fromString_parse {j : Json} {text : String} (h : Json.parse fl text = some j) :
    (Thing.fromString C env fl text : Option (Thing X)) = fromStr C env j :=
  fromString_text (parse_iff.1 h)

theorem thingText_parse {j : Json} {text : String} (h : Json.parse fl text = some j) (e : j.counted = j) :
    ThingText fl j text := by
  have := thingText_of (parse_iff.1 h)
  rwa [e] at this

/-- What is read from a text is read from what is looked at of it. -/
theorem fromString_from {j : Json} {text : String} (h : ThingText fl j text) {t : Thing X}
    (ht : Thing.fromString C env fl text = some t) : fromText C env j = some t := by
  rw [Thing.fromString, thing_parse_iff.2 h, Option.bind_some] at ht
  split at ht
  · exact ht
  · cases ht

/-! ### Numbers -/

section
variable (hl : ∀ cs f, fl.read cs = some f → f.isFinite = true)
include hl

theorem object_inRange {P : String → Option Json → List Char → Prop}
    (hP : ∀ k j cs, P k (some j) cs → j.NumbersInRange) {j : Json} {cs : List Char} (h : ObjectBy fl P j cs) :
    j.NumbersInRange := by
  cases h with
  | empty _ => intro n hn; cases hn with | member h _ => cases h
  | obj h =>
    have : ∀ {m cs}, MembersBy P m cs → ∀ kv ∈ m, kv.2.NumbersInRange := by
      intro m cs h
      induction h with
      | @one k o _ _ _ _ _ _ _ _ _ _ h _ =>
        intro kv hkv
        cases o with
        | none => cases hkv
        | some j => cases List.mem_singleton.1 hkv; exact hP _ _ _ h
      | @cons k o _ _ _ _ _ _ _ _ _ _ _ _ h _ _ ih =>
        intro kv hkv
        rcases List.mem_append.1 hkv with hkv | hkv
        · cases o with
          | none => cases hkv
          | some j => cases List.mem_singleton.1 hkv; exact hP _ _ _ h
        · exact ih kv hkv
    intro n hn
    cases hn with | member h1 h2 => exact this h _ h1 n h2
  | other _ h => exact value_inRange hl h

theorem array_inRange {P : Json → List Char → Prop} (hP : ∀ j cs, P j cs → j.NumbersInRange) {j : Json} {cs : List Char}
    (h : ArrayBy fl P j cs) : j.NumbersInRange := by
  cases h with
  | empty _ => intro n hn; cases hn with | element h _ => cases h
  | arr h =>
    have : ∀ {l cs}, ElementsBy P l cs → ∀ j ∈ l, j.NumbersInRange := by
      intro l cs h
      induction h with
      | one _ h _ => intro i hi; cases List.mem_singleton.1 hi; exact hP _ _ h
      | cons _ h _ _ ih =>
        intro i hi
        rcases List.mem_cons.1 hi with rfl | hi
        · exact hP _ _ h
        · exact ih i hi
    intro n hn
    cases hn with | element h1 h2 => exact this h _ h1 n h2
  | other _ h => exact value_inRange hl h

theorem struct_inRange {fields : List String} {j : Json} {cs : List Char} (h : StructText fl fields j cs) : j.NumbersInRange := by
  refine object_inRange hl (fun k j cs h => ?_) h
  rcases h with ⟨-, i, h, hv⟩ | ⟨-, h, -⟩
  · cases h; exact value_inRange hl hv
  · cases h

theorem thing_inRange {j : Json} {text : String} (h : ThingText fl j text) : j.NumbersInRange := by
  obtain ⟨_, _, _, -, h, -⟩ := h
  refine object_inRange hl (fun k j cs h => ?_) h
  obtain ⟨i, h, ⟨-, hv⟩ | ⟨-, hv⟩ | ⟨-, -, hv⟩⟩ := h <;> cases h
  · exact struct_inRange hl hv
  · exact array_inRange hl (fun _ _ h => struct_inRange hl h) hv
  · exact value_inRange hl hv

end

theorem thing_last (hf : fl.Lawful) {j : Json} {text : String} (h : ThingText fl j text) : j.NumbersLast fl := by
  intro n hn
  have := thing_inRange hf.finite h n hn
  cases n with
  | pos n => exact ⟨this, fun f h => hf.keeps f h.finite⟩
  | neg n => exact ⟨this, fun f h => hf.keeps f h.finite⟩
  | float f => exact hf.keeps f this

end Wot
