import Verif.Model.LangTag
import Verif.Spec.LangTag
/-
Language tags: the state machine accepts the grammar, case does not matter, and letters get the recommended case.
-/
namespace Wot.LangTag

open Rfc5646

/-! ### Characters -/

theorem char_ind {P : Char → Prop} (h1 : ∀ n < 128, P (Char.ofNat n))
    (h2 : ∀ c : Char, 128 ≤ c.toNat → P c) (c : Char) : P c := by
  by_cases h : c.toNat < 128
  · have := h1 c.toNat h
    rwa [Char.ofNat_toNat] at this
  · exact h2 c (by omega)

theorem high {c : Char} (h : 128 ≤ c.toNat) : c.toLower = c ∧ c.toUpper = c ∧ c.isAlpha = false ∧ c.isDigit = false := by
  have h : 128 ≤ c.val.toNat := h
  have e1 : c.isUpper = false := by
    simp only [Char.isUpper, decide_eq_false_iff_not]
    intro hc
    have := UInt32.le_iff_toNat_le.1 hc.2
    simp at this; omega
  have e2 : c.isLower = false := by
    simp only [Char.isLower, Bool.and_eq_false_iff, decide_eq_false_iff_not]
    refine .inr fun hc => ?_
    have := UInt32.le_iff_toNat_le.1 hc
    simp at this; omega
  have e3 : c.isDigit = false := by
    simp only [Char.isDigit, Bool.and_eq_false_iff, decide_eq_false_iff_not]
    refine .inr fun hc => ?_
    have := UInt32.le_iff_toNat_le.1 hc
    simp at this; omega
  refine ⟨?_, ?_, by rw [Char.isAlpha, e1, e2]; rfl, e3⟩
  · unfold Char.toLower
    split
    · rename_i hc
      have := UInt32.le_iff_toNat_le.1 hc.2
      simp at this; omega
    · rfl
  · unfold Char.toUpper
    split
    · rename_i hc
      have := UInt32.le_iff_toNat_le.1 hc.2
      simp at this; omega
    · rfl

theorem lower_char (c : Char) : c.toLower.toLower = c.toLower ∧ c.toLower.toUpper = c.toUpper ∧ c.toUpper.toLower = c.toLower ∧
    c.toLower.isAlpha = c.isAlpha ∧ c.toLower.isDigit = c.isDigit ∧ c.toLower.isAlphanum = c.isAlphanum ∧
    (c.toLower = '-' ↔ c = '-') ∧ (c.toLower = 'x' ↔ c = 'x' ∨ c = 'X') ∧ c.toLower ≠ 'X' := by
  refine char_ind (P := fun c => c.toLower.toLower = c.toLower ∧ c.toLower.toUpper = c.toUpper ∧ c.toUpper.toLower = c.toLower ∧
    c.toLower.isAlpha = c.isAlpha ∧ c.toLower.isDigit = c.isDigit ∧ c.toLower.isAlphanum = c.isAlphanum ∧
    (c.toLower = '-' ↔ c = '-') ∧ (c.toLower = 'x' ↔ c = 'x' ∨ c = 'X') ∧ c.toLower ≠ 'X') (by decide +kernel) ?_ c
  intro c h
  obtain ⟨h1, h2, h3, h4⟩ := high h
  simp only [h1, h2, h3, h4, true_and]
  refine ⟨⟨.inl, ?_⟩, ?_⟩
  · rintro (rfl | rfl)
    · rfl
    · exact absurd h (by decide)
  · rintro rfl; exact absurd h (by decide)

theorem digit_cases (c : Char) : (c.isDigit = true → c.toLower = c ∧ c.toUpper = c ∧ c.isAlpha = false) ∧
    (c.isAlphanum = true → c ≠ '-') ∧ (c.isAlphanum = (c.isAlpha || c.isDigit)) := by
  refine char_ind (P := fun c => (c.isDigit = true → c.toLower = c ∧ c.toUpper = c ∧ c.isAlpha = false) ∧
    (c.isAlphanum = true → c ≠ '-') ∧ (c.isAlphanum = (c.isAlpha || c.isDigit))) (by decide +kernel) ?_ c
  intro c h
  obtain ⟨h1, h2, h3, h4⟩ := high h
  have : c.isAlphanum = false := by simp [Char.isAlphanum, h3, h4]
  simp [h3, h4, this]

/-! ### Subtags -/

theorem lower_lower (t : List Char) : lower (lower t) = lower t := by
  simp only [lower, List.map_map]
  exact List.map_congr_left fun c _ => (lower_char c).1

theorem upper_lower (t : List Char) : upper (lower t) = upper t := by
  simp only [lower, upper, List.map_map]
  exact List.map_congr_left fun c _ => (lower_char c).2.1

theorem lower_upper (t : List Char) : lower (upper t) = lower t := by
  simp only [lower, upper, List.map_map]
  exact List.map_congr_left fun c _ => (lower_char c).2.2.1

theorem title_lower (t : List Char) : title (lower t) = title t := by
  cases t with
  | nil => rfl
  | cons c t =>
    show c.toLower.toUpper :: lower (lower t) = _
    rw [lower_lower, (lower_char c).2.1]; rfl

theorem lower_title (t : List Char) : lower (title t) = lower t := by
  cases t with
  | nil => rfl
  | cons c t =>
    show c.toUpper.toLower :: lower (lower t) = _
    rw [lower_lower, (lower_char c).2.2.1]; rfl

theorem length_lower (t : List Char) : (lower t).length = t.length := List.length_map ..

theorem alphabetic_lower (t : List Char) : alphabetic (lower t) = alphabetic t := by
  simp only [alphabetic, lower, List.all_map]
  exact congrArg (t.all ·) (funext fun c => (lower_char c).2.2.2.1)

theorem numeric_lower (t : List Char) : numeric (lower t) = numeric t := by
  simp only [numeric, lower, List.all_map]
  exact congrArg (t.all ·) (funext fun c => (lower_char c).2.2.2.2.1)

theorem alphanumeric_lower (t : List Char) : alphanumeric (lower t) = alphanumeric t := by
  simp only [alphanumeric, lower, List.all_map]
  exact congrArg (t.all ·) (funext fun c => (lower_char c).2.2.2.2.2.1)

theorem take_lower (n : Nat) (t : List Char) : (lower t).take n = lower (t.take n) := (List.map_take ..).symm

theorem x_lower (t : List Char) : (lower t = ['x'] ∨ lower t = ['X']) ↔ (t = ['x'] ∨ t = ['X']) := by
  match t with
  | [] => simp [lower]
  | [c] =>
    have := lower_char c
    simp [lower, this]
  | _ :: _ :: _ => simp [lower]

theorem step_lower (st : State) (t : List Char) : step st (lower t) = step st t := by
  unfold step
  simp only [length_lower, alphabetic_lower, numeric_lower, alphanumeric_lower, x_lower, take_lower, lower_lower, upper_lower,
    title_lower]

theorem run_lower (st : State) (ts : List (List Char)) : run st (ts.map lower) = run st ts := by
  induction ts generalizing st with
  | nil => rfl
  | cons t ts ih => simp only [List.map_cons, run, step_lower, ih]

theorem subtags_ne (cs : List Char) : subtags cs ≠ [] := by
  cases cs with
  | nil => nofun
  | cons c cs =>
    unfold subtags
    intro h
    split at h
    · cases h
    · split at h <;> cases h

theorem subtags_lower (cs : List Char) : subtags (lower cs) = (subtags cs).map lower := by
  induction cs with
  | nil => rfl
  | cons c cs ih =>
    show subtags (c.toLower :: lower cs) = _
    unfold subtags
    rw [ih]
    have := (lower_char c).2.2.2.2.2.2.1
    by_cases h : c = '-'
    · rw [if_pos h, if_pos (this.2 h)]; rfl
    · rw [if_neg h, if_neg fun e => h (this.1 e)]
      cases subtags cs <;> rfl

theorem join_cons (t u : List Char) (us : List (List Char)) : join (t :: u :: us) = t ++ '-' :: join (u :: us) := rfl

theorem join_subtags (cs : List Char) : join (subtags cs) = cs := by
  induction cs with
  | nil => rfl
  | cons c cs ih =>
    unfold subtags
    have hne := subtags_ne cs
    split
    · rename_i h
      subst h
      cases hs : subtags cs with
      | nil => exact absurd hs hne
      | cons t ts => rw [hs] at ih; simp only [join, List.nil_append, ih]
    · cases hs : subtags cs with
      | nil => exact absurd hs hne
      | cons t ts =>
        rw [hs] at ih
        cases ts with
        | nil => simp only [join] at *; rw [ih]
        | cons u us => simp only [join, List.cons_append] at *; rw [ih]

theorem subtags_join {l : List (List Char)} (hne : l ≠ []) (h : ∀ t ∈ l, '-' ∉ t) : subtags (join l) = l := by
  have one : ∀ t : List Char, '-' ∉ t → ∀ rest, (subtags (t ++ rest)) =
      match subtags rest with | [] => [t] | u :: us => (t ++ u) :: us := by
    intro t
    induction t with
    | nil => intro _ rest; have := subtags_ne rest; cases h : subtags rest with
      | nil => exact absurd h this
      | cons u us => simp [h]
    | cons c t ih =>
      intro hc rest
      rw [List.mem_cons, not_or] at hc
      rw [List.cons_append, subtags, if_neg fun e => hc.1 e.symm, ih hc.2 rest]
      cases subtags rest <;> rfl
  induction l with
  | nil => exact absurd rfl hne
  | cons t ts ih =>
    have ht := h t (List.mem_cons_self ..)
    cases ts with
    | nil =>
      have := one t ht []
      simpa [join, subtags] using this
    | cons u us =>
      have := ih (by simp) fun t ht => h t (List.mem_cons_of_mem _ ht)
      rw [join, one t ht, subtags, if_pos rfl, this]
      · simp
      · nofun

theorem subtags_no_hyphen (cs : List Char) : ∀ t ∈ subtags cs, '-' ∉ t := by
  induction cs with
  | nil => simp [subtags]
  | cons c cs ih =>
    intro t ht
    unfold subtags at ht
    split at ht
    · rcases List.mem_cons.1 ht with rfl | ht
      · simp
      · exact ih t ht
    · rename_i hc
      split at ht
      · cases List.mem_singleton.1 ht; simpa using fun e => hc (Eq.symm e)
      · rename_i u us hs
        rcases List.mem_cons.1 ht with rfl | ht
        · rw [List.mem_cons, not_or]
          exact ⟨fun e => hc e.symm, ih u (by rw [hs]; exact List.mem_cons_self ..)⟩
        · exact ih t (by rw [hs]; exact List.mem_cons_of_mem _ ht)

theorem join_intercalate (l : List (List Char)) : join l = List.intercalate ['-'] l := by
  induction l with
  | nil => rfl
  | cons t ts ih =>
    cases ts with
    | nil => simp [join, List.intercalate]
    | cons u us =>
      rw [join, ih]
      · simp [List.intercalate, List.intersperse]
      · nofun

theorem join_lower (l : List (List Char)) : lower (join l) = join (l.map lower) := by
  induction l with
  | nil => rfl
  | cons t ts ih =>
    cases ts with
    | nil => rfl
    | cons u us =>
      rw [join_cons, List.map_cons, List.map_cons, join_cons, ← List.map_cons, ← ih]
      simp [lower]

theorem hyphenated_iff {s : String} {l : List (List Char)} : Hyphenated s l ↔ subtags s.toList = l := by
  unfold Hyphenated
  rw [← join_intercalate]
  constructor
  · rintro ⟨h1, h2, h3⟩; rw [h1, subtags_join h2 h3]
  · rintro rfl; exact ⟨(join_subtags _).symm, subtags_ne _, subtags_no_hyphen _⟩

/-! ### The output -/

theorem step_out {st st' : State} {t out : List Char} (h : step st t = some (st', out)) : lower out = lower t := by
  unfold step at h
  repeat' split at h
  all_goals first
    | (cases h; done)
    | (simp only [Option.some.injEq, Prod.mk.injEq] at h; obtain ⟨-, rfl⟩ := h
       first | exact lower_lower _ | exact lower_upper _ | exact lower_title _ | skip)
  rename_i hx _
  rcases hx with rfl | rfl <;> decide

theorem run_out {st : State} {ts outs : List (List Char)} (h : run st ts = some outs) : outs.map lower = ts.map lower := by
  induction ts generalizing st outs with
  | nil => unfold run at h; split at h <;> cases h; rfl
  | cons t ts ih =>
    unfold run at h
    split at h
    · cases h
    · rename_i hs
      obtain ⟨outs', h1, rfl⟩ := Option.map_eq_some_iff.1 h
      rw [List.map_cons, List.map_cons, ih h1, step_out hs]

theorem parseTag_lower (cs : List Char) : parseTag (lower cs) = parseTag cs := by
  have hx : ((lower cs).take 2 = ['x', '-'] ∨ (lower cs).take 2 = ['X', '-']) ↔ (cs.take 2 = ['x', '-'] ∨ cs.take 2 = ['X', '-']) := by
    match cs with
    | [] => simp [lower]
    | [c] => simp [lower]
    | c :: d :: cs =>
      have h1 := lower_char c
      have h2 := lower_char d
      simp only [lower, List.map_cons, List.take_succ_cons, List.take_zero, List.cons.injEq, and_true, h1, h2, false_and, or_false]
      constructor
      · rintro ⟨h | h, h'⟩
        · exact .inl ⟨h, h'⟩
        · exact .inr ⟨h, h'⟩
      · rintro (⟨h, h'⟩ | ⟨h, h'⟩)
        · exact ⟨.inl h, h'⟩
        · exact ⟨.inr h, h'⟩
  have ha : (lower cs).all (fun c => c.isAlphanum || c == '-') = cs.all (fun c => c.isAlphanum || c == '-') := by
    simp only [lower, List.all_map]
    refine congrArg (cs.all ·) (funext fun c => ?_)
    have h := lower_char c
    have e : (c.toLower == '-') = (c == '-') := by
      rw [Bool.eq_iff_iff, beq_iff_eq, beq_iff_eq]; exact h.2.2.2.2.2.2.1
    simp only [Function.comp, h.2.2.2.2.2.1, e]
  unfold parseTag
  simp only [lower_lower, hx, ha, length_lower, subtags_lower, run_lower]

theorem parseTag_out {cs out : List Char} (h : parseTag cs = some out) : lower out = lower cs := by
  unfold parseTag at h
  split at h
  · rename_i g hg
    cases h
    have := List.find?_some hg
    simpa using this
  · split at h
    · repeat' split at h
      all_goals first | (cases h; done) | skip
      cases h
      exact lower_lower _
    · obtain ⟨outs, h1, rfl⟩ := Option.map_eq_some_iff.1 h
      rw [join_lower, run_out h1, ← join_lower, join_subtags]

/-! ### The case of letters -/

/-- The case of one subtag. -/
def casedOne (singleton : Bool) (t : List Char) : List Char :=
  if singleton = false ∧ t.length = 2 ∧ t.all Char.isAlpha then t.map Char.toUpper
  else if singleton = false ∧ t.length = 4 ∧ t.all Char.isAlpha then (t.take 1).map Char.toUpper ++ (t.drop 1).map Char.toLower
  else t.map Char.toLower

theorem casedAfter_cons (b : Bool) (t : List Char) (ts : List (List Char)) :
    casedAfter b (t :: ts) = casedOne b t :: casedAfter (b || t.length = 1) ts := rfl

theorem casedOne_true (t : List Char) : casedOne true t = lower t := by simp [casedOne, lower]

theorem casedOne_other (b : Bool) {t : List Char} (h2 : t.length ≠ 2) (h4 : t.length ≠ 4) : casedOne b t = lower t := by
  simp [casedOne, lower, h2, h4]

theorem casedOne_lower (b : Bool) (t : List Char) : casedOne b (lower t) = casedOne b t := by
  have ha : (lower t).all Char.isAlpha = t.all Char.isAlpha := alphabetic_lower t
  have hu : (lower t).map Char.toUpper = t.map Char.toUpper := upper_lower t
  have hl : (lower t).map Char.toLower = t.map Char.toLower := lower_lower t
  have ht : ((lower t).take 1).map Char.toUpper ++ ((lower t).drop 1).map Char.toLower =
      (t.take 1).map Char.toUpper ++ (t.drop 1).map Char.toLower := by
    cases t with
    | nil => rfl
    | cons c t =>
      have := lower_lower t
      simp only [lower] at this
      simp [lower, (lower_char c).2.1]
      simpa using this
  unfold casedOne
  simp only [length_lower, ha, hu, hl, ht]

theorem casedAfter_lower (b : Bool) (ts : List (List Char)) : casedAfter b (ts.map lower) = casedAfter b ts := by
  induction ts generalizing b with
  | nil => rfl
  | cons t ts ih => rw [List.map_cons, casedAfter_cons, casedAfter_cons, casedOne_lower, length_lower, ih]

theorem cased_lower (ts : List (List Char)) : cased (ts.map lower) = cased ts := by
  cases ts with
  | nil => rfl
  | cons t ts =>
    show lower (lower t) :: casedAfter ((lower t).length = 1) (ts.map lower) = _
    rw [lower_lower, length_lower, casedAfter_lower]; rfl

/-- A singleton has been seen. -/
def State.singleton : State → Bool
  | .inExtension _ | .inPrivateUse _ => true
  | _ => false

theorem upper_numeric {t : List Char} (h : numeric t = true) : upper t = lower t := by
  unfold upper lower
  refine List.map_congr_left fun c hc => ?_
  obtain ⟨h1, h2, -⟩ := (digit_cases c).1 (List.all_eq_true.1 h c hc)
  rw [h1, h2]

theorem step_cased {st st' : State} {t out : List Char} (hs : st ≠ .start) (h : step st t = some (st', out)) :
    out = casedOne st.singleton t ∧ st'.singleton = (st.singleton || decide (t.length = 1)) ∧ st' ≠ .start := by
  unfold step at h
  split at h
  · cases h
  rename_i hlen
  try rw [if_neg hs] at h
  split at h
  · rename_i hp
    have hp : st.singleton = true := by rcases hp with rfl | rfl <;> rfl
    split at h
    · cases h
    · cases h
      rw [hp, casedOne_true]
      exact ⟨rfl, rfl, nofun⟩
  rename_i hnp
  split at h
  · rename_i hx
    have h1 : t.length = 1 := by rcases hx with rfl | rfl <;> rfl
    split at h
    · cases h
    · cases h
      refine ⟨?_, by simp [h1, State.singleton], nofun⟩
      rw [casedOne_other _ (by omega) (by omega)]
      rcases hx with rfl | rfl <;> decide
  split at h
  · rename_i h1
    split at h
    · cases h
    · cases h
      exact ⟨(casedOne_other _ (by omega) (by omega)).symm, by simp [h1.1, State.singleton], nofun⟩
  rename_i hnx hns
  split at h
  · rename_i he
    have he : st.singleton = true := by rcases he with rfl | rfl <;> rfl
    split at h
    · cases h
    · cases h
      rw [he, casedOne_true]
      exact ⟨rfl, rfl, nofun⟩
  rename_i hne
  have hf : st.singleton = false := by
    cases st with
    | inExtension b => cases b <;> simp at hne
    | inPrivateUse b => cases b <;> simp at hnp
    | _ => rfl
  rw [hf]
  split at h
  · rename_i h3
    simp only [Bool.and_eq_true, decide_eq_true_eq] at h3
    split at h
    · cases h
    · cases h
      exact ⟨(casedOne_other _ (by omega) (by omega)).symm, by simp [h3.1, State.singleton], nofun⟩
  · split at h
    · rename_i h4
      cases h
      refine ⟨?_, by simp [h4.2.1, State.singleton], nofun⟩
      have h4' : t.all Char.isAlpha = true := h4.2.2
      unfold casedOne
      rw [if_neg (by omega), if_pos ⟨rfl, h4.2.1, h4'⟩]
      cases t with
      | nil => cases h4.2.1
      | cons c t => rfl
    · split at h
      · rename_i h23
        cases h
        rcases h23.2 with ⟨h2, ha⟩ | ⟨h3, hn⟩
        · have ha : t.all Char.isAlpha = true := ha
          refine ⟨?_, by simp [h2, State.singleton], nofun⟩
          unfold casedOne
          rw [if_pos ⟨rfl, h2, ha⟩]; rfl
        · refine ⟨?_, by simp [h3, State.singleton], nofun⟩
          rw [upper_numeric hn, casedOne_other _ (by omega) (by omega)]
      · split at h
        · rename_i hv
          cases h
          obtain ⟨-, -, hv⟩ := hv
          have h1 : t.length ≠ 1 := by omega
          refine ⟨?_, by simp [h1, State.singleton], nofun⟩
          by_cases h4 : t.length = 4
          · rcases hv with ⟨hv, -⟩ | ⟨-, hv⟩
            · omega
            · unfold casedOne
              rw [if_neg (by omega), if_neg]
              · rfl
              · rintro ⟨-, -, ha⟩
                cases t with
                | nil => cases h4
                | cons c t =>
                  have h1 := ((digit_cases c).1 (by simpa [numeric] using hv)).2.2
                  simp [h1] at ha
          · exact (casedOne_other _ (by omega) h4).symm
        · cases h

theorem run_cased {st : State} {ts outs : List (List Char)} (hs : st ≠ .start) (h : run st ts = some outs) :
    outs = casedAfter st.singleton ts := by
  induction ts generalizing st outs with
  | nil => unfold run at h; split at h <;> cases h; rfl
  | cons t ts ih =>
    unfold run at h
    split at h
    · cases h
    · rename_i hst
      obtain ⟨outs', h1, rfl⟩ := Option.map_eq_some_iff.1 h
      obtain ⟨e1, e2, e3⟩ := step_cased hs hst
      rw [casedAfter_cons, ih e3 h1, e1, e2]

theorem step_start {st' : State} {t out : List Char} (h : step .start t = some (st', out)) :
    out = lower t ∧ st'.singleton = false ∧ st' ≠ .start ∧ t.length ≠ 1 := by
  unfold step at h
  split at h
  · cases h
  rw [if_pos rfl] at h
  split at h
  · cases h
  · rename_i hl
    simp only [Option.some.injEq, Prod.mk.injEq] at h
    obtain ⟨rfl, rfl⟩ := h
    refine ⟨rfl, by split <;> rfl, by split <;> nofun, by omega⟩

theorem run_start_cased {ts outs : List (List Char)} (hne : ts ≠ []) (h : run .start ts = some outs) : outs = cased ts := by
  cases ts with
  | nil => exact absurd rfl hne
  | cons t ts =>
    unfold run at h
    split at h
    · cases h
    · rename_i hst
      obtain ⟨outs', h1, rfl⟩ := Option.map_eq_some_iff.1 h
      obtain ⟨e1, e2, e3, e4⟩ := step_start hst
      rw [run_cased e3 h1, e1, e2]
      simp only [cased, decide_eq_false e4]; rfl

theorem casedAfter_true (ts : List (List Char)) : casedAfter true ts = ts.map lower := by
  induction ts with
  | nil => rfl
  | cons t ts ih => rw [casedAfter_cons, casedOne_true, Bool.true_or, ih]; rfl

theorem casedOne_hyphen {b : Bool} {t : List Char} (h : '-' ∉ t) : '-' ∉ casedOne b t := by
  have hl : ∀ l : List Char, '-' ∉ l → '-' ∉ l.map Char.toLower := fun l h hm => by
    obtain ⟨c, hc, e⟩ := List.mem_map.1 hm
    exact h ((lower_char c).2.2.2.2.2.2.1.1 e ▸ hc)
  have hu : ∀ l : List Char, '-' ∉ l → '-' ∉ l.map Char.toUpper := fun l h hm => by
    obtain ⟨c, hc, e⟩ := List.mem_map.1 hm
    have := congrArg Char.toLower e
    rw [(lower_char c).2.2.1] at this
    exact h ((lower_char c).2.2.2.2.2.2.1.1 this ▸ hc)
  unfold casedOne
  split
  · exact hu t h
  · split
    · rw [List.mem_append, not_or]
      exact ⟨hu _ fun hm => h (List.mem_of_mem_take hm), hl _ fun hm => h (List.mem_of_mem_drop hm)⟩
    · exact hl t h

theorem casedAfter_no_hyphen {l : List (List Char)} (b : Bool) (h : ∀ t ∈ l, '-' ∉ t) : ∀ t ∈ casedAfter b l, '-' ∉ t := by
  induction l generalizing b with
  | nil => nofun
  | cons t ts ih =>
    rw [casedAfter_cons]
    exact List.forall_mem_cons.2 ⟨casedOne_hyphen (h t (List.mem_cons_self ..)), ih _ fun t ht => h t (List.mem_cons_of_mem _ ht)⟩

theorem cased_no_hyphen {l : List (List Char)} (h : ∀ t ∈ l, '-' ∉ t) : ∀ t ∈ cased l, '-' ∉ t := by
  cases l with
  | nil => nofun
  | cons t ts =>
    show ∀ u ∈ lower t :: casedAfter _ ts, _
    rw [← casedOne_true]
    exact List.forall_mem_cons.2
      ⟨casedOne_hyphen (h t (List.mem_cons_self ..)), casedAfter_no_hyphen _ fun t ht => h t (List.mem_cons_of_mem _ ht)⟩

theorem cased_ne {l : List (List Char)} (h : l ≠ []) : cased l ≠ [] := by
  cases l with
  | nil => exact absurd rfl h
  | cons t ts => nofun

theorem grandfathered_cased : ∀ g ∈ grandfathered, join (cased (subtags g.toList)) = g.toList := by decide +kernel

/-- Letters get the recommended case. -/
theorem parseTag_cased {cs out : List Char} (h : parseTag cs = some out) : out = join (cased (subtags cs)) := by
  unfold parseTag at h
  split at h
  · rename_i g hg
    cases h
    have h1 : lower g.toList = lower cs := by have := List.find?_some hg; simpa using this
    rw [← cased_lower, ← subtags_lower, ← h1, subtags_lower, cased_lower, grandfathered_cased g (List.mem_of_find?_eq_some hg)]
  · split at h
    · rename_i hx
      repeat' split at h
      all_goals first | (cases h; done) | skip
      cases h
      have : ∃ x cs', cs = x :: '-' :: cs' := by
        match cs, hx with
        | [], h => simp at h
        | [c], h => simp at h
        | c :: d :: cs, h =>
          simp only [List.take_succ_cons, List.take_zero, List.cons.injEq, and_true] at h
          rcases h with ⟨-, rfl⟩ | ⟨-, rfl⟩ <;> exact ⟨_, _, rfl⟩
      obtain ⟨x, cs', rfl⟩ := this
      have hxd : x ≠ '-' := by
        rcases hx with hx | hx
        · simp only [List.take_succ_cons, List.take_zero, List.cons.injEq, and_true] at hx; rw [hx]; decide
        · simp only [List.take_succ_cons, List.take_zero, List.cons.injEq, and_true] at hx; rw [hx]; decide
      have hs : subtags (x :: '-' :: cs') = [x] :: subtags cs' := by
        rw [subtags, if_neg hxd, subtags, if_pos rfl]
      have : cased (subtags (x :: '-' :: cs')) = (subtags (x :: '-' :: cs')).map lower := by
        rw [hs]
        show lower [x] :: casedAfter true _ = _
        rw [casedAfter_true]; rfl
      rw [this, ← join_lower, join_subtags]
    · obtain ⟨outs, h1, rfl⟩ := Option.map_eq_some_iff.1 h
      rw [run_start_cased (subtags_ne _) h1]

/-! ### The grammar -/

theorem letters_iff {lo hi : Nat} {t : List Char} : Letters lo hi t ↔ lo ≤ t.length ∧ t.length ≤ hi ∧ alphabetic t = true := by
  simp [Letters, alphabetic]

theorem figures_iff {lo hi : Nat} {t : List Char} : Figures lo hi t ↔ lo ≤ t.length ∧ t.length ≤ hi ∧ numeric t = true := by
  simp [Figures, numeric]

theorem alphanum_iff {lo hi : Nat} {t : List Char} : Alphanumeric lo hi t ↔ lo ≤ t.length ∧ t.length ≤ hi ∧ alphanumeric t = true := by
  simp [Alphanumeric, alphanumeric]

theorem variant_iff {t : List Char} : IsVariant t ↔ t.length ≤ 8 ∧ alphanumeric t = true ∧
    (5 ≤ t.length ∧ alphabetic (t.take 1) = true ∨ 4 ≤ t.length ∧ numeric (t.take 1) = true) := by
  unfold IsVariant
  rw [alphanum_iff]
  cases t with
  | nil => simp
  | cons c t =>
    have hc := (digit_cases c).2.2
    have e1 : alphabetic (List.take 1 (c :: t)) = c.isAlpha := by simp [alphabetic]
    have e2 : numeric (List.take 1 (c :: t)) = c.isDigit := by simp [numeric]
    have e3 : alphanumeric (c :: t) = (c.isAlphanum && alphanumeric t) := by simp [alphanumeric]
    rw [e1, e2, e3, hc]
    simp only [List.cons.injEq, alphanum_iff, List.length_cons, Bool.and_eq_true, Bool.or_eq_true]
    constructor
    · rintro (⟨h1, h2, h3, h4⟩ | ⟨d, r, ⟨rfl, rfl⟩, h1, h2, h3, h4⟩)
      · refine ⟨h2, ⟨h3, h4⟩, ?_⟩
        rcases h3 with h3 | h3
        · exact .inl ⟨by omega, h3⟩
        · exact .inr ⟨by omega, h3⟩
      · exact ⟨by omega, ⟨.inr h1, h4⟩, .inr ⟨by omega, h1⟩⟩
    · rintro ⟨h1, ⟨h2, h3⟩, ⟨h4, h5⟩ | ⟨h4, h5⟩⟩
      · exact .inl ⟨h4, h1, h2, h3⟩
      · by_cases h : t.length = 3
        · exact .inr ⟨c, t, ⟨rfl, rfl⟩, h5, by omega, by omega, h3⟩
        · exact .inl ⟨by omega, h1, h2, h3⟩

/-- The next state. -/
def next (st : State) (t : List Char) : Option State := (step st t).map Prod.fst

theorem single_iff {t : List Char} : (t.length = 1 ∧ alphanumeric t = true ∧ ¬(t = ['x'] ∨ t = ['X'])) ↔
    ∃ s : Char, t = [s] ∧ s.isAlphanum = true ∧ s ∉ ['x', 'X'] := by
  match t with
  | [] => simp
  | [c] => simp [alphanumeric]
  | _ :: _ :: _ => simp

theorem x_iff {t : List Char} : (t = ['x'] ∨ t = ['X']) ↔ ∃ s : Char, t = [s] ∧ s ∈ ['x', 'X'] := by
  match t with
  | [] => simp
  | [c] => simp
  | _ :: _ :: _ => simp

/-- Before any singleton. -/
def State.early : State → Prop
  | .afterLanguage _ | .afterExtLang | .afterScript | .afterRegion => True
  | _ => False

theorem next_early {st st' : State} {t : List Char} (hs : st.early) : next st t = some st' ↔
    ((t = ['x'] ∨ t = ['X']) ∧ st' = .inPrivateUse true) ∨
    ((t.length = 1 ∧ alphanumeric t = true ∧ ¬(t = ['x'] ∨ t = ['X'])) ∧ st' = .inExtension true) ∨
    (∃ n, st = .afterLanguage n ∧ n < 3 ∧ Letters 3 3 t ∧ st' = .afterLanguage (n + 1)) ∨
    (st.beforeScript = true ∧ Letters 4 4 t ∧ st' = .afterScript) ∨
    (st.beforeRegion = true ∧ (Letters 2 2 t ∨ Figures 3 3 t) ∧ st' = .afterRegion) ∨
    (st.beforeVariant = true ∧ IsVariant t ∧ st' = .afterRegion) := by
  rw [letters_iff, letters_iff, letters_iff, figures_iff, variant_iff]
  have hd1 : numeric (t.take 1) = true → 0 < t.length → alphabetic t = false := by
    cases t with
    | nil => simp
    | cons c t =>
      intro h _
      have := ((digit_cases c).1 (by simpa [numeric] using h)).2.2
      simp [alphabetic, this]
  have hd2 : numeric t = true → numeric (t.take 1) = true := by
    intro h
    refine List.all_eq_true.2 fun c hc => List.all_eq_true.1 h c (List.mem_of_mem_take hc)
  have hx : (t = ['x'] ∨ t = ['X']) → t.length = 1 := by
    rintro (rfl | rfl) <;> rfl
  unfold next step
  cases st with
  | start => cases hs
  | inExtension b => cases hs
  | inPrivateUse b => cases hs
  | afterLanguage n =>
    cases hb : (decide (t.length = 3) && alphabetic t) <;>
    · simp only [reduceCtorEq, or_false, if_false, State.beforeScript, State.beforeRegion, State.beforeVariant,
        State.afterLanguage.injEq, exists_eq_left']
      grind (splits := 40)
  | _ =>
    simp only [reduceCtorEq, or_false, if_false, State.beforeScript, State.beforeRegion, State.beforeVariant]
    grind (splits := 40)

theorem next_extension {b : Bool} {st' : State} {t : List Char} : next (.inExtension b) t = some st' ↔
    (b = false ∧ (t = ['x'] ∨ t = ['X']) ∧ st' = .inPrivateUse true) ∨
    (b = false ∧ (t.length = 1 ∧ alphanumeric t = true ∧ ¬(t = ['x'] ∨ t = ['X'])) ∧ st' = .inExtension true) ∨
    (Alphanumeric 2 8 t ∧ st' = .inExtension false) := by
  rw [alphanum_iff]
  have hx : (t = ['x'] ∨ t = ['X']) → t.length = 1 := by
    rintro (rfl | rfl) <;> rfl
  unfold next step
  cases b <;>
  · simp only [reduceCtorEq, or_false, if_false]
    grind

theorem next_private {b : Bool} {st' : State} {t : List Char} : next (.inPrivateUse b) t = some st' ↔
    Alphanumeric 1 8 t ∧ st' = .inPrivateUse false := by
  rw [alphanum_iff]
  unfold next step
  cases b <;>
  · simp only [reduceCtorEq, or_false, if_false]
    grind

theorem next_start {st' : State} {t : List Char} : next .start t = some st' ↔
    (Letters 2 3 t ∧ st' = .afterLanguage 0) ∨ (Letters 4 8 t ∧ st' = .afterExtLang) := by
  rw [letters_iff, letters_iff]
  unfold next step
  grind

/-- The rest of a tag is accepted. -/
def Ok (st : State) (ts : List (List Char)) : Prop := (run st ts).isSome = true

theorem ok_nil {st : State} : Ok st [] ↔ st ≠ .inExtension true ∧ st ≠ .inPrivateUse true := by
  unfold Ok run
  split
  · rename_i h; rcases h with rfl | rfl <;> simp
  · rename_i h; simpa using h

theorem ok_cons {st : State} {t : List Char} {ts : List (List Char)} : Ok st (t :: ts) ↔ ∃ st', next st t = some st' ∧ Ok st' ts := by
  show (run st (t :: ts)).isSome = true ↔ ∃ st', next st t = some st' ∧ (run st' ts).isSome = true
  rw [run]
  unfold next
  cases h : step st t with
  | none => simp
  | some p => obtain ⟨st', out⟩ := p; simp

/-! The same for the grammar. -/

def P1 (ts : List (List Char)) : Prop := ts ≠ [] ∧ ∀ t ∈ ts, Alphanumeric 1 8 t
def P0 (ts : List (List Char)) : Prop := ∀ t ∈ ts, Alphanumeric 1 8 t
def Rest (ts : List (List Char)) : Prop :=
  ∃ es p, ts = List.flatten es ++ p ∧ (∀ e ∈ es, IsExtension e) ∧ (p = [] ∨ IsPrivateUse p)
def E1 (ts : List (List Char)) : Prop := ∃ us rest, ts = us ++ rest ∧ us ≠ [] ∧ (∀ t ∈ us, Alphanumeric 2 8 t) ∧ Rest rest
def E0 (ts : List (List Char)) : Prop := ∃ us rest, ts = us ++ rest ∧ (∀ t ∈ us, Alphanumeric 2 8 t) ∧ Rest rest
def V (ts : List (List Char)) : Prop := ∃ vs rest, ts = vs ++ rest ∧ (∀ t ∈ vs, IsVariant t) ∧ Rest rest
def R (ts : List (List Char)) : Prop := ∃ r rest, ts = r ++ rest ∧ MayRegion r ∧ V rest
def S (ts : List (List Char)) : Prop := ∃ s rest, ts = s ++ rest ∧ MayScript s ∧ R rest
def L (n : Nat) (ts : List (List Char)) : Prop :=
  ∃ e rest, ts = e ++ rest ∧ n + e.length ≤ 3 ∧ (∀ t ∈ e, Letters 3 3 t) ∧ S rest

theorem rest_nil : Rest [] := ⟨[], [], rfl, by simp, .inl rfl⟩
theorem v_of_rest {ts} (h : Rest ts) : V ts := ⟨[], ts, rfl, by simp, h⟩
theorem r_of_v {ts} (h : V ts) : R ts := ⟨[], ts, rfl, .inl rfl, h⟩
theorem s_of_r {ts} (h : R ts) : S ts := ⟨[], ts, rfl, .inl rfl, h⟩
theorem l_of_s {n ts} (hn : n ≤ 3) (h : S ts) : L n ts := ⟨[], ts, rfl, by simpa using hn, by simp, h⟩

theorem rest_cons {t : List Char} {ts} : Rest (t :: ts) ↔
    (∃ s : Char, t = [s] ∧ s ∈ ['x', 'X']) ∧ P1 ts ∨ (∃ s : Char, t = [s] ∧ s.isAlphanum = true ∧ s ∉ ['x', 'X']) ∧ E1 ts := by
  constructor
  · rintro ⟨es, p, h, he, hp⟩
    cases es with
    | nil =>
      rcases hp with rfl | ⟨s, us, rfl, hs, hne, hu⟩
      · cases h
      · cases h
        exact .inl ⟨⟨s, rfl, hs⟩, hne, hu⟩
    | cons e es =>
      obtain ⟨s, us, rfl, hs, hx, hne, hu⟩ := he _ (List.mem_cons_self ..)
      simp only [List.flatten_cons, List.cons_append, List.cons.injEq, List.append_assoc] at h
      obtain ⟨rfl, rfl⟩ := h
      exact .inr ⟨⟨s, rfl, hs, hx⟩, us, _, rfl, hne, hu, es, p, rfl, fun e h => he e (List.mem_cons_of_mem _ h), hp⟩
  · rintro (⟨⟨s, rfl, hs⟩, hne, hu⟩ | ⟨⟨s, rfl, hs, hx⟩, us, _, rfl, hne, hu, es, p, rfl, he, hp⟩)
    · exact ⟨[], [s] :: ts, rfl, by simp, .inr ⟨s, ts, rfl, hs, hne, hu⟩⟩
    · refine ⟨([s] :: us) :: es, p, by simp, ?_, hp⟩
      intro e h
      rcases List.mem_cons.1 h with rfl | h
      · exact ⟨s, us, rfl, hs, hx, hne, hu⟩
      · exact he e h

theorem e1_cons {t : List Char} {ts} : E1 (t :: ts) ↔ Alphanumeric 2 8 t ∧ E0 ts := by
  constructor
  · rintro ⟨us, rest, h, hne, hu, hr⟩
    cases us with
    | nil => exact absurd rfl hne
    | cons u us =>
      cases h
      exact ⟨hu _ (List.mem_cons_self ..), us, rest, rfl, fun t h => hu t (List.mem_cons_of_mem _ h), hr⟩
  · rintro ⟨h, us, rest, rfl, hu, hr⟩
    exact ⟨t :: us, rest, rfl, by simp, List.forall_mem_cons.2 ⟨h, hu⟩, hr⟩

theorem e0_cons {t : List Char} {ts} : E0 (t :: ts) ↔ Alphanumeric 2 8 t ∧ E0 ts ∨ Rest (t :: ts) := by
  constructor
  · rintro ⟨us, rest, h, hu, hr⟩
    cases us with
    | nil => cases h; exact .inr hr
    | cons u us =>
      cases h
      exact .inl ⟨hu _ (List.mem_cons_self ..), us, rest, rfl, fun t h => hu t (List.mem_cons_of_mem _ h), hr⟩
  · rintro (⟨h, us, rest, rfl, hu, hr⟩ | h)
    · exact ⟨t :: us, rest, rfl, List.forall_mem_cons.2 ⟨h, hu⟩, hr⟩
    · exact ⟨[], _, rfl, by simp, h⟩

theorem v_cons {t : List Char} {ts} : V (t :: ts) ↔ IsVariant t ∧ V ts ∨ Rest (t :: ts) := by
  constructor
  · rintro ⟨us, rest, h, hu, hr⟩
    cases us with
    | nil => cases h; exact .inr hr
    | cons u us =>
      cases h
      exact .inl ⟨hu _ (List.mem_cons_self ..), us, rest, rfl, fun t h => hu t (List.mem_cons_of_mem _ h), hr⟩
  · rintro (⟨h, us, rest, rfl, hu, hr⟩ | h)
    · exact ⟨t :: us, rest, rfl, List.forall_mem_cons.2 ⟨h, hu⟩, hr⟩
    · exact ⟨[], _, rfl, by simp, h⟩

theorem r_cons {t : List Char} {ts} : R (t :: ts) ↔ (Letters 2 2 t ∨ Figures 3 3 t) ∧ V ts ∨ V (t :: ts) := by
  constructor
  · rintro ⟨_, rest, h, rfl | ⟨u, rfl, hu⟩, hr⟩
    · cases h; exact .inr hr
    · cases h; exact .inl ⟨hu, hr⟩
  · rintro (⟨h, hr⟩ | h)
    · exact ⟨[t], ts, rfl, .inr ⟨t, rfl, h⟩, hr⟩
    · exact r_of_v h

theorem s_cons {t : List Char} {ts} : S (t :: ts) ↔ Letters 4 4 t ∧ R ts ∨ R (t :: ts) := by
  constructor
  · rintro ⟨_, rest, h, rfl | ⟨u, rfl, hu⟩, hr⟩
    · cases h; exact .inr hr
    · cases h; exact .inl ⟨hu, hr⟩
  · rintro (⟨h, hr⟩ | h)
    · exact ⟨[t], ts, rfl, .inr ⟨t, rfl, h⟩, hr⟩
    · exact s_of_r h

theorem l_cons {n : Nat} (hn : n ≤ 3) {t : List Char} {ts} : L n (t :: ts) ↔ n < 3 ∧ Letters 3 3 t ∧ L (n + 1) ts ∨ S (t :: ts) := by
  constructor
  · rintro ⟨us, rest, h, hl, hu, hr⟩
    cases us with
    | nil => cases h; exact .inr hr
    | cons u us =>
      cases h
      rw [List.length_cons] at hl
      exact .inl ⟨by omega, hu _ (List.mem_cons_self ..), us, rest, rfl, by omega, fun t h => hu t (List.mem_cons_of_mem _ h), hr⟩
  · rintro (⟨h3, h, us, rest, rfl, hl, hu, hr⟩ | h)
    · exact ⟨t :: us, rest, rfl, by rw [List.length_cons]; omega, List.forall_mem_cons.2 ⟨h, hu⟩, hr⟩
    · exact l_of_s hn h

/-- What may follow in each state. -/
def Tail : State → List (List Char) → Prop
  | .start, _ => False
  | .afterLanguage n, ts => L n ts
  | .afterExtLang, ts => S ts
  | .afterScript, ts => R ts
  | .afterRegion, ts => V ts
  | .inExtension true, ts => E1 ts
  | .inExtension false, ts => E0 ts
  | .inPrivateUse true, ts => P1 ts
  | .inPrivateUse false, ts => P0 ts

theorem ok_iff (ts : List (List Char)) : ∀ st, st ≠ .start → (∀ n, st = .afterLanguage n → n ≤ 3) → (Ok st ts ↔ Tail st ts) := by
  induction ts with
  | nil =>
    intro st hs hn
    rw [ok_nil]
    have hv : V [] := v_of_rest rest_nil
    cases st with
    | start => exact absurd rfl hs
    | afterLanguage n => simpa [Tail] using l_of_s (hn n rfl) (s_of_r (r_of_v hv))
    | afterExtLang => simpa [Tail] using s_of_r (r_of_v hv)
    | afterScript => simpa [Tail] using r_of_v hv
    | afterRegion => simpa [Tail] using hv
    | inExtension b =>
      cases b
      · simp only [Tail, ne_eq, reduceCtorEq, not_false_eq_true, and_self, true_iff, State.inExtension.injEq, Bool.false_eq_true]
        exact ⟨[], [], rfl, by simp, rest_nil⟩
      · simp [Tail, E1]
    | inPrivateUse b => cases b <;> simp [Tail, P0, P1]
  | cons t ts ih =>
    intro st hs hn
    rw [ok_cons]
    have ihP : Ok (.inPrivateUse true) ts ↔ P1 ts := ih _ nofun nofun
    have ihE : Ok (.inExtension true) ts ↔ E1 ts := ih _ nofun nofun
    have ihF : Ok (.inExtension false) ts ↔ E0 ts := ih _ nofun nofun
    have ihQ : Ok (.inPrivateUse false) ts ↔ P0 ts := ih _ nofun nofun
    have ihV : Ok .afterRegion ts ↔ V ts := ih _ nofun nofun
    have ihR : Ok .afterScript ts ↔ R ts := ih _ nofun nofun
    have ihL : ∀ n, n < 3 → (Ok (.afterLanguage (n + 1)) ts ↔ L (n + 1) ts) :=
      fun n h => ih _ nofun fun m e => by cases e; omega
    have hrest := @rest_cons t ts
    rw [← x_iff, ← single_iff] at hrest
    cases st with
    | start => exact absurd rfl hs
    | afterLanguage n =>
      have hn := hn n rfl
      have ihL := ihL n
      show _ ↔ L n (t :: ts)
      rw [l_cons hn, s_cons, r_cons, v_cons, hrest]
      simp only [next_early (st := .afterLanguage n) trivial, State.afterLanguage.injEq, exists_eq_left', or_and_right, exists_or,
        and_assoc, exists_and_left, exists_eq_left, ihP, ihE, ihV, ihR, State.beforeScript, State.beforeRegion, State.beforeVariant]
      grind
    | afterExtLang =>
      show _ ↔ S (t :: ts)
      rw [s_cons, r_cons, v_cons, hrest]
      simp only [next_early (st := .afterExtLang) trivial, or_and_right, exists_or, and_assoc, exists_and_left, exists_eq_left, ihP, ihE,
        ihV, ihR, State.beforeScript, State.beforeRegion, State.beforeVariant]
      grind
    | afterScript =>
      show _ ↔ R (t :: ts)
      rw [r_cons, v_cons, hrest]
      simp only [next_early (st := .afterScript) trivial, or_and_right, exists_or, and_assoc, exists_and_left, exists_eq_left, ihP, ihE,
        ihV, ihR, State.beforeScript, State.beforeRegion, State.beforeVariant]
      grind
    | afterRegion =>
      show _ ↔ V (t :: ts)
      rw [v_cons, hrest]
      simp only [next_early (st := .afterRegion) trivial, or_and_right, exists_or, and_assoc, exists_and_left, exists_eq_left, ihP, ihE,
        ihV, ihR, State.beforeScript, State.beforeRegion, State.beforeVariant]
      grind
    | inExtension b =>
      simp only [next_extension, or_and_right, exists_or, and_assoc, exists_and_left, exists_eq_left, ihP, ihE, ihF]
      cases b
      · show _ ↔ E0 (t :: ts)
        rw [e0_cons, hrest]
        grind
      · show _ ↔ E1 (t :: ts)
        rw [e1_cons]
        grind
    | inPrivateUse b =>
      simp only [next_private, and_assoc, exists_and_left, exists_eq_left, ihQ]
      cases b
      · show _ ↔ P0 (t :: ts)
        simp [P0]
      · show _ ↔ P1 (t :: ts)
        simp [P0, P1]

/-- The state machine accepts the grammar. -/
theorem run_iff {ts : List (List Char)} (hne : ts ≠ []) : (run .start ts).isSome = true ↔ IsLangtag ts := by
  cases ts with
  | nil => exact absurd rfl hne
  | cons t ts =>
    show Ok .start (t :: ts) ↔ _
    rw [ok_cons]
    have h1 := ok_iff ts (.afterLanguage 0) nofun fun n e => by cases e; omega
    have h2 := ok_iff ts .afterExtLang nofun nofun
    simp only [next_start, or_and_right, exists_or, and_assoc, exists_and_left, exists_eq_left, h1, h2]
    constructor
    · rintro (⟨ht, e, _, rfl, hl, he, s, _, rfl, hs, r, _, rfl, hr, v, _, rfl, hv, es, p, rfl, hes, hp⟩ |
        ⟨ht, s, _, rfl, hs, r, _, rfl, hr, v, _, rfl, hv, es, p, rfl, hes, hp⟩)
      · exact ⟨t :: e, s, r, v, es, p, by simp, ⟨t, e, rfl, .inl ⟨ht, by omega, he⟩⟩, hs, hr, hv, hes, hp⟩
      · exact ⟨[t], s, r, v, es, p, by simp, ⟨t, [], rfl, .inr ⟨ht, rfl⟩⟩, hs, hr, hv, hes, hp⟩
    · rintro ⟨_, s, r, v, es, p, h, ⟨t', e, rfl, ⟨ht, hl, he⟩ | ⟨ht, rfl⟩⟩, hs, hr, hv, hes, hp⟩
      · simp only [List.cons_append, List.append_assoc, List.cons.injEq] at h
        obtain ⟨rfl, rfl⟩ := h
        exact .inl ⟨ht, e, _, rfl, by omega, he, s, _, rfl, hs, r, _, rfl, hr, v, _, rfl, hv, es, p, rfl, hes, hp⟩
      · simp only [List.cons_append, List.append_assoc, List.cons.injEq, List.nil_append] at h
        obtain ⟨rfl, rfl⟩ := h
        exact .inr ⟨ht, s, _, rfl, hs, r, _, rfl, hr, v, _, rfl, hv, es, p, rfl, hes, hp⟩

theorem grandfathered_same (g : String) : g ∈ grandfathered ↔ g ∈ Rfc5646.grandfathered := by
  simp only [grandfathered, Rfc5646.grandfathered, List.mem_cons, List.not_mem_nil, or_false]
  grind

theorem mem_join {c : Char} {l : List (List Char)} (h : c ∈ join l) : c = '-' ∨ ∃ t ∈ l, c ∈ t := by
  induction l with
  | nil => cases h
  | cons t ts ih =>
    cases ts with
    | nil => exact .inr ⟨t, List.mem_cons_self .., h⟩
    | cons u us =>
      rw [join_cons, List.mem_append, List.mem_cons] at h
      rcases h with h | rfl | h
      · exact .inr ⟨t, List.mem_cons_self .., h⟩
      · exact .inl rfl
      · rcases ih h with h | ⟨t, ht, h⟩
        · exact .inl h
        · exact .inr ⟨t, List.mem_cons_of_mem _ ht, h⟩

/-- Private use is loose private use. -/
theorem private_loose {cs : List Char} (h : IsPrivateUse (subtags cs)) :
    ∃ x r, cs = x :: '-' :: r ∧ x ∈ ['x', 'X'] ∧ r ≠ [] ∧ ∀ c ∈ r, c.isAlphanum = true ∨ c = '-' := by
  obtain ⟨x, ts, h, hx, hne, ht⟩ := h
  have e := join_subtags cs
  rw [h] at e
  cases ts with
  | nil => exact absurd rfl hne
  | cons t ts =>
    rw [join_cons] at e
    refine ⟨x, join (t :: ts), e.symm, hx, ?_, ?_⟩
    · have := (ht t (List.mem_cons_self ..)).1
      intro hj
      cases ts with
      | nil => rw [show join [t] = t from rfl] at hj; rw [hj] at this; cases this
      | cons u us => rw [join_cons] at hj; simp at hj
    · intro c hc
      rcases mem_join hc with h | ⟨t, hm, h⟩
      · exact .inr h
      · exact .inl ((ht t hm).2.2 c h)

/-- Grammar, private use, or the list. -/
theorem parseTag_iff {s : String} : (parseTag s.toList).isSome = true ↔ WellFormed s ∨ LoosePrivateUse s := by
  unfold parseTag
  split
  · rename_i g hg
    refine iff_of_true rfl (.inl (.inr ⟨g, (grandfathered_same g).1 (List.mem_of_find?_eq_some hg), ?_⟩))
    have h1 : lower g.toList = lower s.toList := by have := List.find?_some hg; simpa using this
    exact h1.symm
  rename_i hg
  have hng : ¬∃ g ∈ Rfc5646.grandfathered, SameLetters s g := by
    rintro ⟨g, hm, h⟩
    have := List.find?_eq_none.1 hg g ((grandfathered_same g).2 hm)
    simp only [decide_eq_true_eq] at this
    exact this h.symm
  have hw : WellFormed s ↔ IsLangtag (subtags s.toList) ∨ IsPrivateUse (subtags s.toList) := by
    unfold WellFormed
    simp only [hng, or_false, hyphenated_iff, exists_eq_left']
  rw [hw, LoosePrivateUse]
  clear hw hng hg
  generalize s.toList = cs
  split
  · rename_i hx0
    have : ∃ x r, cs = x :: '-' :: r ∧ x ∈ ['x', 'X'] := by
      match cs, hx0 with
      | [], h => simp at h
      | [c], h => simp at h
      | c :: d :: cs, h =>
        simp only [List.take_succ_cons, List.take_zero, List.cons.injEq, and_true] at h
        rcases h with ⟨rfl, rfl⟩ | ⟨rfl, rfl⟩ <;> exact ⟨_, _, rfl, by decide⟩
    obtain ⟨x, r, rfl, hx⟩ := this
    have hl : ((if (x :: '-' :: r).all (fun c => c.isAlphanum || c == '-') = false then none
        else if (x :: '-' :: r).length = 2 then none else some (lower (x :: '-' :: r)) : Option (List Char)).isSome = true) ↔
        ∃ x' r', x :: '-' :: r = x' :: '-' :: r' ∧ x' ∈ ['x', 'X'] ∧ r' ≠ [] ∧ ∀ c ∈ r', c.isAlphanum = true ∨ c = '-' := by
      have hxa : x.isAlphanum = true := by
        rcases List.mem_cons.1 hx with rfl | hx
        · decide
        · rw [List.mem_singleton.1 hx]; decide
      have e1 : (x :: '-' :: r).all (fun c => c.isAlphanum || c == '-') = r.all (fun c => c.isAlphanum || c == '-') := by
        simp [hxa]
      rw [e1]
      constructor
      · intro h
        split at h
        · cases h
        · rename_i ha
          split at h
          · cases h
          · rename_i hlen
            refine ⟨x, r, rfl, hx, ?_, ?_⟩
            · rintro rfl; exact hlen rfl
            · rw [Bool.not_eq_false, List.all_eq_true] at ha
              intro c hc
              simpa using ha c hc
      · rintro ⟨x', r', h, -, hne, ha⟩
        cases h
        have ha : r.all (fun c => c.isAlphanum || c == '-') = true := List.all_eq_true.2 fun c hc => by simpa using ha c hc
        rw [if_neg (by simp [ha]), if_neg (by simpa using hne)]
        rfl
    rw [hl]
    constructor
    · exact .inr
    · rintro ((⟨l, s', r', v, es, p, h, ⟨t, e, rfl, ht⟩, -⟩ | h) | h)
      · have hxd : x ≠ '-' := by rintro rfl; exact absurd hx (by decide)
        rw [subtags, if_neg hxd, subtags, if_pos rfl] at h
        simp only [List.cons_append, List.cons.injEq] at h
        rw [← h.1] at ht
        rcases ht with ⟨ht, -⟩ | ⟨ht, -⟩ <;> exact absurd ht.1 (by simp)
      · exact private_loose h
      · exact h
  · rename_i hx
    have hno : ¬∃ x r, cs = x :: '-' :: r ∧ x ∈ ['x', 'X'] ∧ r ≠ [] ∧ ∀ c ∈ r, c.isAlphanum = true ∨ c = '-' := by
      rintro ⟨x, r, rfl, hm, -⟩
      apply hx
      rcases List.mem_cons.1 hm with rfl | hm
      · exact .inl rfl
      · rw [List.mem_singleton.1 hm]; exact .inr rfl
    have hp : ¬IsPrivateUse (subtags cs) := fun h => hno (private_loose h)
    simp only [hno, hp, or_false, Option.isSome_map]
    exact run_iff (subtags_ne cs)

end Wot.LangTag
