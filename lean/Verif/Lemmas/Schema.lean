import Verif.Lemmas.Float
import Verif.Lemmas.Basic
import Verif.Spec.Schema
/-
Helper lemmas about the schema checks and conversions.
-/
namespace Wot

variable {L L' DS AS OS S S' : Type}

theorem mem_children_iff {st : SubtypeF AS OS S} {c : S} :
    c ∈ st.children ↔
      (∃ a, st = .array a ∧ a.items = some (.elem c)) ∨
      (∃ a l, st = .array a ∧ a.items = some (.vec l) ∧ c ∈ l) ∨
      (∃ o m k, st = .object o ∧ o.properties = some m ∧ (k, c) ∈ m) := by
  rcases st with ⟨_ | (_ | _), _, _, _⟩ | _ | _ | _ | ⟨_ | _, _, _⟩ | _ | _ <;>
    simp [SubtypeF.children, ElemOrVec.toList, HMap.values]
  · exact eq_comm

theorem within_iff {x s : Schema L DS AS OS} :
    Within x s ↔ x = s ∨ (∃ l, s.oneOf = some l ∧ ∃ c ∈ l, Within x c) ∨
      (∃ st, s.subtype = some st ∧ ∃ c ∈ st.children, Within x c) := by
  constructor
  · intro h
    cases h with
    | self => exact .inl rfl
    | oneOf h1 h2 h3 => exact .inr (.inl ⟨_, h1, _, h2, h3⟩)
    | item h1 h2 h3 =>
      exact .inr (.inr ⟨_, h1, _, mem_children_iff.2 (.inl ⟨_, rfl, h2⟩), h3⟩)
    | items h1 h2 h3 h4 =>
      exact .inr (.inr ⟨_, h1, _, mem_children_iff.2 (.inr (.inl ⟨_, _, rfl, h2, h3⟩)), h4⟩)
    | property h1 h2 h3 h4 =>
      exact .inr (.inr ⟨_, h1, _, mem_children_iff.2 (.inr (.inr ⟨_, _, _, rfl, h2, h3⟩)), h4⟩)
  · rintro (rfl | ⟨l, h1, c, h2, h3⟩ | ⟨st, h1, c, h2, h3⟩)
    · exact .self _
    · exact .oneOf h1 h2 h3
    · rcases mem_children_iff.1 h2 with ⟨a, rfl, h⟩ | ⟨a, l, rfl, h, h'⟩ | ⟨o, m, k, rfl, h, h'⟩
      · exact .item h1 h h3
      · exact .items h1 h h' h3
      · exact .property h1 h h' h3

/-- A predicate holds of everything within `s`. -/
def AllWithin (P : Schema L DS AS OS → Prop) (s : Schema L DS AS OS) : Prop :=
  ∀ x, Within x s → P x

theorem allWithin_iff {P : Schema L DS AS OS → Prop} {s : Schema L DS AS OS} :
    AllWithin P s ↔ P s ∧ (∀ l, s.oneOf = some l → ∀ c ∈ l, AllWithin P c) ∧
      (∀ st, s.subtype = some st → ∀ c ∈ st.children, AllWithin P c) := by
  constructor
  · intro h
    refine ⟨h s (.self s), fun l hl c hc x hx => h x (within_iff.2 (.inr (.inl ⟨l, hl, c, hc, hx⟩))),
      fun st hst c hc x hx => h x (within_iff.2 (.inr (.inr ⟨st, hst, c, hc, hx⟩)))⟩
  · rintro ⟨h1, h2, h3⟩ x hx
    rcases within_iff.1 hx with rfl | ⟨l, hl, c, hc, hx⟩ | ⟨st, hst, c, hc, hx⟩
    · exact h1
    · exact h2 l hl c hc x hx
    · exact h3 st hst c hc x hx

/-! ### The traversal -/

/-- The local test succeeds. -/
def LocalPass (x : Schema L DS AS OS) : Prop := checkLocal x.subtype = .ok ()

theorem mem_pushed {env : Env} {s : Option (SubtypeF AS OS S)} {c : S} :
    c ∈ pushed env s ↔ ∃ st, s = some st ∧ c ∈ st.children := by
  rw [(pushed_perm env s).mem_iff]
  cases s <;> simp

theorem checkLoop_ok_iff (env : Env) (subtype : Option (SubtypeF AS OS (Schema L DS AS OS)))
    (stack : List (Schema L DS AS OS)) :
    checkLoop env subtype stack = .ok () ↔
      checkLocal subtype = .ok () ∧ (∀ st, subtype = some st → ∀ c ∈ st.children, AllWithin LocalPass c)
        ∧ ∀ c ∈ stack, AllWithin LocalPass c := by
  induction subtype, stack using checkLoop.induct env with
  | case1 subtype stack e h => rw [checkLoop.eq_def]; simp [h]
  | case2 subtype stack h hnil =>
    rw [checkLoop.eq_def]
    simp only [h]
    have hp : pushed env subtype = [] ∧ stack = [] := by simpa using hnil
    have : ∀ st, subtype = some st → ∀ c ∈ st.children, False := by
      intro st hst c hc
      have := (mem_pushed (env := env)).2 ⟨st, hst, hc⟩
      simp [hp.1] at this
    split
    · simp only [true_and, true_iff]
      exact ⟨fun st hst c hc => (this st hst c hc).elim, by simp [hp.2]⟩
    · rename_i h'; rw [hnil] at h'; simp at h'
  | case3 subtype stack h s rest heq ih =>
    rw [checkLoop.eq_def]
    simp only [h]
    split
    · rename_i h'; rw [heq] at h'; simp at h'
    · rename_i s' rest' h'
      rw [heq] at h'
      simp only [List.cons.injEq] at h'
      obtain ⟨rfl, rfl⟩ := h'
      rw [ih]
      have hmem : ∀ c, c ∈ s :: rest ↔ (∃ st, subtype = some st ∧ c ∈ st.children) ∨ c ∈ stack := by
        intro c
        rw [← heq, List.mem_append, List.mem_reverse, mem_pushed]
      simp only [true_and]
      constructor
      · rintro ⟨h1, h2, h3⟩
        have hs : AllWithin LocalPass s := by
          rw [allWithin_iff]
          refine ⟨h1, fun l hl c hc => h3 c (by simp [hl, hc]), h2⟩
        have hall : ∀ c ∈ s :: rest, AllWithin LocalPass c := by
          intro c hc
          rcases List.mem_cons.1 hc with rfl | hc
          · exact hs
          · exact h3 c (by simp [hc])
        exact ⟨fun st hst c hc => hall c ((hmem c).2 (.inl ⟨st, hst, hc⟩)),
          fun c hc => hall c ((hmem c).2 (.inr hc))⟩
      · rintro ⟨h1, h2⟩
        have hall : ∀ c ∈ s :: rest, AllWithin LocalPass c := by
          intro c hc
          rcases (hmem c).1 hc with ⟨st, hst, hc⟩ | hc
          · exact h1 st hst c hc
          · exact h2 c hc
        have hs := allWithin_iff.1 (hall s (by simp))
        refine ⟨hs.1, hs.2.2, fun c hc => ?_⟩
        rcases List.mem_append.1 hc with hc | hc
        · cases ho : s.oneOf with
          | none => simp [ho] at hc
          | some l => exact hs.2.1 l ho c (by simpa [ho] using hc)
        · exact hall c (by simp [hc])

theorem checkSubtype_ok_iff (env : Env) (subtype : Option (SubtypeF AS OS (Schema L DS AS OS))) :
    checkSubtype env subtype = .ok () ↔
      checkLocal subtype = .ok () ∧
      (∀ st, subtype = some st → ∀ c ∈ st.children, AllWithin LocalPass c) := by
  simp [checkSubtype, checkLoop_ok_iff]

theorem checkLoop_error (env : Env) (subtype : Option (SubtypeF AS OS (Schema L DS AS OS)))
    (stack : List (Schema L DS AS OS)) {e : Error} (h : checkLoop env subtype stack = .error e) :
    checkLocal subtype = .error e ∨ ∃ c x, ((∃ st, subtype = some st ∧ c ∈ st.children) ∨ c ∈ stack) ∧
      Within x c ∧ checkLocal x.subtype = .error e := by
  induction subtype, stack using checkLoop.induct env with
  | case1 subtype stack e' h' =>
    rw [checkLoop.eq_def] at h
    simp only [h', Except.error.injEq] at h
    exact .inl (h ▸ h')
  | case2 subtype stack h' hnil =>
    rw [checkLoop.eq_def] at h
    simp only [h'] at h
    split at h
    · simp at h
    · rename_i h''; rw [hnil] at h''; simp at h''
  | case3 subtype stack h' s rest heq ih =>
    rw [checkLoop.eq_def] at h
    simp only [h'] at h
    split at h
    · simp at h
    · rename_i s' rest' h''
      rw [heq] at h''
      simp only [List.cons.injEq] at h''
      obtain ⟨rfl, rfl⟩ := h''
      have hmem : ∀ c, c ∈ s :: rest ↔ (∃ st, subtype = some st ∧ c ∈ st.children) ∨ c ∈ stack := by
        intro c
        rw [← heq, List.mem_append, List.mem_reverse, mem_pushed]
      refine .inr ?_
      rcases ih h with h1 | ⟨c, x, hc, hx, he⟩
      · exact ⟨s, s, (hmem s).1 (by simp), .self s, h1⟩
      · rcases hc with ⟨st, hst, hc⟩ | hc
        · exact ⟨s, x, (hmem s).1 (by simp), within_iff.2 (.inr (.inr ⟨st, hst, c, hc, hx⟩)), he⟩
        · rcases List.mem_append.1 hc with hc | hc
          · cases ho : s.oneOf with
            | none => simp [ho] at hc
            | some l =>
              refine ⟨s, x, (hmem s).1 (by simp), within_iff.2 (.inr (.inl ⟨l, ho, c, ?_, hx⟩)), he⟩
              simpa [ho] using hc
          · exact ⟨c, x, (hmem c).1 (by simp [hc]), hx, he⟩

theorem checkAll_ok_iff (env : Env) (l : List (Schema L DS AS OS)) :
    checkAll env l = .ok () ↔ ∀ c ∈ l, c.check env = .ok () := by
  induction l with
  | nil => simp [checkAll]
  | cons a l ih =>
    rw [checkAll]
    cases h : a.check env with
    | error e => simp [h]
    | ok u => simp [h, ih]

theorem checkAll_error (env : Env) (l : List (Schema L DS AS OS)) {e : Error}
    (h : checkAll env l = .error e) : ∃ c ∈ l, c.check env = .error e := by
  induction l with
  | nil => simp [checkAll] at h
  | cons a l ih =>
    rw [checkAll] at h
    cases h' : a.check env with
    | error e' => rw [h'] at h; simp only [Except.error.injEq] at h; exact ⟨a, by simp, by rw [h', h]⟩
    | ok u =>
      rw [h'] at h
      obtain ⟨c, hc, hc'⟩ := ih h
      exact ⟨c, by simp [hc], hc'⟩

theorem check_eq (env : Env) (s : Schema L DS AS OS) :
    s.check env = match checkSubtype env s.subtype with
      | .error e => .error e
      | .ok () => checkOneOf env s.oneOf := by
  cases s; rw [Schema.check]; rfl

theorem check_ok_iff (env : Env) (s : Schema L DS AS OS) :
    s.check env = .ok () ↔ AllWithin LocalPass s := by
  induction s using Schema.ind with
  | h hd o s ih1 ih2 =>
    rw [check_eq, allWithin_iff]
    have key : checkOneOf env o = .ok () ↔ ∀ l, o = some l → ∀ c ∈ l, AllWithin LocalPass c := by
      cases o with
      | none => simp [checkOneOf]
      | some l =>
        rw [checkOneOf, checkAll_ok_iff]
        simp only [Option.some.injEq, forall_eq']
        exact ⟨fun h c hc => (ih1 l rfl c hc).1 (h c hc), fun h c hc => (ih1 l rfl c hc).2 (h c hc)⟩
    simp only [Schema.subtype, Schema.oneOf, LocalPass]
    rw [← key]
    cases h : checkSubtype env s with
    | error e =>
      simp only [reduceCtorEq, false_iff]
      intro hh
      have := (checkSubtype_ok_iff env s).2 ⟨hh.1, hh.2.2⟩
      rw [h] at this
      simp at this
    | ok u =>
      have := (checkSubtype_ok_iff env s).1 h
      simp [this.1]
      exact fun _ => this.2

theorem check_error (env : Env) (s : Schema L DS AS OS) {e : Error} (h : s.check env = .error e) :
    ∃ x, Within x s ∧ checkLocal x.subtype = .error e := by
  induction s using Schema.ind with
  | h hd o s ih1 ih2 =>
    rw [check_eq] at h
    simp only [Schema.subtype, Schema.oneOf] at h
    cases h' : checkSubtype env s with
    | error e' =>
      simp only [h', Except.error.injEq] at h
      subst h
      rcases checkLoop_error env s [] h' with h1 | ⟨c, x, hc, hx, he⟩
      · exact ⟨.mk hd o s, .self _, h1⟩
      · rcases hc with ⟨st, hst, hc⟩ | hc
        · exact ⟨x, within_iff.2 (.inr (.inr ⟨st, hst, c, hc, hx⟩)), he⟩
        · simp at hc
    | ok u =>
      rw [h'] at h
      cases o with
      | none => simp [checkOneOf] at h
      | some l =>
        rw [checkOneOf] at h
        obtain ⟨c, hc, hc'⟩ := checkAll_error env l h
        obtain ⟨x, hx, he⟩ := ih1 l rfl c hc hc'
        exact ⟨x, within_iff.2 (.inr (.inl ⟨l, rfl, c, hc, hx⟩)), he⟩

/-! ### The local test -/

theorem i64_pcmp (a b : I64) : PCmp.pcmp a b = some (compare a.val b.val) := rfl

theorem noneOrGreater_compare_int (a b : Int) :
    noneOrGreater (some (compare a b)) = false ↔ a ≤ b := by
  simp only [compare, compareOfLessAndEq]
  split
  · simp [noneOrGreater]; omega
  · split
    · simp [noneOrGreater]; omega
    · simp [noneOrGreater]; omega

theorem noneOrGreater_compare_nat (a b : Nat) :
    noneOrGreater (some (compare a b)) = false ↔ a ≤ b := by
  simp only [compare, compareOfLessAndEq]
  split
  · simp [noneOrGreater]; omega
  · split
    · simp [noneOrGreater]; omega
    · simp [noneOrGreater]; omega

theorem noneOrGreater_f64 (a b : F64) : noneOrGreater (a.partialCmp b) = false ↔ F64.Le a b := by
  simp only [F64.partialCmp, F64.le_iff]
  split
  · rename_i h
    simp only [noneOrGreater, Bool.true_eq_false, false_iff]
    rintro ⟨h1, h2, _⟩
    simp [h1, h2] at h
  · rename_i h
    simp only [Bool.or_eq_true, not_or, Bool.not_eq_true] at h
    rw [noneOrGreater_compare_int]
    simp [h.1, h.2]

section
variable {T : Type} [PCmp T]

theorem noneOrGreater_cmpMax (lo : Minimum T) (hi : Maximum T) :
    noneOrGreater (lo.cmpMax hi) = false ↔
      SameKind lo hi ∧ noneOrGreater (PCmp.pcmp lo.bound hi.bound) = false := by
  cases lo <;> cases hi <;> simp only [Minimum.cmpMax, SameKind, Minimum.bound, Maximum.bound,
    true_and, false_and, iff_false, Bool.not_eq_false]
  · rename_i a b
    cases h : PCmp.pcmp a b with
    | none => rfl
    | some o => cases o <;> rfl
  · rename_i a b
    cases h : PCmp.pcmp a b with
    | none => rfl
    | some o => cases o <;> rfl

end

theorem badRange_eq_false {A B : Type} {cmp : A → B → Option Ordering} {x : Option A} {y : Option B} :
    badRange cmp x y = false ↔
      ∀ a b, x = some a → y = some b → noneOrGreater (cmp a b) = false := by
  cases x <;> cases y <;> simp [badRange]

theorem leZero_eq_false (x : F64) : x.leZero = false ↔ ¬ F64.Le x F64.zero := by
  have h0 : F64.zero.isNan = false := by decide
  have h1 : F64.zero.key = 0 := by decide
  simp only [F64.leZero, F64.le_iff, h0, h1, true_and]
  cases x.isNan <;> simp

theorem isNan_min (m : Minimum F64) : m.isNan = m.bound.isNan := by cases m <;> rfl
theorem isNan_max (m : Maximum F64) : m.isNan = m.bound.isNan := by cases m <;> rfl

theorem localPass_iff (s : Schema L DS AS OS) : LocalPass s ↔ SchemaRule s := by
  unfold LocalPass SchemaRule
  cases h : s.subtype with
  | none => simp [checkLocal]
  | some st =>
    cases st with
    | array a =>
      simp only [checkLocal, ArrayRule]
      cases hb : badRange PCmp.pcmp a.minItems a.maxItems with
      | false =>
        simp only [Bool.false_eq_true, if_false, true_iff]
        intro lo hi h1 h2
        exact (noneOrGreater_compare_nat _ _).1 (badRange_eq_false.1 hb lo hi h1 h2)
      | true =>
        simp only [if_true, reduceCtorEq, false_iff]
        intro hr
        rw [badRange_eq_false.2] at hb
        · simp at hb
        · intro lo hi h1 h2
          exact (noneOrGreater_compare_nat _ _).2 (hr lo hi h1 h2)
    | number n =>
      simp only [checkLocal, NumberRule]
      by_cases h1 : (n.minimum.map Minimum.isNan).getD false = true
      · simp only [h1, if_true, reduceCtorEq, false_iff]
        rintro ⟨hr, _⟩
        cases hm : n.minimum with
        | none => simp [hm] at h1
        | some m => simp [hm, isNan_min, hr m hm] at h1
      have h1' : ∀ lo, n.minimum = some lo → lo.bound.isNan = false := by
        intro lo hlo
        simpa [hlo, isNan_min] using h1
      by_cases h2 : (n.maximum.map Maximum.isNan).getD false = true
      · simp only [h1, h2, if_true, Bool.false_eq_true, if_false, reduceCtorEq, false_iff]
        rintro ⟨_, hr, _⟩
        cases hm : n.maximum with
        | none => simp [hm] at h2
        | some m => simp [hm, isNan_max, hr m hm] at h2
      have h2' : ∀ hi, n.maximum = some hi → hi.bound.isNan = false := by
        intro lo hlo
        simpa [hlo, isNan_max] using h2
      by_cases h3 : badRange Minimum.cmpMax n.minimum n.maximum = true
      · simp only [h1, h2, h3, if_true, Bool.false_eq_true, if_false, reduceCtorEq, false_iff]
        rintro ⟨_, _, hr, _⟩
        rw [badRange_eq_false.2] at h3
        · simp at h3
        · intro lo hi hlo hhi
          rw [noneOrGreater_cmpMax]
          exact ⟨(hr lo hi hlo hhi).1, (noneOrGreater_f64 _ _).2 (hr lo hi hlo hhi).2⟩
      have h3' : ∀ lo hi, n.minimum = some lo → n.maximum = some hi →
          SameKind lo hi ∧ F64.Le lo.bound hi.bound := by
        intro lo hi hlo hhi
        have := (noneOrGreater_cmpMax lo hi).1
          (badRange_eq_false.1 (by simpa using h3) lo hi hlo hhi)
        exact ⟨this.1, (noneOrGreater_f64 _ _).1 this.2⟩
      by_cases h4 : (n.multipleOf.map F64.leZero).getD false = true
      · simp only [h1, h2, h3, h4, if_true, Bool.false_eq_true, if_false, reduceCtorEq, false_iff]
        rintro ⟨_, _, _, hr⟩
        cases hm : n.multipleOf with
        | none => simp [hm] at h4
        | some m =>
          simp only [hm, Option.map_some, Option.getD_some] at h4
          rw [(leZero_eq_false m).2 (hr m hm)] at h4
          simp at h4
      · simp only [h1, h2, h3, h4, Bool.false_eq_true, if_false, true_iff]
        refine ⟨h1', h2', h3', fun x hx => (leZero_eq_false x).1 ?_⟩
        simpa [hx] using h4
    | integer n =>
      simp only [checkLocal, IntegerRule]
      cases hb : badRange Minimum.cmpMax n.minimum n.maximum with
      | false =>
        simp only [Bool.false_eq_true, if_false, true_iff]
        intro lo hi h1 h2
        have := (noneOrGreater_cmpMax lo hi).1 (badRange_eq_false.1 hb lo hi h1 h2)
        exact ⟨this.1, (noneOrGreater_compare_int _ _).1 this.2⟩
      | true =>
        simp only [if_true, reduceCtorEq, false_iff]
        intro hr
        rw [badRange_eq_false.2] at hb
        · simp at hb
        · intro lo hi h1 h2
          rw [noneOrGreater_cmpMax]
          exact ⟨(hr lo hi h1 h2).1, (noneOrGreater_compare_int _ _).2 (hr lo hi h1 h2).2⟩
    | object o => simp [checkLocal]
    | string s => simp [checkLocal]
    | boolean => simp [checkLocal]
    | null => simp [checkLocal]

theorem allWithin_localPass_iff (s : Schema L DS AS OS) : AllWithin LocalPass s ↔ AllRules s :=
  ⟨fun h x hx => (localPass_iff x).1 (h x hx), fun h x hx => (localPass_iff x).2 (h x hx)⟩

theorem check_ok_iff_rules (env : Env) (s : Schema L DS AS OS) :
    s.check env = .ok () ↔ AllRules s := by
  rw [check_ok_iff, allWithin_localPass_iff]

end Wot
