import Verif.Lemmas.Typed
import Verif.Spec.Meaning
/-
What is read is what the document says.
-/
namespace Wot

variable {α β : Type}

/-- On values with `Q`, the reader finds what `Is` says. -/
def Reads (Q : Json → Prop) (de : Json → Option α) (Is : Json → α → Prop) : Prop :=
  ∀ v, Q v → ∀ x, de v = some x ↔ Is v x

/-- Elements and members of values with `Q` have `Q`. -/
structure Closed (Q : Json → Prop) : Prop where
  element : ∀ {l j}, Q (.arr l) → j ∈ l → Q j
  member : ∀ {m kv}, Q (.obj m) → kv ∈ m → Q kv.2

variable {Q : Json → Prop} {de : Json → Option α} {Is : Json → α → Prop} {k : String} {es : Members}

theorem occ_closed (hq : ∀ kv ∈ es, Q kv.2) {v : Json} (h : v ∈ occ k es) : Q v := hq _ (mem_occ.1 h)

/-! ### Members -/

theorem must_iff (h : Reads Q de Is) (hq : ∀ kv ∈ es, Q kv.2) {x : α} :
    required k de es = some x ↔ Doc.Must k Is es x := by
  unfold required
  split
  · rename_i v hv
    rw [h v (occ_closed hq (by rw [hv]; simp))]
    exact ⟨fun h => .mk hv h, fun ⟨hv', h⟩ => by rw [hv] at hv'; cases hv'; exact h⟩
  · rename_i hv
    exact ⟨nofun, fun ⟨hv', _⟩ => absurd hv' (hv _)⟩

theorem else_iff (h : Reads Q de Is) (hq : ∀ kv ∈ es, Q kv.2) {d x : α} :
    defaulted k d de es = some x ↔ Doc.Else k d Is es x := by
  unfold defaulted
  split
  · rename_i hv
    constructor
    · rintro h; cases h; exact .absent hv
    · intro h
      cases h with
      | absent => rfl
      | given hv' => rw [hv] at hv'; cases hv'
  · rename_i v hv
    rw [h v (occ_closed hq (by rw [hv]; simp))]
    constructor
    · exact fun h => .given hv h
    · intro h
      cases h with
      | absent hv' => rw [hv] at hv'; cases hv'
      | given hv' h => rw [hv] at hv'; cases hv'; exact h
  · rename_i h1 h2
    refine ⟨nofun, fun h => ?_⟩
    cases h with
    | absent hv' => exact absurd hv' h1
    | given hv' => exact absurd hv' (h2 _)

theorem Reads.orNone (h : Reads Q de Is) : Reads Q (deOption de) (Doc.OrNone Is) := by
  intro v hv x
  by_cases hn : v = .null
  · subst hn
    simp only [deOption]
    constructor
    · intro h; cases h; exact .null
    · intro h
      cases h with
      | null => rfl
      | value hn => exact absurd rfl hn
  · have : deOption de v = (de v).map some := by cases v <;> first | rfl | exact absurd rfl hn
    rw [this, Option.map_eq_some_iff]
    constructor
    · rintro ⟨a, ha, rfl⟩; exact .value hn ((h v hv a).1 ha)
    · intro h'
      cases h' with
      | null => exact absurd rfl hn
      | value _ h' => exact ⟨_, (h v hv _).2 h', rfl⟩

theorem may_iff (h : Reads Q de Is) (hq : ∀ kv ∈ es, Q kv.2) {x : Option α} :
    optional k de es = some x ↔ Doc.May k Is es x := by
  rw [optional, else_iff h.orNone hq]
  constructor
  · intro h
    cases h with
    | absent h => exact .absent h
    | given h h' => exact .given h h'
  · intro h
    cases h with
    | absent h => exact .absent h
    | given h h' => exact .given h h'

/-! ### Values -/

theorem Reads.str : Reads Q deStr Doc.IsString := fun _ _ _ => str_iff
theorem Reads.u32 : Reads Q deU32 Doc.IsU32 := fun _ _ _ => u32_iff
theorem Reads.nonZero : Reads Q deNonZeroU64 Doc.IsNonZero := fun _ _ _ => nonZero_iff
theorem Reads.i64 : Reads Q deI64 Doc.IsI64 := fun _ _ _ => i64_iff
theorem Reads.float (hQ : ∀ v, Q v → v.NumbersInRange) : Reads Q deF64 Doc.IsFloat := fun v hv _ => float_iff (hQ v hv)
theorem Reads.strs : Reads Q (deVec deStr) Doc.IsStrings := fun _ _ _ => strs_iff

theorem Reads.flag : Reads Q deBool Doc.IsFlag := by
  intro v _ x
  unfold Doc.IsFlag
  cases v <;> simp [deBool]

theorem Reads.value : Reads Q deValue Doc.IsValue := by
  intro v _ x
  simp only [deValue, Option.some.injEq, Doc.IsValue]
  exact eq_comm

theorem Reads.vec (hc : Closed Q) (h : Reads Q de Is) : Reads Q (deVec de) (Doc.IsArray Is) := by
  intro v hv x
  constructor
  · intro he
    cases v with
    | arr l => exact .mk ((mapOpt_eq_some.1 he).imp_mem fun a ha b _ hab => (h a (hc.element hv ha) b).1 hab)
    | _ => cases he
  · rintro ⟨hp⟩
    exact mapOpt_eq_some.2 (hp.imp_mem fun a ha b _ hab => (h a (hc.element hv ha) b).2 hab)

/-- An array is not also one element. -/
theorem Reads.oneOrMany (hc : Closed Q) (h : Reads Q de Is)
    (he : ∀ l x xs, de (.arr l) = some x → mapOpt de l ≠ some xs) : Reads Q (deOneOrMany de) (Doc.IsOneOrMany Is) := by
  intro v hv x
  have hm := h.vec hc v hv
  unfold deOneOrMany
  split
  · rename_i a ha
    constructor
    · intro e; cases e; exact .one ((h v hv a).1 ha)
    · intro h'
      cases h' with
      | one h' => rw [(h v hv _).2 h'] at ha; cases ha; rfl
      | many h' =>
        have := (hm x).2 h'
        cases v with
        | arr l => exact absurd this (he l a x ha)
        | _ => cases this
  · rename_i ha
    constructor
    · intro e; exact .many ((hm x).1 e)
    · intro h'
      cases h' with
      | one h' => rw [(h v hv _).2 h'] at ha; cases ha
      | many h' => exact (hm x).2 h'

theorem Reads.strings (hc : Closed Q) : Reads Q deStrings Doc.IsOneOrManyStrings :=
  Reads.str.oneOrMany hc (fun _ _ _ h => by cases h)

theorem Reads.named {table : List (String × α)} {text : α → String} (ht : ∀ s x, nameOf? table s = some x ↔ s = text x) :
    Reads Q (deEnumBuffered table) (Doc.IsNamed text) := by
  intro v _ x
  unfold deEnumBuffered Doc.IsNamed
  split
  · rw [ht]; simp
  · rw [ht]; simp
  · rw [ht]; simp
  · rename_i h1 h2 h3
    refine ⟨nofun, ?_⟩
    rintro (rfl | rfl | rfl)
    · exact absurd rfl (h1 _)
    · exact absurd rfl (h2 _)
    · exact absurd rfl (h3 _)

theorem Reads.namedDirect {table : List (String × α)} {text : α → String}
    (ht : ∀ s x, nameOf? table s = some x ↔ s = text x) :
    Reads Q (deEnum table) (fun v x => v = .str (text x) ∨ v = .obj [(text x, .null)]) := by
  intro v _ x
  unfold deEnum
  split
  · rw [ht]; simp
  · rw [ht]; simp
  · rename_i h1 h2
    refine ⟨nofun, ?_⟩
    rintro (rfl | rfl)
    · exact absurd rfl (h1 _)
    · exact absurd rfl (h2 _)

theorem nameOf?_iff {table : List (String × α)} {text : α → String} (h : ∀ e ∈ table, e.1 = text e.2)
    (h' : ∀ x, nameOf? table (text x) = some x) {s : String} {x : α} : nameOf? table s = some x ↔ s = text x := by
  constructor
  · intro e
    obtain ⟨kv, hkv, rfl⟩ := Option.map_eq_some_iff.1 e
    have h1 := List.find?_some hkv
    have h2 := h kv (List.mem_of_find?_eq_some hkv)
    simp only [decide_eq_true_eq] at h1
    rw [← h1, h2]
  · rintro rfl
    exact h' x

theorem Reads.location : Reads Q deLocation (Doc.IsNamed SecLocation.text) :=
  .named fun s x => nameOf?_iff (by simp [locationTable, SecLocation.text]) (by intro x; cases x <;> rfl)

theorem Reads.qop : Reads Q deQoP (Doc.IsNamed QoP.text) :=
  .named fun s x => nameOf?_iff (by simp [QoP.text]) (by intro x; cases x <;> rfl)

theorem Reads.operations (hc : Closed Q) : Reads Q deOperations Doc.AreOperations := by
  have hn : ∀ s x, nameOf? operationTable s = some x ↔ s = Doc.opText x := fun s x =>
    nameOf?_iff (by simp [operationTable, Doc.opText]) (by intro x; cases x <;> rfl)
  intro v hv x
  have h1 := fun o => Reads.namedDirect (Q := Q) hn v hv o
  have h2 := (Reads.named (Q := Q) hn).vec hc v hv
  unfold deOperations
  split
  · rename_i o ho
    constructor
    · intro e; cases e; exact .one ((h1 o).1 ho)
    · intro h
      cases h with
      | one h => rw [show deOperation v = _ from (h1 _).2 h] at ho; cases ho; rfl
      | many h =>
        cases h
        cases ho
  · rename_i ho
    constructor
    · intro e; exact .many ((h2 x).1 e)
    · intro h
      cases h with
      | one h => rw [show deOperation v = _ from (h1 _).2 h] at ho; cases ho
      | many h => exact (h2 x).2 h

theorem Reads.time {env : SerdeEnv} : Reads Q (deTime env) (Doc.IsInstant env) := by
  intro v _ x
  unfold Doc.IsInstant
  cases v <;> simp [deTime]

theorem Reads.tag {env : SerdeEnv} : Reads Q (deTagText env) (Doc.IsTag env) := by
  intro v _ x
  unfold Doc.IsTag
  cases v <;> simp [deTagText]

/-! ### Maps -/

theorem lastOf_reverse (l : List α) : lastOf l = l.reverse.head? := by
  induction l using snoc_induction with
  | nil => rfl
  | snoc l a _ => rw [lastOf_append]; simp

/-- Of entries with the same key, the last one counts. -/
theorem collect_rel {A : Type} {l : List A} {m : List (String × β)} {key : A → Option String} {val : A → Json}
    {R : Json → β → Prop} (h : Pointwise (fun a b => key a = some b.1 ∧ R (val a) b.2) l m) (k : String) :
    OptRel R (lastOf (l.filterMap fun a => if key a = some k then some (val a) else none))
      ((HMap.collect m).get? k) := by
  rw [HMap.collect_get?, lastOf_reverse, ← List.filterMap_reverse]
  have h := pointwise_reverse h
  generalize l.reverse = l at h
  generalize m.reverse = m at h
  induction h with
  | nil => exact .none
  | cons h _ ih =>
    rename_i a b l m _
    by_cases hk : b.1 = k
    · simp only [List.filterMap_cons, h.1, hk, if_true, List.head?_cons, List.find?_cons, beq_self_eq_true,
        Option.map_some]
      exact .some h.2
    · have : ¬ key a = some k := by rw [h.1]; simpa using hk
      simp only [List.filterMap_cons, if_neg this, List.find?_cons, beq_eq_false_iff_ne.2 hk]
      exact ih

theorem OptRel.imp {R R' : α → β → Prop} {a : Option α} {b : Option β} (h : OptRel R a b)
    (hi : ∀ x y, a = Option.some x → R x y → R' x y) : OptRel R' a b := by
  cases h with
  | none => exact .none
  | some h => exact .some (hi _ _ rfl h)

theorem OptRel.unique {R : α → β → Prop} (hR : ∀ a b b', R a b → R a b' → b = b') {a : Option α} {b b' : Option β}
    (h : OptRel R a b) (h' : OptRel R a b') : b = b' := by
  cases h with
  | none => cases h'; rfl
  | some h => cases h' with | some h' => rw [hR _ _ _ h h']

theorem occ_filterMap : occ k es = es.filterMap fun kv => if some kv.1 = some k then some kv.2 else none := by
  simp only [occ, Option.some.injEq]

theorem deMap_iff {v : Json} {m : HMap α} : deMap de v = some m ↔ Doc.IsMapOf (fun v x => de v = some x) v m := by
  constructor
  · intro h
    cases v with
    | obj es =>
      obtain ⟨l, hl, rfl⟩ := Option.map_eq_some_iff.1 h
      have hp := mapOptVals_eq_some.1 hl
      refine .mk (fun kv hkv => ?_) (HMap.collect_sorted l) fun k => ?_
      · obtain ⟨b, _, _, hb⟩ := hp.exists_right hkv
        exact .mk hb
      · rw [occ_filterMap]
        exact collect_rel (key := fun kv : String × Json => some kv.1) (val := (·.2))
          (hp.imp fun a b h => ⟨by rw [h.1], h.2⟩) k
    | _ => cases h
  · rintro ⟨h1, h2, h3⟩
    rename_i es
    obtain ⟨m', hm'⟩ : ∃ m', deMap de (.obj es) = some m' := by
      simp only [deMap, exists_map]
      exact (mapOpt_acc (P := fun kv : String × Json => ∃ x, de kv.2 = some x) (fun kv => by rw [exists_map]) es).2
        fun kv hkv => by obtain ⟨h⟩ := h1 kv hkv; exact ⟨_, h⟩
    obtain ⟨l, hl, rfl⟩ := Option.map_eq_some_iff.1 hm'
    have hp := mapOptVals_eq_some.1 hl
    rw [hm']
    congr 1
    refine (HMap.collect_sorted l).ext h2 fun k => ?_
    refine OptRel.unique (R := fun v x => de v = some x) (a := lastOf (occ k es)) ?_ ?_ (h3 k)
    · intro a b b' h h'; rw [h] at h'; exact Option.some.inj h'
    · rw [occ_filterMap]
      exact collect_rel (key := fun kv : String × Json => some kv.1) (val := (·.2))
        (hp.imp fun a b h => ⟨by rw [h.1], h.2⟩) k

theorem Reads.map (hc : Closed Q) (h : Reads Q de Is) : Reads Q (deMap de) (Doc.IsMapOf Is) := by
  intro v hv m
  rw [deMap_iff]
  constructor
  · rintro ⟨h1, h2, h3⟩
    refine .mk (fun kv hkv => ?_) h2 fun k => (h3 k).imp fun w x hw hx => ?_
    · obtain ⟨hx⟩ := h1 kv hkv
      exact .mk ((h _ (hc.member hv hkv) _).1 hx)
    · exact (h _ (hc.member hv (mem_occ.1 (lastOf_mem hw))) _).1 hx
  · rintro ⟨h1, h2, h3⟩
    refine .mk (fun kv hkv => ?_) h2 fun k => (h3 k).imp fun w x hw hx => ?_
    · obtain ⟨hx⟩ := h1 kv hkv
      exact .mk ((h _ (hc.member hv hkv) _).2 hx)
    · exact (h _ (hc.member hv (mem_occ.1 (lastOf_mem hw))) _).2 hx

theorem Reads.lang {env : SerdeEnv} : Reads Q (deLang env) (Doc.IsTranslations env) := by
  intro v hv m
  clear hv
  have point : ∀ {es : Members} {l : List (String × String)},
      mapOpt (fun kv => (env.langRead kv.1).bind fun t => (deStr kv.2).map fun s => (t, s)) es = some l →
      Pointwise (fun (a : String × Json) b => env.langRead a.1 = some b.1 ∧ Doc.IsString a.2 b.2) es l := by
    intro es l hl
    refine (mapOpt_eq_some.1 hl).imp fun a b h => ?_
    obtain ⟨t, ht, h⟩ := Option.bind_eq_some_iff.1 h
    obtain ⟨s, hs, rfl⟩ := Option.map_eq_some_iff.1 h
    exact ⟨ht, str_iff.1 hs⟩
  constructor
  · intro h
    have hacc := (Acc.lang v).1 ⟨_, h⟩
    cases v with
    | obj es =>
      obtain ⟨l, hl, rfl⟩ := Option.map_eq_some_iff.1 h
      obtain ⟨es', e, hacc⟩ := hacc
      cases e
      exact .mk hacc (HMap.collect_sorted l) (collect_rel (point hl))
    | _ => cases h
  · rintro ⟨h1, h2, h3⟩
    rename_i es
    obtain ⟨m', hm'⟩ := (Acc.lang (env := env) (.obj es)).2 ⟨es, rfl, h1⟩
    obtain ⟨l, hl, rfl⟩ := Option.map_eq_some_iff.1 hm'
    rw [hm']
    obtain ⟨m⟩ := m
    congr 2
    refine (HMap.collect_sorted l).ext h2 fun k => ?_
    refine OptRel.unique (R := Doc.IsString) ?_ (collect_rel (point hl) k) (h3 k)
    intro a b b' h h'
    rw [Doc.IsString] at h h'
    rw [h] at h'; cases h'; rfl

/-! ### Security definitions -/

theorem rest_closed {K : List String} (hq : ∀ kv ∈ es, Q kv.2) : ∀ kv ∈ rest K es, Q kv.2 :=
  fun kv hkv => hq kv (mem_rest_sub hkv)

theorem readTag_iff (hc : Closed Q) (hq : ∀ kv ∈ es, Q kv.2) {tag : SchemeTag} {s : KnownScheme} :
    readTag es tag = some s ↔ Doc.IsPredefined tag.text es s := by
  generalize ht : tag.text = t
  constructor
  · intro h
    subst ht
    cases tag <;> simp only [readTag, pure, Option.some.injEq, Option.map_eq_some_iff] at h
    · subst h; exact .nosec
    · subst h; exact .auto
    · obtain ⟨x, hx, rfl⟩ := h
      unfold deCombo at hx
      split at hx
      · rename_i k v
        have hv : Q v := hq (k, v) (List.mem_singleton.2 rfl)
        split at hx
        · obtain ⟨l, hl, rfl⟩ := Option.map_eq_some_iff.1 hx
          subst k
          exact .oneOf ((Reads.strings hc v hv l).1 hl)
        · split at hx
          · obtain ⟨l, hl, rfl⟩ := Option.map_eq_some_iff.1 hx
            subst k
            exact .allOf ((Reads.strings hc v hv l).1 hl)
          · cases hx
      · cases hx
    · obtain ⟨x, hx, rfl⟩ := h
      obtain ⟨h1, h2⟩ := deBasic_iff.1 hx
      exact .basic ((else_iff .location hq).1 h1) ((may_iff .str hq).1 h2)
    · obtain ⟨x, hx, rfl⟩ := h
      obtain ⟨h1, h2, h3⟩ := deDigest_iff.1 hx
      exact .digest ((must_iff .qop hq).1 h1) ((else_iff .location hq).1 h2) ((may_iff .str hq).1 h3)
    · obtain ⟨x, hx, rfl⟩ := h
      obtain ⟨h1, h2, h3, h4, h5⟩ := deBearer_iff.1 hx
      exact .bearer ((may_iff .str hq).1 h1) ((else_iff .str hq).1 h2) ((else_iff .str hq).1 h3)
        ((else_iff .location hq).1 h4) ((may_iff .str hq).1 h5)
    · obtain ⟨x, hx, rfl⟩ := h
      obtain ⟨h1⟩ := dePsk_iff.1 hx
      exact .psk ((may_iff .str hq).1 h1)
    · obtain ⟨x, hx, rfl⟩ := h
      obtain ⟨h1, h2, h3, h4, h5⟩ := deOAuth2_iff.1 hx
      exact .oauth2 ((may_iff .str hq).1 h1) ((may_iff .str hq).1 h2) ((may_iff .str hq).1 h3)
        ((may_iff (.strings hc) hq).1 h4) ((must_iff .str hq).1 h5)
    · obtain ⟨x, hx, rfl⟩ := h
      obtain ⟨h1, h2⟩ := deApiKey_iff.1 hx
      exact .apikey ((else_iff .location hq).1 h1) ((may_iff .str hq).1 h2)
  · intro h
    cases h <;> cases tag <;> (first | (exfalso; revert ht; decide) | skip) <;>
      simp only [readTag, pure, Option.map_eq_some_iff, KnownScheme.combo.injEq, KnownScheme.basic.injEq,
        KnownScheme.digest.injEq, KnownScheme.bearer.injEq, KnownScheme.psk.injEq, KnownScheme.oauth2.injEq,
        KnownScheme.apiKey.injEq, exists_eq_right]
    case oneOf.combo v l h =>
      have := (Reads.strings hc v (hq _ (List.mem_singleton.2 rfl)) l).2 h
      simp [deCombo, this]
    case allOf.combo v l h =>
      have := (Reads.strings hc v (hq _ (List.mem_singleton.2 rfl)) l).2 h
      simp [deCombo, this]
    case basic.basic h1 h2 =>
      exact deBasic_iff.2 ⟨(else_iff .location hq).2 h1, (may_iff .str hq).2 h2⟩
    case digest.digest h1 h2 h3 =>
      exact deDigest_iff.2 ⟨(must_iff .qop hq).2 h1, (else_iff .location hq).2 h2, (may_iff .str hq).2 h3⟩
    case apikey.apiKey h1 h2 =>
      exact deApiKey_iff.2 ⟨(else_iff .location hq).2 h1, (may_iff .str hq).2 h2⟩
    case bearer.bearer h1 h2 h3 h4 h5 =>
      exact deBearer_iff.2 ⟨(may_iff .str hq).2 h1, (else_iff .str hq).2 h2, (else_iff .str hq).2 h3,
        (else_iff .location hq).2 h4, (may_iff .str hq).2 h5⟩
    case psk.psk h1 => exact dePsk_iff.2 ⟨(may_iff .str hq).2 h1⟩
    case oauth2.oauth2 h1 h2 h3 h4 h5 =>
      exact deOAuth2_iff.2 ⟨(may_iff .str hq).2 h1, (may_iff .str hq).2 h2, (may_iff .str hq).2 h3,
        (may_iff (.strings hc) hq).2 h4, (must_iff .str hq).2 h5⟩

theorem predefined_text {t : String} {s : KnownScheme} (h : Doc.IsPredefined t es s) :
    ∃ tag : SchemeTag, t = tag.text := by
  cases h with
  | nosec => exact ⟨.noSec, rfl⟩
  | auto => exact ⟨.auto, rfl⟩
  | oneOf | allOf => exact ⟨.combo, rfl⟩
  | basic => exact ⟨.basic, rfl⟩
  | apikey => exact ⟨.apiKey, rfl⟩
  | digest => exact ⟨.digest, rfl⟩
  | bearer => exact ⟨.bearer, rfl⟩
  | psk => exact ⟨.psk, rfl⟩
  | oauth2 => exact ⟨.oauth2, rfl⟩

theorem known_iff (hc : Closed Q) (hq : ∀ kv ∈ es, Q kv.2) {x : KnownScheme} :
    deKnown (rest securityKeys es) = some x ↔ Doc.IsScheme es (.known x) := by
  have o : occ "scheme" (rest securityKeys es) = occ "scheme" es := occ_rest_of (by decide)
  have hq' : ∀ kv ∈ Doc.schemeMembers es, Q kv.2 := by
    rw [← schemeMembers_eq]; exact rest_closed (rest_closed hq)
  rw [deKnown_eq, schemeMembers_eq, Option.bind_eq_some_iff]
  constructor
  · rintro ⟨tag, h1, h2⟩
    unfold required at h1
    split at h1
    · rename_i v hv
      exact .known (o ▸ hv) (deTag_scheme.1 h1) ((readTag_iff hc hq').1 h2)
    · cases h1
  · intro h
    cases h with
    | known hv h1 h2 =>
      obtain ⟨tag, rfl⟩ := predefined_text h2
      exact ⟨tag, by simp only [required, o, hv]; exact deTag_scheme.2 h1, (readTag_iff hc hq').2 h2⟩

theorem scheme_iff (hc : Closed Q) (hq : ∀ kv ∈ es, Q kv.2) {x : SchemeSubtype} :
    deSubtype (rest securityKeys es) = some x ↔ Doc.IsScheme es x := by
  have o : occ "scheme" (rest securityKeys es) = occ "scheme" es := occ_rest_of (by decide)
  have acc := acc_known (es := rest securityKeys es)
  rw [o, schemeMembers_eq] at acc
  unfold deSubtype
  split
  · rename_i k hk
    constructor
    · intro h; cases h; exact (known_iff hc hq).1 hk
    · intro h
      cases h with
      | known hv h1 h2 =>
        rw [(known_iff hc hq).2 (.known hv h1 h2)] at hk
        rw [Option.some.inj hk]
      | custom hv hn _ =>
        obtain ⟨s', v, hv', h1, h2⟩ := acc.1 ⟨_, hk⟩
        rw [hv] at hv'
        cases hv'
        rcases h1 with e | ⟨n, e, _⟩
        · cases e; exact absurd h2 hn
        · cases e
  · rename_i hk
    have hu : deUnknown (rest securityKeys es) = some x ↔ ∃ s, occ "scheme" es = [.str s] ∧
        x = .unknown s (Json.obj (Doc.schemeMembers es)).norm := by
      simp only [deUnknown, bind, pure, schemeMembers_eq, required, o]
      split
      · rename_i v hv
        rw [hv, Option.bind_eq_some_iff]
        constructor
        · rintro ⟨s, hs, e⟩
          rw [str_iff.1 hs]
          exact ⟨s, rfl, (Option.some.inj e).symm⟩
        · rintro ⟨s, e, rfl⟩
          cases e
          exact ⟨s, rfl, rfl⟩
      · rename_i hv
        exact ⟨nofun, fun ⟨s, e, _⟩ => absurd e (hv _)⟩
    rw [hu]
    constructor
    · rintro ⟨s, hv, rfl⟩
      refine .custom hv (fun hp => ?_) rfl
      obtain ⟨a, ha⟩ := acc.2 ⟨s, _, hv, .inl rfl, hp⟩
      rw [ha] at hk; cases hk
    · intro h
      cases h with
      | known hv h1 h2 => rw [(known_iff hc hq).2 (.known hv h1 h2)] at hk; cases hk
      | custom hv _ hd => exact ⟨_, hv, by rw [hd]⟩

/-- A reader of objects. -/
theorem Reads.object {de : Json → Option α} {R : Members → α → Prop} (hc : Closed Q)
    (h : ∀ es, (∀ kv ∈ es, Q kv.2) → ∀ x, de (.obj es) = some x ↔ R es x)
    (h0 : ∀ v, (∀ es, v ≠ .obj es) → de v = none) : Reads Q de (Doc.IsObject R) := by
  intro v hv x
  by_cases ho : ∃ es, v = .obj es
  · obtain ⟨es, rfl⟩ := ho
    rw [h es (fun kv hkv => hc.member hv hkv)]
    exact ⟨.mk, fun ⟨h⟩ => h⟩
  · rw [h0 v fun es e => ho ⟨es, e⟩]
    refine ⟨nofun, fun h => ?_⟩
    cases h
    exact absurd ⟨_, rfl⟩ ho

theorem Reads.security {env : SerdeEnv} (hc : Closed Q) : Reads Q (deSecurity env) (Doc.IsSecurity env) := by
  refine .object hc (fun es hq x => ?_) (fun v hv => by cases v <;> first | rfl | exact absurd rfl (hv _))
  rw [deSecurity_iff]
  constructor
  · rintro ⟨h1, h2, h3, h4, h5⟩
    exact ⟨(may_iff (.strings hc) hq).1 h1, (may_iff .str hq).1 h2, (may_iff .lang hq).1 h3, (may_iff .str hq).1 h4,
      (scheme_iff hc hq).1 h5⟩
  · rintro ⟨h1, h2, h3, h4, h5⟩
    exact ⟨(may_iff (.strings hc) hq).2 h1, (may_iff .str hq).2 h2, (may_iff .lang hq).2 h3, (may_iff .str hq).2 h4,
      (scheme_iff hc hq).2 h5⟩

/-! ### Data schemas -/

section Schema
variable {DSx AS OS S : Type} {C : ExtCodec DSx} {CA : ExtCodec AS} {CO : ExtCodec OS} {env : SerdeEnv}
  {K : List String}

theorem Reads.items (hc : Closed Q) {sub : Json → Option S} {R : Json → S → Prop} (h : Reads Q sub R)
    (ho : ∀ v, (∀ es, v ≠ .obj es) → sub v = none) : Reads Q (deItems sub) (Doc.AreItems R) := by
  intro v hv x
  rw [items_iff ho]
  constructor
  · intro h'
    cases x with
    | elem s => exact .elem ((h v hv s).1 h')
    | vec ss =>
      obtain ⟨l, rfl, hp⟩ := h'
      exact .vec ((h.vec hc _ hv ss).1 (mapOpt_eq_some.2 hp))
  · intro h'
    cases h' with
    | elem h' => exact (h v hv _).2 h'
    | vec h' =>
      have := (h.vec hc v hv _).2 h'
      cases v with
      | arr l => exact ⟨l, rfl, mapOpt_eq_some.1 this⟩
      | _ => cases this

theorem Must.rest {K : List String} (hk : k ∉ K) {x : α} : Doc.Must k Is (rest K es) x ↔ Doc.Must k Is es x :=
  ⟨fun ⟨h1, h2⟩ => .mk (occ_rest_of hk ▸ h1) h2, fun ⟨h1, h2⟩ => .mk ((occ_rest_of hk).symm ▸ h1) h2⟩

theorem Else.rest {K : List String} (hk : k ∉ K) {d x : α} :
    Doc.Else k d Is (rest K es) x ↔ Doc.Else k d Is es x := by
  constructor
  · intro h
    cases h with
    | absent h => exact .absent (occ_rest_of hk ▸ h)
    | given h h' => exact .given (occ_rest_of hk ▸ h) h'
  · intro h
    cases h with
    | absent h => exact .absent ((occ_rest_of hk).symm ▸ h)
    | given h h' => exact .given ((occ_rest_of hk).symm ▸ h) h'

theorem May.rest {K : List String} (hk : k ∉ K) {x : Option α} :
    Doc.May k Is (rest K es) x ↔ Doc.May k Is es x := by
  constructor
  · intro h
    cases h with
    | absent h => exact .absent (occ_rest_of hk ▸ h)
    | given h h' => exact .given (occ_rest_of hk ▸ h) h'
  · intro h
    cases h with
    | absent h => exact .absent ((occ_rest_of hk).symm ▸ h)
    | given h h' => exact .given ((occ_rest_of hk).symm ▸ h) h'

theorem saysMaximum_unique {T : Type} {Is : Json → T → Prop} {o o' : Option (Maximum T)}
    (h : Doc.SaysMaximum es Is o) (h' : Doc.SaysMaximum es Is o') : o = o' := by
  have : ∀ b, o = some b ↔ o' = some b := by
    intro b
    cases b with
    | inclusive x => rw [(h x).1, (h' x).1]
    | exclusive x => rw [(h x).2, (h' x).2]
  cases o with
  | none => cases o' with
    | none => rfl
    | some b => exact (this b).2 rfl
  | some b => exact ((this b).1 rfl).symm

theorem saysMinimum_unique {T : Type} {Is : Json → T → Prop} {o o' : Option (Minimum T)}
    (h : Doc.SaysMinimum es Is o) (h' : Doc.SaysMinimum es Is o') : o = o' := by
  have : ∀ b, o = some b ↔ o' = some b := by
    intro b
    cases b with
    | inclusive x => rw [(h x).1, (h' x).1]
    | exclusive x => rw [(h x).2, (h' x).2]
  cases o with
  | none => cases o' with
    | none => rfl
    | some b => exact (this b).2 rfl
  | some b => exact ((this b).1 rfl).symm

theorem typed_maximum (hK : ∀ k ∈ Names.schemaType, k ∉ K) (hi : ∀ kv ∈ es, ∀ x, de kv.2 = some x ↔ Is kv.2 x) :
    Doc.SaysMaximum es Is (deMaximum de (rest ["multipleOf"] (rest ["type"] (rest schemaKeys (rest K es))))) := by
  intro x
  obtain ⟨a1, a2, a3⟩ := names_free hK (k := "maximum") (by decide) (by decide)
  obtain ⟨b1, b2, b3⟩ := names_free hK (k := "exclusiveMaximum") (by decide) (by decide)
  have := maximum_of (es := rest ["multipleOf"] (rest ["type"] (rest schemaKeys (rest K es))))
    (fun kv hkv => hi kv (mem_rest_sub (mem_rest_sub (mem_rest_sub (mem_rest_sub hkv))))) x
  simpa only [firstOf_rest (K := ["multipleOf"]) (k := "maximum") (k' := "exclusiveMaximum") (by decide) (by decide),
    firstOf_rest (K := ["multipleOf"]) (k := "exclusiveMaximum") (k' := "maximum") (by decide) (by decide),
    firstOf_rest a1 b1, firstOf_rest b1 a1, firstOf_rest a2 b2, firstOf_rest b2 a2, firstOf_rest a3 b3,
    firstOf_rest b3 a3] using this

theorem typed_minimum (hK : ∀ k ∈ Names.schemaType, k ∉ K) (hi : ∀ kv ∈ es, ∀ x, de kv.2 = some x ↔ Is kv.2 x) :
    Doc.SaysMinimum es Is (deMinimum de (rest ["multipleOf"] (rest ["type"] (rest schemaKeys (rest K es))))) := by
  intro x
  obtain ⟨a1, a2, a3⟩ := names_free hK (k := "minimum") (by decide) (by decide)
  obtain ⟨b1, b2, b3⟩ := names_free hK (k := "exclusiveMinimum") (by decide) (by decide)
  have := minimum_of (es := rest ["multipleOf"] (rest ["type"] (rest schemaKeys (rest K es))))
    (fun kv hkv => hi kv (mem_rest_sub (mem_rest_sub (mem_rest_sub (mem_rest_sub hkv))))) x
  simpa only [firstOf_rest (K := ["multipleOf"]) (k := "minimum") (k' := "exclusiveMinimum") (by decide) (by decide),
    firstOf_rest (K := ["multipleOf"]) (k := "exclusiveMinimum") (k' := "minimum") (by decide) (by decide),
    firstOf_rest a1 b1, firstOf_rest b1 a1, firstOf_rest a2 b2, firstOf_rest b2 a2, firstOf_rest a3 b3,
    firstOf_rest b3 a3] using this

theorem type_iff (hc : Closed Q) (hQ : ∀ v, Q v → v.NumbersInRange) (hq : ∀ kv ∈ es, Q kv.2)
    (hK : ∀ k ∈ Names.schemaType, k ∉ K) {R : Json → DataSchema DSx AS OS → Prop}
    (hR : Reads Q (deSchema C CA CO env) R) {o : Option (SubtypeF AS OS (DataSchema DSx AS OS))} :
    deSchemaSubtype CA CO (deSchema C CA CO env) (rest schemaKeys (rest K es)) = o ↔
      Doc.IsType env C CA CO K R es o := by
  have hobj : ∀ v, (∀ es, v ≠ .obj es) → deSchema C CA CO env v = none := fun v => deSchema_other
  have hq' : ∀ kv ∈ rest ["type"] (rest schemaKeys (rest K es)), Q kv.2 := rest_closed (rest_closed (rest_closed hq))
  have may : ∀ {α : Type} {de : Json → Option α} {Is : Json → α → Prop} {o : Option α} {k : String},
      k ∈ Names.schemaType → k ≠ "type" → Reads Q de Is →
      (optional k de (rest ["type"] (rest schemaKeys (rest K es))) = some o ↔ Doc.May k Is es o) := by
    intro α de Is o k hk ht h
    obtain ⟨h1, h2, h3⟩ := names_free hK hk ht
    rw [may_iff h hq', May.rest h1, May.rest h2, May.rest h3]
  have hf : ∀ kv ∈ es, ∀ x, deF64 kv.2 = some x ↔ Doc.IsFloat kv.2 x := fun kv hkv x => float_iff (hQ _ (hq kv hkv))
  have hz : ∀ kv ∈ es, ∀ x, deI64 kv.2 = some x ↔ Doc.IsI64 kv.2 x := fun kv hkv x => i64_iff
  cases o with
  | none =>
    have name := fun T => subtype_name (es := es) (C := C) (CA := CA) (CO := CO) (env := env) hK (T := T)
    constructor
    · intro h
      refine .none fun T h1 h2 => ?_
      have := (name T).2 ⟨h1, h2⟩
      rw [h] at this; cases this
    · rintro ⟨h⟩
      cases e : deSchemaSubtype CA CO (deSchema C CA CO env) (rest schemaKeys (rest K es)) with
      | none => rfl
      | some st =>
        obtain ⟨h1, h2⟩ := (name st.typeName).1 (by rw [e]; rfl)
        exact absurd h2 (h _ h1)
  | some st =>
    rw [deSchemaSubtype_eq, Option.bind_eq_some_iff]
    constructor
    · rintro ⟨tag, htag, h⟩
      have htag := (typeIs_iff hK tag).1 htag
      cases tag with
      | boolean => cases h; exact .boolean htag
      | null => cases h; exact .null htag
      | number =>
        obtain ⟨x, hx, rfl⟩ := Option.map_eq_some_iff.1 h
        obtain ⟨h1, h2, h3⟩ := deNumber_iff.1 hx
        exact .number htag (h1 ▸ typed_maximum hK hf) (h2 ▸ typed_minimum hK hf)
          ((may (by decide) (by decide) (.float hQ)).1 h3)
      | integer =>
        obtain ⟨x, hx, rfl⟩ := Option.map_eq_some_iff.1 h
        obtain ⟨h1, h2, h3⟩ := deInteger_iff.1 hx
        exact .integer htag (h1 ▸ typed_maximum hK hz) (h2 ▸ typed_minimum hK hz)
          ((may (by decide) (by decide) .nonZero).1 h3)
      | string =>
        obtain ⟨x, hx, rfl⟩ := Option.map_eq_some_iff.1 h
        obtain ⟨h1, h2, h3, h4, h5⟩ := deString_iff.1 hx
        exact .string htag ((may (by decide) (by decide) .u32).1 h1) ((may (by decide) (by decide) .u32).1 h2)
          ((may (by decide) (by decide) .str).1 h3) ((may (by decide) (by decide) .str).1 h4)
          ((may (by decide) (by decide) .str).1 h5)
      | array =>
        obtain ⟨x, hx, rfl⟩ := Option.map_eq_some_iff.1 h
        obtain ⟨h1, h2, h3, h4⟩ := deArray_iff.1 hx
        exact .array htag ((may (by decide) (by decide) (hR.items hc hobj)).1 h1)
          ((may (by decide) (by decide) .u32).1 h2) ((may (by decide) (by decide) .u32).1 h3)
          (by unfold Doc.Ext; rw [← arrayRest_eq]; exact h4)
      | object =>
        obtain ⟨x, hx, rfl⟩ := Option.map_eq_some_iff.1 h
        obtain ⟨h1, h2, h3⟩ := deObject_iff.1 hx
        exact .object htag ((may (by decide) (by decide) (hR.map hc)).1 h1)
          ((may (by decide) (by decide) .strs).1 h2) (by unfold Doc.Ext; rw [← objectRest_eq]; exact h3)
    · intro h
      cases h with
      | boolean ht => exact ⟨.boolean, (typeIs_iff hK .boolean).2 ht, rfl⟩
      | null ht => exact ⟨.null, (typeIs_iff hK .null).2 ht, rfl⟩
      | number ht h1 h2 h3 =>
        refine ⟨.number, (typeIs_iff hK .number).2 ht, Option.map_eq_some_iff.2 ⟨_, deNumber_iff.2 ⟨?_, ?_, ?_⟩, rfl⟩⟩
        · exact saysMaximum_unique (typed_maximum hK hf) h1
        · exact saysMinimum_unique (typed_minimum hK hf) h2
        · exact (may (by decide) (by decide) (.float hQ)).2 h3
      | integer ht h1 h2 h3 =>
        refine ⟨.integer, (typeIs_iff hK .integer).2 ht, Option.map_eq_some_iff.2 ⟨_, deInteger_iff.2 ⟨?_, ?_, ?_⟩, rfl⟩⟩
        · exact saysMaximum_unique (typed_maximum hK hz) h1
        · exact saysMinimum_unique (typed_minimum hK hz) h2
        · exact (may (by decide) (by decide) .nonZero).2 h3
      | string ht h1 h2 h3 h4 h5 =>
        exact ⟨.string, (typeIs_iff hK .string).2 ht, Option.map_eq_some_iff.2 ⟨_, deString_iff.2
          ⟨(may (by decide) (by decide) .u32).2 h1, (may (by decide) (by decide) .u32).2 h2,
          (may (by decide) (by decide) .str).2 h3, (may (by decide) (by decide) .str).2 h4,
          (may (by decide) (by decide) .str).2 h5⟩, rfl⟩⟩
      | array ht h1 h2 h3 h4 =>
        exact ⟨.array, (typeIs_iff hK .array).2 ht, Option.map_eq_some_iff.2 ⟨_, deArray_iff.2
          ⟨(may (by decide) (by decide) (hR.items hc hobj)).2 h1, (may (by decide) (by decide) .u32).2 h2,
          (may (by decide) (by decide) .u32).2 h3, arrayRest_eq ▸ h4⟩, rfl⟩⟩
      | object ht h1 h2 h3 =>
        exact ⟨.object, (typeIs_iff hK .object).2 ht, Option.map_eq_some_iff.2 ⟨_, deObject_iff.2
          ⟨(may (by decide) (by decide) (hR.map hc)).2 h1, (may (by decide) (by decide) .strs).2 h2,
          objectRest_eq ▸ h3⟩, rfl⟩⟩

theorem schemaMembers_iff (hc : Closed Q) (hQ : ∀ v, Q v → v.NumbersInRange) (hq : ∀ kv ∈ es, Q kv.2)
    (hK : ∀ k ∈ Names.schemaType ++ schemaKeys, k ∉ K) {R : Json → DataSchema DSx AS OS → Prop}
    (hR : Reads Q (deSchema C CA CO env) R) {s : DataSchema DSx AS OS} :
    deSchemaMembers C CA CO env (deSchema C CA CO env) (rest K es) = some s ↔
      Doc.IsSchemaMembers env C CA CO K R es s := by
  have hq' : ∀ kv ∈ rest K es, Q kv.2 := rest_closed hq
  have may : ∀ {α : Type} {de : Json → Option α} {Is : Json → α → Prop} {o : Option α} {k : String},
      k ∈ schemaKeys → Reads Q de Is → (optional k de (rest K es) = some o ↔ Doc.May k Is es o) := by
    intro α de Is o k hk h
    rw [may_iff h hq', May.rest (hK k (List.mem_append_right _ hk))]
  have els : ∀ {α : Type} {de : Json → Option α} {Is : Json → α → Prop} {d o : α} {k : String},
      k ∈ schemaKeys → Reads Q de Is → (defaulted k d de (rest K es) = some o ↔ Doc.Else k d Is es o) := by
    intro α de Is d o k hk h
    rw [else_iff h hq', Else.rest (hK k (List.mem_append_right _ hk))]
  have hK' : ∀ k ∈ Names.schemaType, k ∉ K := fun k hk => hK k (List.mem_append_left _ hk)
  have other : rest schemaKeys (rest K es) = es.filter fun kv => !(K ++ Names.schemaHead).contains kv.1 := by
    rw [rest_rest]; rfl
  rw [deSchemaMembers_iff]
  constructor
  · rintro ⟨h1, h2, h3, h4, h5, h6, h7, h8, h9, h10, h11, h12, h13, h14, h15⟩
    exact .mk ((may (by decide) (.strings hc)).1 h1) ((may (by decide) .str).1 h2) ((may (by decide) .lang).1 h3)
      ((may (by decide) .str).1 h4) ((may (by decide) .lang).1 h5) ((may (by decide) .value).1 h6)
      ((may (by decide) .value).1 h7) ((may (by decide) .str).1 h8) ((may (by decide) (hR.vec hc)).1 h9)
      ((may (by decide) (Reads.value.vec hc)).1 h10) ((els (by decide) .flag).1 h11) ((els (by decide) .flag).1 h12)
      ((may (by decide) .str).1 h13) ((type_iff hc hQ hq hK' hR).1 h15)
      (by unfold Doc.Ext; rw [← other]; exact h14)
  · rintro ⟨h1, h2, h3, h4, h5, h6, h7, h8, h9, h10, h11, h12, h13, h15, h14⟩
    exact ⟨(may (by decide) (.strings hc)).2 h1, (may (by decide) .str).2 h2, (may (by decide) .lang).2 h3,
      (may (by decide) .str).2 h4, (may (by decide) .lang).2 h5, (may (by decide) .value).2 h6,
      (may (by decide) .value).2 h7, (may (by decide) .str).2 h8, (may (by decide) (hR.vec hc)).2 h9,
      (may (by decide) (Reads.value.vec hc)).2 h10, (els (by decide) .flag).2 h11, (els (by decide) .flag).2 h12,
      (may (by decide) .str).2 h13, other ▸ h14, (type_iff hc hQ hq hK' hR).2 h15⟩

theorem Closed.numbers : Closed Json.NumbersInRange where
  element h hj n hn := h n (.element hj hn)
  member h hj n hn := h n (.member hj hn)

theorem closed_depth (n : Nat) : Closed fun v => v.NumbersInRange ∧ v.depth ≤ n where
  element h hj := ⟨Closed.numbers.element h.1 hj, by
    have := depthList_mem hj; have := h.2; simp only [Json.depth] at this; omega⟩
  member h hj := ⟨Closed.numbers.member h.1 hj, by
    have := depthMembers_mem hj; have := h.2; simp only [Json.depth] at this; omega⟩

theorem Reads.schema : Reads Json.NumbersInRange (deSchema C CA CO env) (Doc.IsSchema env C CA CO) := by
  have key : ∀ n, Reads (fun v => v.NumbersInRange ∧ v.depth ≤ n) (deSchema C CA CO env)
      (Doc.IsSchema env C CA CO) := by
    intro n
    induction n with
    | zero => intro v hv; exact absurd (depth_pos v) (by omega)
    | succ n ih =>
      intro v hv s
      by_cases ho : ∃ es, v = .obj es
      · obtain ⟨es, rfl⟩ := ho
        have hq : ∀ kv ∈ es, kv.2.NumbersInRange ∧ kv.2.depth ≤ n := by
          intro kv hkv
          refine ⟨number_mem hv.1 hkv, ?_⟩
          have h1 := depthMembers_mem hkv
          have h2 := hv.2
          simp only [Json.depth] at h2
          omega
        have := schemaMembers_iff (K := []) (closed_depth n) (fun _ h => h.1) hq (by simp) ih (s := s)
        rw [show rest [] es = es by simp [rest]] at this
        rw [deSchema_obj, this]
        exact ⟨.mk, fun ⟨h⟩ => h⟩
      · rw [deSchema_other fun es e => ho ⟨es, e⟩]
        refine ⟨nofun, fun h => ?_⟩
        cases h
        exact absurd ⟨_, rfl⟩ ho
  exact fun v hv => key v.depth v ⟨hv, Nat.le_refl _⟩

end Schema

/-! ### Forms and links -/

theorem ops_iff (hc : Closed Q) (hq : ∀ kv ∈ es, Q kv.2) {x : FormOps} :
    defaulted "op" .default deOps es = some x ↔ Doc.AreOps es x := by
  have hop : Reads Q deOperations Doc.AreOperations := Reads.operations hc
  have : defaulted "op" .default deOps es = (optional "op" deOperations es).map fun
      | some ops => FormOps.custom ops
      | none => .default := by
    unfold optional defaulted
    split <;> rfl
  rw [this, Option.map_eq_some_iff]
  constructor
  · rintro ⟨o, ho, rfl⟩
    cases o with
    | none => exact .default ((may_iff hop hq).1 ho)
    | some l => exact .custom ((may_iff hop hq).1 ho)
  · intro h
    cases h with
    | default h => exact ⟨_, (may_iff hop hq).2 h, rfl⟩
    | custom h => exact ⟨_, (may_iff hop hq).2 h, rfl⟩

theorem Reads.response {A : Type} {C : ExtCodec A} (hc : Closed Q) :
    Reads Q (deResponse C) (Doc.IsObject (Doc.IsResponseMembers C)) := by
  refine .object hc (fun es hq x => ?_) (fun v hv => by cases v <;> first | rfl | exact absurd rfl (hv _))
  rw [deResponse_iff]
  exact ⟨fun ⟨h1, h2⟩ => ⟨(must_iff .str hq).1 h1, h2⟩, fun ⟨h1, h2⟩ => ⟨(must_iff .str hq).2 h1, h2⟩⟩

theorem Reads.additional (hc : Closed Q) : Reads Q deAdditional Doc.IsAdditional := by
  intro v hv x
  constructor
  · intro h
    unfold deAdditional at h
    split at h
    · obtain ⟨h1, h2, h3⟩ := deAdditional_iff.1 h
      have hq := fun kv hkv => hc.member hv (kv := kv) hkv
      exact .object ((else_iff .flag hq).1 h1) ((may_iff .str hq).1 h2) ((may_iff .str hq).1 h3)
    · rename_i a b c
      obtain ⟨_, h0, h⟩ := Option.bind_eq_some_iff.1 h
      obtain ⟨_, h1, h⟩ := Option.bind_eq_some_iff.1 h
      obtain ⟨_, h2, h⟩ := Option.bind_eq_some_iff.1 h
      cases h
      have hm : ∀ w ∈ [a, b, c], Q w := fun w hw => hc.element hv hw
      exact .array ((Reads.flag a (hm _ (by simp)) _).1 h0) ((Reads.str.orNone b (hm _ (by simp)) _).1 h1)
        ((Reads.str.orNone c (hm _ (by simp)) _).1 h2)
    · cases h
  · intro h
    cases h with
    | object h1 h2 h3 =>
      have hq := fun kv hkv => hc.member hv (kv := kv) hkv
      exact deAdditional_iff.2 ⟨(else_iff .flag hq).2 h1, (may_iff .str hq).2 h2, (may_iff .str hq).2 h3⟩
    | array h1 h2 h3 =>
      rename_i a b c
      have hm : ∀ w ∈ [a, b, c], Q w := fun w hw => hc.element hv hw
      have h1 := (Reads.flag a (hm _ (by simp)) _).2 h1
      have h2 := (Reads.str.orNone b (hm _ (by simp)) _).2 h2
      have h3 := (Reads.str.orNone c (hm _ (by simp)) _).2 h3
      simp only [deAdditional, bind, h1, h2, h3, Option.bind_some, pure]

theorem Reads.link {env : SerdeEnv} (hc : Closed Q) : Reads Q (deLink env) (Doc.IsLink env) := by
  have htag : Reads Q (deOneOrMany (deTagText env)) (Doc.IsOneOrMany (Doc.IsTag env)) :=
    Reads.tag.oneOrMany hc (fun _ _ _ h => by cases h)
  intro v hv x
  constructor
  · intro h
    unfold deLink at h
    split at h
    · obtain ⟨h1, h2, h3, h4, h5, h6⟩ := deLink_iff.1 h
      have hq := fun kv hkv => hc.member hv (kv := kv) hkv
      exact .object ((must_iff .str hq).1 h1) ((may_iff .str hq).1 h2) ((may_iff .str hq).1 h3)
        ((may_iff .str hq).1 h4) ((may_iff .str hq).1 h5) ((may_iff htag hq).1 h6)
    · rename_i j1 j2 j3 j4 j5 last
      obtain ⟨_, h1, h⟩ := Option.bind_eq_some_iff.1 h
      obtain ⟨_, h2, h⟩ := Option.bind_eq_some_iff.1 h
      obtain ⟨_, h3, h⟩ := Option.bind_eq_some_iff.1 h
      obtain ⟨_, h4, h⟩ := Option.bind_eq_some_iff.1 h
      obtain ⟨_, h5, h⟩ := Option.bind_eq_some_iff.1 h
      have hm : ∀ w ∈ j1 :: j2 :: j3 :: j4 :: j5 :: last, Q w := fun w hw => hc.element hv hw
      have h1 := (Reads.str j1 (hm _ (by simp)) _).1 h1
      have h2 := (Reads.str.orNone j2 (hm _ (by simp)) _).1 h2
      have h3 := (Reads.str.orNone j3 (hm _ (by simp)) _).1 h3
      have h4 := (Reads.str.orNone j4 (hm _ (by simp)) _).1 h4
      have h5 := (Reads.str.orNone j5 (hm _ (by simp)) _).1 h5
      match last with
      | [] => cases h; exact .short h1 h2 h3 h4 h5 rfl
      | [l] =>
        obtain ⟨_, h6, h⟩ := Option.bind_eq_some_iff.1 h
        cases h
        exact .array h1 h2 h3 h4 h5 ((htag.orNone _ (hm _ (by simp)) _).1 h6)
      | _ :: _ :: _ => cases h
    · cases h
  · intro h
    cases h with
    | object h1 h2 h3 h4 h5 h6 =>
      have hq := fun kv hkv => hc.member hv (kv := kv) hkv
      exact deLink_iff.2 ⟨(must_iff .str hq).2 h1, (may_iff .str hq).2 h2, (may_iff .str hq).2 h3,
        (may_iff .str hq).2 h4, (may_iff .str hq).2 h5, (may_iff htag hq).2 h6⟩
    | array h1 h2 h3 h4 h5 h6 =>
      rename_i j1 j2 j3 j4 j5 j6
      have hm : ∀ w ∈ [j1, j2, j3, j4, j5, j6], Q w := fun w hw => hc.element hv hw
      have h1 := (Reads.str j1 (hm _ (by simp)) _).2 h1
      have h2 := (Reads.str.orNone j2 (hm _ (by simp)) _).2 h2
      have h3 := (Reads.str.orNone j3 (hm _ (by simp)) _).2 h3
      have h4 := (Reads.str.orNone j4 (hm _ (by simp)) _).2 h4
      have h5 := (Reads.str.orNone j5 (hm _ (by simp)) _).2 h5
      have h6 := (htag.orNone j6 (hm _ (by simp)) _).2 h6
      simp only [deLink, bind, h1, h2, h3, h4, h5, h6, Option.bind_some, pure]
    | short h1 h2 h3 h4 h5 h6 =>
      rename_i j1 j2 j3 j4 j5
      have hm : ∀ w ∈ [j1, j2, j3, j4, j5], Q w := fun w hw => hc.element hv hw
      have h1 := (Reads.str j1 (hm _ (by simp)) _).2 h1
      have h2 := (Reads.str.orNone j2 (hm _ (by simp)) _).2 h2
      have h3 := (Reads.str.orNone j3 (hm _ (by simp)) _).2 h3
      have h4 := (Reads.str.orNone j4 (hm _ (by simp)) _).2 h4
      have h5 := (Reads.str.orNone j5 (hm _ (by simp)) _).2 h5
      simp only [deLink, bind, h1, h2, h3, h4, h5, Option.bind_some, pure, ← h6]

theorem Reads.version (hc : Closed Q) : Reads Q deVersion Doc.IsVersion := by
  intro v hv x
  constructor
  · intro h
    unfold deVersion at h
    split at h
    · obtain ⟨h1, h2⟩ := deVersion_iff.1 h
      have hq := fun kv hkv => hc.member hv (kv := kv) hkv
      exact .object ((must_iff .str hq).1 h1) ((may_iff .str hq).1 h2)
    · rename_i a b
      obtain ⟨_, h0, h⟩ := Option.bind_eq_some_iff.1 h
      obtain ⟨_, h1, h⟩ := Option.bind_eq_some_iff.1 h
      cases h
      have hm : ∀ w ∈ [a, b], Q w := fun w hw => hc.element hv hw
      exact .array ((Reads.str a (hm _ (by simp)) _).1 h0) ((Reads.str.orNone b (hm _ (by simp)) _).1 h1)
    · cases h
  · intro h
    cases h with
    | object h1 h2 =>
      have hq := fun kv hkv => hc.member hv (kv := kv) hkv
      exact deVersion_iff.2 ⟨(must_iff .str hq).2 h1, (may_iff .str hq).2 h2⟩
    | array h1 h2 =>
      rename_i a b
      have hm : ∀ w ∈ [a, b], Q w := fun w hw => hc.element hv hw
      have h1 := (Reads.str a (hm _ (by simp)) _).2 h1
      have h2 := (Reads.str.orNone b (hm _ (by simp)) _).2 h2
      simp only [deVersion, bind, h1, h2, Option.bind_some, pure]

variable {X : ExtTypes} {C : ExtCodecs X} {env : SerdeEnv}

theorem Reads.form (hc : Closed Q) : Reads Q (deForm C) (Doc.IsForm C) := by
  have hadd : Reads Q (deOneOrMany deAdditional) (Doc.IsOneOrMany Doc.IsAdditional) :=
    (Reads.additional hc).oneOrMany hc fun l x xs h h' => by
      unfold deAdditional at h
      split at h
      · rename_i e; cases e
      · rename_i a b c e
        cases e
        obtain ⟨_, h0, _⟩ := Option.bind_eq_some_iff.1 h
        have hp := mapOpt_eq_some.1 h'
        cases hp with
        | cons hp => cases a <;> first | (cases h0; done) | (cases hp; done)
      · cases h
  refine .object hc (fun es hq x => ?_) (fun v hv => by cases v <;> first | rfl | exact absurd rfl (hv _))
  rw [deForm_iff]
  constructor
  · rintro ⟨h1, h2, h3, h4, h5, h6, h7, h8, h9, h10⟩
    exact ⟨(ops_iff hc hq).1 h1, (must_iff .str hq).1 h2, (may_iff .str hq).1 h3, (may_iff .str hq).1 h4,
      (may_iff .str hq).1 h5, (may_iff (.strings hc) hq).1 h6, (may_iff (.strings hc) hq).1 h7,
      (may_iff (.response hc) hq).1 h8, (may_iff hadd hq).1 h9, h10⟩
  · rintro ⟨h1, h2, h3, h4, h5, h6, h7, h8, h9, h10⟩
    exact ⟨(ops_iff hc hq).2 h1, (must_iff .str hq).2 h2, (may_iff .str hq).2 h3, (may_iff .str hq).2 h4,
      (may_iff .str hq).2 h5, (may_iff (.strings hc) hq).2 h6, (may_iff (.strings hc) hq).2 h7,
      (may_iff (.response hc) hq).2 h8, (may_iff hadd hq).2 h9, h10⟩

/-! ### Affordances -/

theorem Reads.ds : Reads Json.NumbersInRange (deDS C env) (Doc.IsDS env C) := Reads.schema

theorem interaction_iff {K : List String} (hK : ∀ k ∈ Names.interaction, k ∉ K)
    (hq : ∀ kv ∈ es, kv.2.NumbersInRange) {i : Interaction X} :
    deInteraction C env (rest K es) = some i ↔ Doc.IsInteraction env C K es i := by
  have hc := Closed.numbers
  have hq' : ∀ kv ∈ rest K es, kv.2.NumbersInRange := rest_closed hq
  have may : ∀ {α : Type} {de : Json → Option α} {Is : Json → α → Prop} {o : Option α} {k : String},
      k ∈ Names.interaction → Reads Json.NumbersInRange de Is →
      (optional k de (rest K es) = some o ↔ Doc.May k Is es o) := by
    intro α de Is o k hk h
    rw [may_iff h hq', May.rest (hK k hk)]
  have must : ∀ {α : Type} {de : Json → Option α} {Is : Json → α → Prop} {o : α} {k : String},
      k ∈ Names.interaction → Reads Json.NumbersInRange de Is →
      (required k de (rest K es) = some o ↔ Doc.Must k Is es o) := by
    intro α de Is o k hk h
    rw [must_iff h hq', Must.rest (hK k hk)]
  have other : rest interactionKeys (rest K es) = es.filter fun kv => !(K ++ Names.interaction).contains kv.1 := by
    rw [rest_rest]; rfl
  rw [deInteraction_iff]
  constructor
  · rintro ⟨h1, h2, h3, h4, h5, h6, h7, h8⟩
    exact ⟨(may (by decide) (.strings hc)).1 h1, (may (by decide) .str).1 h2, (may (by decide) .lang).1 h3,
      (may (by decide) .str).1 h4, (may (by decide) .lang).1 h5, (must (by decide) ((Reads.form hc).vec hc)).1 h6,
      (may (by decide) (Reads.ds.map hc)).1 h7, by unfold Doc.Ext; rw [← other]; exact h8⟩
  · rintro ⟨h1, h2, h3, h4, h5, h6, h7, h8⟩
    exact ⟨(may (by decide) (.strings hc)).2 h1, (may (by decide) .str).2 h2, (may (by decide) .lang).2 h3,
      (may (by decide) .str).2 h4, (may (by decide) .lang).2 h5, (must (by decide) ((Reads.form hc).vec hc)).2 h6,
      (may (by decide) (Reads.ds.map hc)).2 h7, other ▸ h8⟩

theorem Reads.property : Reads Json.NumbersInRange (deProperty C env) (Doc.IsObject (Doc.IsProperty env C)) := by
  refine .object .numbers (fun es hq x => ?_) (fun v hv => by cases v <;> first | rfl | exact absurd rfl (hv _))
  rw [deProperty_iff]
  have hi := fun i => interaction_iff (C := C) (env := env) (K := ["observable"]) (by decide) hq (i := i)
  have hs := fun s => schemaMembers_iff (C := C.dataSchema) (CA := C.arraySchema) (CO := C.objectSchema) (env := env)
    (K := ["observable"]) (es := es) .numbers (fun _ h => h) hq (by decide) Reads.schema (s := s)
  constructor
  · rintro ⟨h1, h2, h3, h4⟩
    exact ⟨(hi _).1 h2, (hs _).1 h3, (may_iff .flag hq).1 h1, h4⟩
  · rintro ⟨h2, h3, h1, h4⟩
    exact ⟨(may_iff .flag hq).2 h1, (hi _).2 h2, (hs _).2 h3, h4⟩

theorem Reads.action : Reads Json.NumbersInRange (deAction C env) (Doc.IsObject (Doc.IsAction env C)) := by
  refine .object .numbers (fun es hq x => ?_) (fun v hv => by cases v <;> first | rfl | exact absurd rfl (hv _))
  rw [deAction_iff]
  have hi := fun i => interaction_iff (C := C) (env := env) (K := Names.action) (by decide) hq (i := i)
  constructor
  · rintro ⟨h1, h2, h3, h4, h5, h6, h7⟩
    exact ⟨(hi _).1 h6, (may_iff .ds hq).1 h1, (may_iff .ds hq).1 h2, (else_iff .flag hq).1 h3,
      (else_iff .flag hq).1 h4, (may_iff .flag hq).1 h5, h7⟩
  · rintro ⟨h6, h1, h2, h3, h4, h5, h7⟩
    exact ⟨(may_iff .ds hq).2 h1, (may_iff .ds hq).2 h2, (else_iff .flag hq).2 h3,
      (else_iff .flag hq).2 h4, (may_iff .flag hq).2 h5, (hi _).2 h6, h7⟩

theorem Reads.event : Reads Json.NumbersInRange (deEvent C env) (Doc.IsObject (Doc.IsEvent env C)) := by
  refine .object .numbers (fun es hq x => ?_) (fun v hv => by cases v <;> first | rfl | exact absurd rfl (hv _))
  rw [deEvent_iff]
  have hi := fun i => interaction_iff (C := C) (env := env) (K := Names.event) (by decide) hq (i := i)
  constructor
  · rintro ⟨h1, h2, h3, h4, h5, h6⟩
    exact ⟨(hi _).1 h5, (may_iff .ds hq).1 h1, (may_iff .ds hq).1 h2, (may_iff .ds hq).1 h3, (may_iff .ds hq).1 h4, h6⟩
  · rintro ⟨h5, h1, h2, h3, h4, h6⟩
    exact ⟨(may_iff .ds hq).2 h1, (may_iff .ds hq).2 h2, (may_iff .ds hq).2 h3, (may_iff .ds hq).2 h4, (hi _).2 h5, h6⟩

/-! ### Things -/

theorem Reads.thing : Reads Json.NumbersInRange (deThing C env) (Doc.IsThing env C) := by
  have hc := Closed.numbers
  refine .object .numbers (fun es hq x => ?_) (fun v hv => by cases v <;> first | rfl | exact absurd rfl (hv _))
  rw [deThing_iff]
  constructor
  · rintro ⟨h1, h2, h3, h4, h5, h6, h7, h8, h9, h10, h11, h12, h13, h14, h15, h16, h17, h18, h19, h20, h21, h22, h23⟩
    exact ⟨(else_iff .value hq).1 h1, (may_iff .str hq).1 h2, (may_iff (.strings hc) hq).1 h3, (must_iff .str hq).1 h4,
      (may_iff .lang hq).1 h5, (may_iff .str hq).1 h6, (may_iff .lang hq).1 h7, (may_iff (.version hc) hq).1 h8,
      (may_iff .time hq).1 h9, (may_iff .time hq).1 h10, (may_iff .str hq).1 h11, (may_iff .str hq).1 h12,
      (may_iff (Reads.property.map hc) hq).1 h13, (may_iff (Reads.action.map hc) hq).1 h14,
      (may_iff (Reads.event.map hc) hq).1 h15, (may_iff ((Reads.link hc).vec hc) hq).1 h16,
      (may_iff ((Reads.form hc).vec hc) hq).1 h17, (must_iff (.strings hc) hq).1 h18,
      (must_iff ((Reads.security hc).map hc) hq).1 h19, (may_iff (Reads.ds.map hc) hq).1 h20,
      (may_iff (.strings hc) hq).1 h21, (may_iff (Reads.ds.map hc) hq).1 h22, h23⟩
  · rintro ⟨h1, h2, h3, h4, h5, h6, h7, h8, h9, h10, h11, h12, h13, h14, h15, h16, h17, h18, h19, h20, h21, h22, h23⟩
    exact ⟨(else_iff .value hq).2 h1, (may_iff .str hq).2 h2, (may_iff (.strings hc) hq).2 h3, (must_iff .str hq).2 h4,
      (may_iff .lang hq).2 h5, (may_iff .str hq).2 h6, (may_iff .lang hq).2 h7, (may_iff (.version hc) hq).2 h8,
      (may_iff .time hq).2 h9, (may_iff .time hq).2 h10, (may_iff .str hq).2 h11, (may_iff .str hq).2 h12,
      (may_iff (Reads.property.map hc) hq).2 h13, (may_iff (Reads.action.map hc) hq).2 h14,
      (may_iff (Reads.event.map hc) hq).2 h15, (may_iff ((Reads.link hc).vec hc) hq).2 h16,
      (may_iff ((Reads.form hc).vec hc) hq).2 h17, (must_iff (.strings hc) hq).2 h18,
      (must_iff ((Reads.security hc).map hc) hq).2 h19, (may_iff (Reads.ds.map hc) hq).2 h20,
      (may_iff (.strings hc) hq).2 h21, (may_iff (Reads.ds.map hc) hq).2 h22, h23⟩

/-! ### A check of the numbers in a document -/

mutual
def Json.inRange : Json → Bool
  | .num (.pos n) => decide (n < 2^64)
  | .num (.neg n) => decide (n < 2^63)
  | .num (.float f) => f.isFinite
  | .arr l => Json.inRangeList l
  | .obj m => Json.inRangeMembers m
  | _ => true
termination_by structural x => x
def Json.inRangeList : List Json → Bool
  | [] => true
  | j :: l => j.inRange && Json.inRangeList l
termination_by structural x => x
def Json.inRangeMembers : List (String × Json) → Bool
  | [] => true
  | (_, j) :: m => j.inRange && Json.inRangeMembers m
termination_by structural x => x
end

theorem inRangeList_mem {l : List Json} (h : Json.inRangeList l = true) : ∀ j ∈ l, j.inRange = true := by
  induction l with
  | nil => simp
  | cons a l ih =>
    simp only [Json.inRangeList, Bool.and_eq_true] at h
    intro j hj
    rcases List.mem_cons.1 hj with rfl | hj
    · exact h.1
    · exact ih h.2 j hj

theorem inRangeMembers_mem {m : Members} (h : Json.inRangeMembers m = true) : ∀ kv ∈ m, kv.2.inRange = true := by
  induction m with
  | nil => simp
  | cons a m ih =>
    simp only [Json.inRangeMembers, Bool.and_eq_true] at h
    intro j hj
    rcases List.mem_cons.1 hj with rfl | hj
    · exact h.1
    · exact ih h.2 j hj

theorem numbersInRange_of {j : Json} (h : j.inRange = true) : j.NumbersInRange := by
  intro n hn
  induction hn with
  | here =>
    cases n with
    | pos n => exact of_decide_eq_true (p := n < 2^64) h
    | neg n => exact of_decide_eq_true (p := n < 2^63) h
    | float f => exact h
  | element hj _ ih => exact ih (inRangeList_mem h _ hj)
  | member hj _ ih => exact ih (inRangeMembers_mem h _ hj)

end Wot
