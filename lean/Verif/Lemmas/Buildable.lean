import Verif.Spec.Buildable
import Verif.Lemmas.BuiltStorable
import Verif.Lemmas.SchemaShape
/-
Every data schema of the right shape is made by some calls.
-/
namespace Wot

variable {DS AS OS : Type}

/-! ### Translations -/

theorem ofCalls_self {b : MultiLanguageBuilder} (h : HMap.Sorted b.values) :
    MultiLanguageBuilder.ofCalls b.values = b := by
  rw [ofCalls_eq, HMap.collect_of_sorted h]

/-- Human readable information that can be set. -/
structure InfoMade (i : HumanReadableInfo) : Prop where
  attype : i.attype ≠ some []
  titles : LangRep i.titles
  descriptions : LangRep i.descriptions

/-- The calls that set given human readable information. -/
def HumanReadableInfo.calls (i : HumanReadableInfo) : List InfoOp :=
  (i.attype.getD []).map .attype ++ i.title.toList.map .title ++
    i.titles.toList.map (fun b => .titles b.values) ++ i.description.toList.map .description ++
    i.descriptions.toList.map (fun b => .descriptions b.values)

theorem foldl_attype (l : List String) (i : HumanReadableInfo) (h : l ≠ []) :
    (l.map InfoOp.attype).foldl HumanReadableInfo.apply i =
      { i with attype := some (i.attype.getD [] ++ l) } := by
  induction l generalizing i with
  | nil => exact absurd rfl h
  | cons v l ih =>
    rw [List.map_cons, List.foldl_cons]
    by_cases hl : l = []
    · subst hl; rfl
    · rw [ih _ hl]
      simp [HumanReadableInfo.apply, optPush]

theorem InfoMade.calls {i : HumanReadableInfo} (h : InfoMade i) :
    i.calls.foldl HumanReadableInfo.apply {} = i := by
  obtain ⟨a, t, ts, d, ds⟩ := i
  obtain ⟨h1, h2, h3⟩ := h
  simp only [HumanReadableInfo.calls, List.foldl_append]
  have e1 : ((a.getD []).map InfoOp.attype).foldl HumanReadableInfo.apply {} =
      { attype := a } := by
    rcases a with _ | (_ | ⟨v, l⟩)
    · rfl
    · exact absurd rfl h1
    · rw [Option.getD_some, foldl_attype _ _ (by simp)]; rfl
  rw [e1]
  have e3 : ∀ (i : HumanReadableInfo), i.titles = none →
      (ts.toList.map (fun b => InfoOp.titles b.values)).foldl HumanReadableInfo.apply i =
      { i with titles := ts } := by
    intro i hi
    cases ts with
    | none => cases i; cases hi; rfl
    | some b =>
      simp only [Option.toList, List.map_cons, List.map_nil, List.foldl_cons, List.foldl_nil,
        HumanReadableInfo.apply, ofCalls_self (h2 b rfl)]
  have e5 : ∀ (i : HumanReadableInfo), i.descriptions = none →
      (ds.toList.map (fun b => InfoOp.descriptions b.values)).foldl HumanReadableInfo.apply i =
      { i with descriptions := ds } := by
    intro i hi
    cases ds with
    | none => cases i; cases hi; rfl
    | some b =>
      simp only [Option.toList, List.map_cons, List.map_nil, List.foldl_cons, List.foldl_nil,
        HumanReadableInfo.apply, ofCalls_self (h3 b rfl)]
  rw [e3 _ (by cases t <;> rfl), e5 _ (by cases t <;> cases d <;> rfl)]
  cases t <;> cases d <;> rfl

theorem infoMade_apply {i : HumanReadableInfo} (h : InfoMade i) (op : InfoOp) : InfoMade (i.apply op) := by
  have hr : InfoRep i := ⟨h.titles, h.descriptions⟩
  refine ⟨?_, (hr.apply op).1, (hr.apply op).2⟩
  cases op <;> first | exact h.attype | (simp [HumanReadableInfo.apply, optPush])

/-! ### Plain builders -/

/-- A plain builder is reachable with any of the members that can be set on it. -/
theorem plainReach_of {p : PartialDataSchemaBuilder DS AS OS} {i : HumanReadableInfo} (hi : InfoMade i)
    (h : p = { PartialDataSchemaBuilder.empty p.other with
      default := p.default, unit := p.unit, format := p.format }) : PlainReach DS ⟨p, i⟩ := by
  have step : ∀ (l : List InfoOp) (b : DataSchemaBuilder DS AS OS), PlainReach DS b →
      PlainReach DS ⟨b.part, l.foldl HumanReadableInfo.apply b.info⟩ := by
    intro l
    induction l with
    | nil => exact fun b hb => hb
    | cons op l ih => exact fun b hb => ih ⟨b.part, b.info.apply op⟩ (.info op hb)
  rw [← hi.calls]
  refine step i.calls ⟨p, {}⟩ ?_
  have h0 : PlainReach DS (DataSchemaBuilder.empty (AS := AS) (OS := OS) p.other) := .empty _ _
  obtain ⟨c, d, u, o, e, r, w, f, ot⟩ := p
  simp only [PartialDataSchemaBuilder.empty, PartialDataSchemaBuilder.mk.injEq] at h
  obtain ⟨rfl, -, -, rfl, rfl, rfl, rfl, -, -⟩ := h
  cases d with
  | none =>
    cases u with
    | none =>
      cases f with
      | none => exact h0
      | some f => exact .format f h0
    | some u =>
      cases f with
      | none => exact .unit u h0
      | some f => exact .format f (.unit u h0)
  | some d =>
    cases u with
    | none =>
      cases f with
      | none => exact .default d h0
      | some f => exact .format f (.default d h0)
    | some u =>
      cases f with
      | none => exact .unit u (.default d h0)
      | some f => exact .format f (.unit u (.default d h0))

/-- The same for the data schema builders of properties. -/
theorem partialReach_of {p : PartialDataSchemaBuilder DS AS OS}
    (h : p = { PartialDataSchemaBuilder.empty p.other with
      default := p.default, unit := p.unit, format := p.format }) : PartialReach DS p := by
  have h0 : PartialReach DS (PartialDataSchemaBuilder.empty (AS := AS) (OS := OS) p.other) := .empty _ _
  obtain ⟨c, d, u, o, e, r, w, f, ot⟩ := p
  simp only [PartialDataSchemaBuilder.empty, PartialDataSchemaBuilder.mk.injEq] at h
  obtain ⟨rfl, -, -, rfl, rfl, rfl, rfl, -, -⟩ := h
  cases d with
  | none =>
    cases u with
    | none =>
      cases f with
      | none => exact h0
      | some f => exact .format f h0
    | some u =>
      cases f with
      | none => exact .unit u h0
      | some f => exact .format f (.unit u h0)
  | some d =>
    cases u with
    | none =>
      cases f with
      | none => exact .default d h0
      | some f => exact .format f (.default d h0)
    | some u =>
      cases f with
      | none => exact .unit u (.default d h0)
      | some f => exact .format f (.unit u (.default d h0))

/-! ### Specialised builders -/

/-- Entries that are in a map anyway change nothing. -/
theorem collect_append_self {V : Type} {m : HMap V} (hm : HMap.Sorted m) {rs : List (String × V)}
    (h : ∀ kv ∈ rs, kv ∈ m) : HMap.collect (rs ++ m) = m := by
  refine (HMap.collect_sorted _).ext hm fun k => ?_
  rw [HMap.collect_get?, List.reverse_append, List.find?_append]
  have hk := HMap.collect_get? m k
  rw [HMap.collect_of_sorted hm] at hk
  rw [hk]
  cases hf : List.find? (fun kv => kv.1 == k) m.reverse with
  | some kv => rfl
  | none =>
    rw [Option.none_or]
    have : List.find? (fun kv => kv.1 == k) rs.reverse = none := by
      rw [List.find?_eq_none] at hf ⊢
      exact fun kv hkv => hf kv (List.mem_reverse.2 (h kv (List.mem_reverse.1 hkv)))
    rw [this]

open HasPartial

/-- Modifying twice is modifying once. -/
class ModifyTwice (I : Type) (DS AS OS : outParam Type) [HasPartial I DS AS OS] : Prop where
  modify_modify : ∀ (f g : PartialDataSchemaBuilder DS AS OS → PartialDataSchemaBuilder DS AS OS) (b : I),
    modify f (modify g b) = modify (fun p => f (g p)) b

instance : ModifyTwice (PartialDataSchemaBuilder DS AS OS) DS AS OS := ⟨fun _ _ _ => rfl⟩
instance : ModifyTwice (DataSchemaBuilder DS AS OS) DS AS OS := ⟨fun _ _ _ => rfl⟩

section
variable {I : Type} [HasPartial I DS AS OS]
  {R : KindBuilder I DS AS OS → Prop}

/-- `R` is closed under the calls that both kinds of data schema builders have. -/
def CallClosed (R : KindBuilder I DS AS OS → Prop) : Prop :=
  ∀ (k k' : KindBuilder I DS AS OS) (op : KindOp DS AS OS), op.isString = false →
    (∀ s ∈ op.args, SchemaBuilt s) → R k → k.apply op = some k' → R k'

theorem CallClosed.tuple (hc : CallClosed R) {b : I} {other : AS} (l : List (UncheckedDataSchema DS AS OS))
    (hl : ∀ s ∈ l, SchemaBuilt s) {l0 : List (UncheckedDataSchema DS AS OS)}
    (h : R ⟨b, .tuple l0 other, .both⟩) : R ⟨b, .tuple (l0 ++ l) other, .both⟩ := by
  induction l generalizing l0 with
  | nil => rw [List.append_nil]; exact h
  | cons s l ih =>
    rw [List.append_cons]
    refine ih (fun x hx => hl x (List.mem_cons_of_mem _ hx)) ?_
    exact hc _ _ (.append s) rfl (by
      intro x hx; simp only [KindOp.args, List.mem_singleton] at hx; subst hx
      exact hl _ (List.mem_cons_self ..)) h rfl

theorem CallClosed.vec (hc : CallClosed R) {b : I} {other : AS} (i : Option (UncheckedDataSchema DS AS OS))
    (lo hi : Option U32) (hi' : ∀ s, i = some s → SchemaBuilt s)
    (h : R ⟨b, .vec none none none other, .both⟩) : R ⟨b, .vec i lo hi other, .both⟩ := by
  have h1 : R ⟨b, .vec i none none other, .both⟩ := by
    cases i with
    | none => exact h
    | some s =>
      exact hc _ _ (.setItem s) rfl (by
        intro x hx; simp only [KindOp.args, List.mem_singleton] at hx; subst hx
        exact hi' _ rfl) h rfl
  have h2 : R ⟨b, .vec i lo none other, .both⟩ := by
    cases lo with
    | none => exact h1
    | some n => exact hc _ _ (.minItems n) rfl nofun h1 rfl
  cases hi with
  | none => exact h2
  | some n => exact hc _ _ (.maxItems n) rfl nofun h2 rfl

theorem CallClosed.number (hc : CallClosed R) {b : I} (n : NumberSchema)
    (h : R ⟨b, .number {}, .both⟩) : R ⟨b, .number n, .both⟩ := by
  obtain ⟨hi, lo, m⟩ := n
  have h1 : R ⟨b, .number { minimum := lo }, .both⟩ := by
    rcases lo with _ | (x | x)
    · exact h
    · exact hc _ _ (.fMinimum x) rfl nofun h rfl
    · exact hc _ _ (.fExclusiveMinimum x) rfl nofun h rfl
  have h2 : R ⟨b, .number { minimum := lo, maximum := hi }, .both⟩ := by
    rcases hi with _ | (x | x)
    · exact h1
    · exact hc _ _ (.fMaximum x) rfl nofun h1 rfl
    · exact hc _ _ (.fExclusiveMaximum x) rfl nofun h1 rfl
  cases m with
  | none => exact h2
  | some x => exact hc _ _ (.fMultipleOf x) rfl nofun h2 rfl

theorem CallClosed.integer (hc : CallClosed R) {b : I} (n : IntegerSchema)
    (h : R ⟨b, .integer {}, .both⟩) : R ⟨b, .integer n, .both⟩ := by
  obtain ⟨hi, lo, m⟩ := n
  have h1 : R ⟨b, .integer { minimum := lo }, .both⟩ := by
    rcases lo with _ | (x | x)
    · exact h
    · exact hc _ _ (.iMinimum x) rfl nofun h rfl
    · exact hc _ _ (.iExclusiveMinimum x) rfl nofun h rfl
  have h2 : R ⟨b, .integer { minimum := lo, maximum := hi }, .both⟩ := by
    rcases hi with _ | (x | x)
    · exact h1
    · exact hc _ _ (.iMaximum x) rfl nofun h1 rfl
    · exact hc _ _ (.iExclusiveMaximum x) rfl nofun h1 rfl
  cases m with
  | none => exact h2
  | some x => exact hc _ _ (.iMultipleOf x) rfl nofun h2 rfl

theorem CallClosed.object (hc : CallClosed R) {b : I} {other : OS}
    (l : List (String × UncheckedDataSchema DS AS OS)) (rs : List (String × UncheckedDataSchema DS AS OS))
    (hl : ∀ kv ∈ rs, SchemaBuilt kv.2) (hl' : ∀ kv ∈ l, SchemaBuilt kv.2)
    (h : R ⟨b, .object [] [] other, .both⟩) :
    R ⟨b, .object (rs ++ l) (rs.map (·.1)) other, .both⟩ := by
  have h1 : ∀ (rs : List (String × UncheckedDataSchema DS AS OS)), (∀ kv ∈ rs, SchemaBuilt kv.2) →
      ∀ ps r, R ⟨b, .object ps r other, .both⟩ →
      R ⟨b, .object (ps ++ rs) (r ++ rs.map (·.1)) other, .both⟩ := by
    intro rs
    induction rs with
    | nil => intro _ ps r h; simpa using h
    | cons kv rs ih =>
      intro hl ps r h
      rw [List.map_cons, List.append_cons ps, List.append_cons r]
      refine ih (fun x hx => hl x (List.mem_cons_of_mem _ hx)) _ _ ?_
      exact hc _ _ (.property kv.1 true kv.2) rfl (by
        intro x hx; simp only [KindOp.args, List.mem_singleton] at hx; subst hx
        exact hl _ (List.mem_cons_self ..)) h rfl
  have h2 : ∀ (rs : List (String × UncheckedDataSchema DS AS OS)), (∀ kv ∈ rs, SchemaBuilt kv.2) →
      ∀ ps r, R ⟨b, .object ps r other, .both⟩ → R ⟨b, .object (ps ++ rs) r other, .both⟩ := by
    intro rs
    induction rs with
    | nil => intro _ ps r h; simpa using h
    | cons kv rs ih =>
      intro hl ps r h
      rw [List.append_cons]
      refine ih (fun x hx => hl x (List.mem_cons_of_mem _ hx)) _ _ ?_
      exact hc _ _ (.property kv.1 false kv.2) rfl (by
        intro x hx; simp only [KindOp.args, List.mem_singleton] at hx; subst hx
        exact hl _ (List.mem_cons_self ..)) h rfl
  exact h2 l hl' _ _ (h1 rs hl [] [] h)

theorem CallClosed.enum [ModifyTwice I DS AS OS] (hc : CallClosed R) {b : I} (l : List Json) {l0 : List Json}
    (h : R ⟨modify (fun p => { p with enumeration := p.enumeration ++ l0 }) b, .enum, .both⟩) :
    R ⟨modify (fun p => { p with enumeration := p.enumeration ++ (l0 ++ l) }) b, .enum, .both⟩ := by
  induction l generalizing l0 with
  | nil => rw [List.append_nil]; exact h
  | cons v l ih =>
    rw [List.append_cons]
    refine ih ?_
    refine hc _ _ (.enumeration v) rfl nofun h ?_
    simp only [KindBuilder.apply]
    rw [ModifyTwice.modify_modify]
    simp [PartialDataSchemaBuilder.pushEnum]

theorem CallClosed.oneOf [ModifyTwice I DS AS OS] (hc : CallClosed R) {b : I} (l : List (UncheckedDataSchema DS AS OS))
    (hl : ∀ s ∈ l, SchemaBuilt s) {l0 : List (UncheckedDataSchema DS AS OS)}
    (h : R ⟨modify (fun p => { p with oneOf := p.oneOf ++ l0 }) b, .oneOf, .both⟩) :
    R ⟨modify (fun p => { p with oneOf := p.oneOf ++ (l0 ++ l) }) b, .oneOf, .both⟩ := by
  induction l generalizing l0 with
  | nil => rw [List.append_nil]; exact h
  | cons v l ih =>
    rw [List.append_cons]
    refine ih (fun x hx => hl x (List.mem_cons_of_mem _ hx)) ?_
    refine hc _ _ (.oneOf v) rfl (by
        intro x hx; simp only [KindOp.args, List.mem_singleton] at hx; subst hx
        exact hl _ (List.mem_cons_self ..)) h ?_
    simp only [KindBuilder.apply]
    rw [ModifyTwice.modify_modify]
    simp [PartialDataSchemaBuilder.pushOneOf]

/-- The state `d` of a data schema is what is left of the builder `k`, made from `b` by the changes `g`. -/
structure Yields (k : KindBuilder I DS AS OS) (b : I)
    (g : PartialDataSchemaBuilder DS AS OS → PartialDataSchemaBuilder DS AS OS)
    (d : PartialDataSchema DS AS OS) : Prop where
  inner : k.inner = modify g b
  subtype : k.kind.toSubtype = d.subtype
  keep : ∀ p, (∃ x u f o, p = { PartialDataSchemaBuilder.empty o with default := x, unit := u, format := f }) →
    k.kind.keepConstant (g p).constant = d.constant ∧ k.kind.keepOneOf (g p).oneOf = d.oneOf ∧
    k.kind.keepEnum (g p).enumeration = d.enumeration ∧ k.access.onReadOnly (g p).readOnly = d.readOnly ∧
    (g p).writeOnly = d.writeOnly ∧ (g p).default = p.default ∧ (g p).unit = p.unit ∧
    (g p).format = p.format ∧ (g p).other = p.other

theorem CallClosed.access [ModifyTwice I DS AS OS] (hc : CallClosed R) {b : I}
    {g : PartialDataSchemaBuilder DS AS OS → PartialDataSchemaBuilder DS AS OS} {kind : Kind DS AS OS}
    (hk : kind.hasAccess = true) (h : R ⟨modify g b, kind, .both⟩) {d : PartialDataSchema DS AS OS}
    (hy : Yields ⟨modify g b, kind, .both⟩ b g { d with readOnly := false, writeOnly := false })
    (hd : ¬ (d.readOnly = true ∧ d.writeOnly = true)) : ∃ k g, R k ∧ Yields k b g d := by
  obtain ⟨c, df, u, o, e, r, w, f, st, ot⟩ := d
  cases r with
  | true =>
    cases w with
    | true => exact absurd ⟨rfl, rfl⟩ hd
    | false =>
      refine ⟨⟨modify (fun p => (g p).setReadOnly) b, kind, .readOnly⟩, _, ?_, rfl, hy.subtype, ?_⟩
      · refine hc _ _ .readOnly rfl nofun h ?_
        simp only [KindBuilder.apply, hk]
        rw [ModifyTwice.modify_modify]
      · intro p hp
        obtain ⟨h1, h2, h3, h4, h5, h6⟩ := hy.keep p hp
        exact ⟨h1, h2, h3, rfl, h5, h6⟩
  | false =>
    cases w with
    | true =>
      refine ⟨⟨modify (fun p => (g p).setWriteOnly) b, kind, .writeOnly⟩, _, ?_, rfl, hy.subtype, ?_⟩
      · refine hc _ _ .writeOnly rfl nofun h ?_
        simp only [KindBuilder.apply, hk]
        rw [ModifyTwice.modify_modify]
      · intro p hp
        obtain ⟨h1, h2, h3, h4, h5, h6⟩ := hy.keep p hp
        exact ⟨h1, h2, h3, rfl, rfl, h6⟩
    | false => exact ⟨_, g, h, hy⟩

theorem CallClosed.made [ModifyTwice I DS AS OS] (hc : CallClosed R) {b : I}
    (hid : ∀ b : I, modify (fun p => p) b = b)
    (start : ∀ op : SpecOp DS AS OS, (∀ s ∈ op.args, SchemaBuilt s) → R (specialise b op))
    {d : PartialDataSchema DS AS OS} (hs : PartialShape d)
    (hso : ∀ o m, d.subtype = some (.object o) → o.properties = some m → HMap.Sorted m)
    (ho : ∀ l, d.oneOf = some l → ∀ c ∈ l, SchemaBuilt c)
    (hch : ∀ st, d.subtype = some st → ∀ c ∈ st.children, SchemaBuilt c)
    (hstr : ∀ st, d.subtype = some (.string st) → R ⟨b, .string st, .both⟩)
    (hopen : ¬ (d.subtype = none ∧ d.oneOf = none ∧ d.enumeration = none ∧ d.constant = none)) :
    ∃ k g, R k ∧ Yields k b g d := by
  obtain ⟨c, df, u, o, e, r, w, f, st, ot⟩ := d
  cases st with
  | some st =>
    have he : e = none := by
      cases e with
      | none => rfl
      | some l => exact absurd (hs.enumeration l rfl).2.1 (by simp)
    have hcn : c = none := by
      cases c with
      | none => rfl
      | some l => exact absurd (hs.constant l rfl).1 (by simp)
    have hon : o = none := by
      cases o with
      | none => rfl
      | some l => exact absurd (hs.oneOf l rfl).2.1 (by simp)
    subst he hcn hon
    have fin : ∀ kind : Kind DS AS OS, kind.hasAccess = true → R ⟨b, kind, .both⟩ →
        kind.toSubtype = some st →
        (∀ p : PartialDataSchemaBuilder DS AS OS,
          p.constant = none → kind.keepConstant p.constant = none ∧ kind.keepOneOf p.oneOf = none ∧
          kind.keepEnum p.enumeration = none) →
        ∃ k g, R k ∧ Yields k b g (PartialDataSchema.mk none df u none none r w f (some st) ot) := by
      intro kind h1 h2 h3 h4
      refine hc.access h1 (g := fun p => p) (by rw [hid]; exact h2) ⟨rfl, h3, ?_⟩ hs.access
      rintro p ⟨x, u, f, o, rfl⟩
      obtain ⟨k1, k2, k3⟩ := h4 { PartialDataSchemaBuilder.empty o with default := x, unit := u, format := f } rfl
      exact ⟨k1, k2, k3, rfl, rfl, rfl, rfl, rfl, rfl⟩
    cases st with
    | array a =>
      obtain ⟨items, lo, hi, oth⟩ := a
      rcases items with _ | (i | l)
      · exact fin (.vec none lo hi oth) rfl (hc.vec none lo hi nofun (start (.vec oth) nofun)) rfl
          (fun p _ => ⟨rfl, rfl, rfl⟩)
      · exact fin (.vec (some i) lo hi oth) rfl (hc.vec (some i) lo hi (by
          rintro s ⟨⟩; exact hch _ rfl _ (by simp [SubtypeF.children, ElemOrVec.toList])) (start (.vec oth) nofun)) rfl
          (fun p _ => ⟨rfl, rfl, rfl⟩)
      · obtain ⟨h1, h2⟩ := hs.tuple _ l rfl rfl
        simp only at h1 h2
        subst h1 h2
        exact fin (.tuple l oth) rfl (hc.tuple l (fun s h => hch _ rfl _ (by
          simpa [SubtypeF.children, ElemOrVec.toList] using h)) (l0 := []) (start (.tuple oth) nofun)) rfl
          (fun p _ => ⟨rfl, rfl, rfl⟩)
    | boolean => exact fin (.stateless (some .boolean)) rfl (start .bool nofun) rfl (fun p h => ⟨h, rfl, rfl⟩)
    | null => exact fin (.stateless (some .null)) rfl (start .null nofun) rfl (fun p h => ⟨h, rfl, rfl⟩)
    | number n => exact fin (.number n) rfl (hc.number n (start .number nofun)) rfl (fun p _ => ⟨rfl, rfl, rfl⟩)
    | integer n => exact fin (.integer n) rfl (hc.integer n (start .integer nofun)) rfl (fun p _ => ⟨rfl, rfl, rfl⟩)
    | string n => exact fin (.string n) rfl (hstr n rfl) rfl (fun p _ => ⟨rfl, rfl, rfl⟩)
    | object ob =>
      obtain ⟨ps, req, oth⟩ := ob
      cases ps with
      | none =>
        cases req with
        | none =>
          exact fin (.object [] [] oth) rfl (start (.object oth) nofun) rfl (fun p _ => ⟨rfl, rfl, rfl⟩)
        | some r =>
          obtain ⟨h1, h2⟩ := hs.required _ r rfl rfl
          obtain ⟨n, r', rfl⟩ := List.exists_cons_of_ne_nil h1
          obtain ⟨m, s, hm, -⟩ := h2 n (List.mem_cons_self ..)
          cases hm
      | some m =>
        have hm0 : m ≠ [] := hs.properties _ m rfl rfl
        have hms : HMap.Sorted m := hso _ m rfl rfl
        have hb : ∀ kv ∈ m, SchemaBuilt kv.2 := fun kv hkv => hch _ rfl _ (by
          simp only [SubtypeF.children, Option.map_some, Option.getD_some, HMap.values]
          exact List.mem_map.2 ⟨kv, hkv, rfl⟩)
        have hreq : ∀ n ∈ req.getD [], ∃ s, (n, s) ∈ m := by
          cases req with
          | none => nofun
          | some r =>
            intro n hn
            obtain ⟨m', s, h1, h2⟩ := (hs.required _ r rfl rfl).2 n hn
            cases h1
            exact ⟨s, h2⟩
        have hex : ∀ l : List String, (∀ n ∈ l, ∃ s, (n, s) ∈ m) →
            ∃ rs : List (String × UncheckedDataSchema DS AS OS), rs.map (·.1) = l ∧ ∀ kv ∈ rs, kv ∈ m := by
          intro l
          induction l with
          | nil => exact fun _ => ⟨[], rfl, nofun⟩
          | cons n l ih =>
            intro hl
            obtain ⟨rs, h1, h2⟩ := ih fun x hx => hl x (List.mem_cons_of_mem _ hx)
            obtain ⟨s, hs⟩ := hl n (List.mem_cons_self ..)
            refine ⟨(n, s) :: rs, by rw [List.map_cons, h1], ?_⟩
            intro kv hkv
            rcases List.mem_cons.1 hkv with rfl | hkv
            · exact hs
            · exact h2 kv hkv
        obtain ⟨rs, hrs, hrm⟩ := hex _ hreq
        have hcol : HMap.collect (rs ++ m) = m := collect_append_self hms hrm
        refine fin (.object (rs ++ m) (rs.map (·.1)) oth) rfl
          (hc.object m rs (fun kv h => hb kv (hrm kv h)) hb (start (.object oth) nofun)) ?_
          (fun p _ => ⟨rfl, rfl, rfl⟩)
        simp only [Kind.toSubtype]
        rw [nonEmpty_eq_some.2 ⟨rfl, by simp [hm0]⟩, Option.map_some, hcol, hrs]
        cases req with
        | none => rfl
        | some r =>
          rw [Option.getD_some, nonEmpty_eq_some.2 ⟨rfl, (hs.required _ r rfl rfl).1⟩]
  | none =>
    cases e with
    | some l =>
      obtain ⟨h1, -, h2, h3⟩ := hs.enumeration l rfl
      simp only at h2 h3
      subst h2 h3
      obtain ⟨v, l, rfl⟩ := List.exists_cons_of_ne_nil h1
      refine hc.access (kind := .enum) rfl (hc.enum l (l0 := [v]) (start (.enumeration v) nofun))
        ⟨rfl, rfl, ?_⟩ hs.access
      rintro p ⟨x, u, f, o, rfl⟩
      exact ⟨rfl, rfl, rfl, rfl, rfl, rfl, rfl, rfl, rfl⟩
    | none =>
      cases c with
      | some v =>
        obtain ⟨-, h2, -, h3⟩ := hs.constant v rfl
        simp only at h2 h3
        subst h2 h3
        have hw : w = false := by
          cases w with
          | false => rfl
          | true => exact absurd ⟨rfl, rfl⟩ hs.access
        subst hw
        refine ⟨_, (·.setConstant v), start (.constant v) nofun, rfl, rfl, ?_⟩
        rintro p ⟨x, u, f, o, rfl⟩
        exact ⟨rfl, rfl, rfl, rfl, rfl, rfl, rfl, rfl, rfl⟩
      | none =>
        cases o with
        | none => exact absurd ⟨rfl, rfl, rfl, rfl⟩ hopen
        | some l =>
          obtain ⟨h1, -, -, -, h2, h3⟩ := hs.oneOf l rfl
          simp only at h2 h3
          subst h2 h3
          obtain ⟨v, l, rfl⟩ := List.exists_cons_of_ne_nil h1
          refine ⟨_, _, hc.oneOf l (fun s h => ho _ rfl s (List.mem_cons_of_mem _ h)) (l0 := [v])
            (start (.oneOf v) ?_), rfl, rfl, ?_⟩
          · intro x hx; simp only [SpecOp.args, List.mem_singleton] at hx; subst hx
            exact ho _ rfl _ (List.mem_cons_self ..)
          rintro p ⟨x, u, f, o, rfl⟩
          exact ⟨rfl, rfl, rfl, rfl, rfl, rfl, rfl, rfl, rfl⟩

end
end Wot
