import Verif.Lemmas.SchemaReach
import Verif.Lemmas.History
import Verif.Spec.SchemaHistory
/-
The data schema builders as functions of their call history.
-/
set_option linter.unusedSimpArgs false

namespace Wot

variable {DS AS OS I : Type}

theorem snoc_induction {α : Type} {P : List α → Prop} (nil : P []) (snoc : ∀ l a, P l → P (l ++ [a])) :
    ∀ l, P l := by
  intro l
  rw [← l.reverse_reverse]
  induction l.reverse with
  | nil => exact nil
  | cons a l ih => rw [List.reverse_cons]; exact snoc _ _ ih

namespace SchemaCalls

/-- The kind-specific state after a sequence of calls. -/
def kind (ops : List (KindOp DS AS OS)) : SpecOp DS AS OS → Kind DS AS OS
  | .tuple other => .tuple (appended ops) other
  | .vec other => .vec (lastOf (items ops)) (lastOf (minItems ops)) (lastOf (maxItems ops)) other
  | .bool => .stateless (some .boolean)
  | .null => .stateless (some .null)
  | .number => .number ⟨lastOf (maxima ops), lastOf (minima ops), lastOf (multiples ops)⟩
  | .integer => .integer ⟨lastOf (iMaxima ops), lastOf (iMinima ops), lastOf (iMultiples ops)⟩
  | .object other => .object (properties ops) (required ops) other
  | .string => .string ⟨lastOf (minLengths ops), lastOf (maxLengths ops), lastOf (patterns ops),
      lastOf (contentEncodings ops), lastOf (contentMediaTypes ops)⟩
  | .constant _ => .stateless none
  | .enumeration _ => .enum
  | .oneOf _ => .oneOf

/-- The wrapper after a sequence of calls. -/
def access (ops : List (KindOp DS AS OS)) : SpecOp DS AS OS → Access
  | .constant _ => .readOnly
  | _ => if (readOnlyCalls ops).isEmpty then
      if (writeOnlyCalls ops).isEmpty then .both else .writeOnly else .readOnly

/-- The common part after a sequence of calls. -/
def part (ops : List (KindOp DS AS OS)) (b : PartialDataSchemaBuilder DS AS OS) (op : SpecOp DS AS OS) :
    PartialDataSchemaBuilder DS AS OS :=
  { constant := (constant op).or b.constant
    default := (lastOf (defaults ops)).or b.default
    unit := (lastOf (units ops)).or b.unit
    oneOf := b.oneOf ++ (oneOf ops op).getD []
    enumeration := b.enumeration ++ (enumeration ops op).getD []
    readOnly := !(readOnlyCalls ops).isEmpty || b.readOnly
    writeOnly := !(writeOnlyCalls ops).isEmpty || b.writeOnly
    format := (lastOf (formats ops)).or b.format
    other := b.other }

/-- The human readable information after a sequence of calls. -/
def info (l : List InfoOp) (i : HumanReadableInfo) : HumanReadableInfo :=
  { attype := if (attypes l).isEmpty then i.attype else some (i.attype.getD [] ++ attypes l)
    title := (lastOf (titleTexts l)).or i.title
    titles := ((lastOf (titles l)).map .ofCalls).or i.titles
    description := (lastOf (descriptionTexts l)).or i.description
    descriptions := ((lastOf (descriptions l)).map .ofCalls).or i.descriptions }

theorem info_snoc (l : List InfoOp) (i : HumanReadableInfo) (o : InfoOp) :
    info (l ++ [o]) i = (info l i).apply o := by
  cases o <;>
    simp [info, HumanReadableInfo.apply, attypes, titleTexts, titles, descriptionTexts, descriptions,
      List.filterMap_append, lastOf_append, optPush]
  split <;> simp_all

end SchemaCalls

open SchemaCalls

theorem kind_snoc (ops : List (KindOp DS AS OS)) (op : SpecOp DS AS OS) (o : KindOp DS AS OS)
    {k : Kind DS AS OS} (h : (kind ops op).apply o = some k) : kind (ops ++ [o]) op = k := by
  cases op <;> cases o <;> simp only [kind, Kind.apply, reduceCtorEq, Option.some.injEq] at h <;> subst h <;>
    simp [kind, appended, items, minItems, maxItems, minima, maxima, multiples, iMinima, iMaxima,
      iMultiples, properties, required, minLengths, maxLengths, patterns, contentEncodings,
      contentMediaTypes, List.filterMap_append, lastOf_append]
  split <;> simp_all

theorem foldlM_snoc {A B : Type} {f : A → B → Option A} {a c : A} {l : List B} {x : B}
    (h : (l ++ [x]).foldlM f a = some c) : ∃ d, l.foldlM f a = some d ∧ f d x = some c := by
  rw [List.foldlM_append] at h
  obtain ⟨d, h1, h2⟩ := Option.bind_eq_some_iff.1 h
  refine ⟨d, h1, ?_⟩
  rw [List.foldlM_cons] at h2
  obtain ⟨e, h3, h4⟩ := Option.bind_eq_some_iff.1 h2
  cases h4
  exact h3

theorem kind_same (ops : List (KindOp DS AS OS)) (op : SpecOp DS AS OS) {o : KindOp DS AS OS}
    (h : o.specific = false) : kind (ops ++ [o]) op = kind ops op := by
  cases o <;> first | cases h | skip
  all_goals
    cases op <;> simp [kind, appended, items, minItems, maxItems, minima, maxima, multiples, iMinima,
      iMaxima, iMultiples, properties, required, minLengths, maxLengths, patterns, contentEncodings,
      contentMediaTypes, List.filterMap_append]

theorem calls_same (ops : List (KindOp DS AS OS)) {o : KindOp DS AS OS} (h : o.specific = true) :
    readOnlyCalls (ops ++ [o]) = readOnlyCalls ops ∧ writeOnlyCalls (ops ++ [o]) = writeOnlyCalls ops ∧
    (∀ b op, SchemaCalls.part (ops ++ [o]) b op = SchemaCalls.part ops b op) ∧
    infos (ops ++ [o]) = infos ops := by
  cases o <;> first | cases h | skip
  all_goals
    refine ⟨by simp [readOnlyCalls, List.filterMap_append], by simp [writeOnlyCalls, List.filterMap_append],
      fun b op => ?_, by simp [infos, List.filterMap_append]⟩
    cases op <;> simp [SchemaCalls.part, SchemaCalls.constant, SchemaCalls.oneOf,
      SchemaCalls.enumeration, enumerations, alternatives, defaults, units, formats, readOnlyCalls,
      writeOnlyCalls, List.filterMap_append]

section
variable [HasPartial I DS AS OS] [LawfulPartial I DS AS OS]
open HasPartial LawfulPartial

omit [LawfulPartial I DS AS OS] in
theorem apply_specific {k k' : KindBuilder I DS AS OS} {o : KindOp DS AS OS} (h : o.specific = true)
    (ha : k.apply o = some k') : ∃ kd, k.kind.apply o = some kd ∧ k' = { k with kind := kd } :=
  apply_kind ha h

theorem specialise_part (b : I) (op : SpecOp DS AS OS) :
    LawfulPartial.part (specialise b op).inner = SchemaCalls.part [] (LawfulPartial.part b) op := by
  cases op <;> simp [specialise, part_modify, SchemaCalls.part, SchemaCalls.constant, SchemaCalls.oneOf,
    SchemaCalls.enumeration, enumerations, alternatives, defaults, units, formats, readOnlyCalls, writeOnlyCalls,
    lastOf, PartialDataSchemaBuilder.setConstant, PartialDataSchemaBuilder.pushEnum,
    PartialDataSchemaBuilder.pushOneOf]

/-- The state of a specialised builder after a sequence of calls. -/
theorem kind_history {b : I} {op : SpecOp DS AS OS} {ops : List (KindOp DS AS OS)}
    {k : KindBuilder I DS AS OS} (h : ops.foldlM KindBuilder.apply (specialise b op) = some k) :
    k.kind = kind ops op ∧ k.access = access ops op ∧
      LawfulPartial.part k.inner = SchemaCalls.part ops (LawfulPartial.part b) op := by
  induction ops using snoc_induction generalizing k with
  | nil => cases h; exact ⟨by cases op <;> rfl, by cases op <;> rfl, specialise_part b op⟩
  | snoc ops o ih =>
    obtain ⟨d, h1, h2⟩ := foldlM_snoc h
    obtain ⟨e1, e2, e3⟩ := ih h1
    obtain ⟨inner, kd, ac⟩ := d
    dsimp only at e1 e2 e3
    subst e1 e2
    cases ho : o.specific with
    | true =>
      obtain ⟨kd, h3, rfl⟩ := apply_specific ho h2
      obtain ⟨c1, c2, c3, -⟩ := calls_same ops ho
      refine ⟨(kind_snoc ops op o h3).symm, ?_, by rw [c3]; exact e3⟩
      cases op <;> simp only [access, c1, c2]
    | false =>
      rw [kind_same ops op ho]
      cases o <;> first | (cases ho; done) | skip
      case unit v =>
        cases h2
        refine ⟨rfl, by cases op <;> simp [access, readOnlyCalls, writeOnlyCalls, List.filterMap_append], ?_⟩
        simp only [part_modify, e3]
        cases op <;> simp [SchemaCalls.part, SchemaCalls.constant, SchemaCalls.oneOf,
          SchemaCalls.enumeration, enumerations, alternatives, defaults, units, formats, readOnlyCalls,
          writeOnlyCalls, List.filterMap_append, lastOf_append, PartialDataSchemaBuilder.setUnit]
      case format v =>
        cases h2
        refine ⟨rfl, by cases op <;> simp [access, readOnlyCalls, writeOnlyCalls, List.filterMap_append], ?_⟩
        simp only [part_modify, e3]
        cases op <;> simp [SchemaCalls.part, SchemaCalls.constant, SchemaCalls.oneOf,
          SchemaCalls.enumeration, enumerations, alternatives, defaults, units, formats, readOnlyCalls,
          writeOnlyCalls, List.filterMap_append, lastOf_append, PartialDataSchemaBuilder.setFormat]
      case defaultValue v =>
        cases h2
        refine ⟨rfl, by cases op <;> simp [access, readOnlyCalls, writeOnlyCalls, List.filterMap_append], ?_⟩
        simp only [part_modify, e3]
        cases op <;> simp [SchemaCalls.part, SchemaCalls.constant, SchemaCalls.oneOf,
          SchemaCalls.enumeration, enumerations, alternatives, defaults, units, formats, readOnlyCalls,
          writeOnlyCalls, List.filterMap_append, lastOf_append, PartialDataSchemaBuilder.setDefault]
      case info v =>
        obtain ⟨g, hg, rfl⟩ := Option.map_eq_some_iff.1 h2
        refine ⟨rfl, by cases op <;> simp [access, readOnlyCalls, writeOnlyCalls, List.filterMap_append], ?_⟩
        rw [part_info _ g inner hg, e3]
        cases op <;> simp [SchemaCalls.part, SchemaCalls.constant, SchemaCalls.oneOf,
          SchemaCalls.enumeration, enumerations, alternatives, defaults, units, formats, readOnlyCalls,
          writeOnlyCalls, List.filterMap_append, lastOf_append]
      case enumeration v =>
        cases op <;> cases h2
        refine ⟨rfl, by simp [access, readOnlyCalls, writeOnlyCalls, List.filterMap_append], ?_⟩
        simp only [part_modify, e3]
        simp [SchemaCalls.part, SchemaCalls.constant, SchemaCalls.oneOf,
          SchemaCalls.enumeration, enumerations, alternatives, defaults, units, formats, readOnlyCalls,
          writeOnlyCalls, List.filterMap_append, lastOf_append, PartialDataSchemaBuilder.pushEnum]
      case oneOf v =>
        cases op <;> cases h2
        refine ⟨rfl, by simp [access, readOnlyCalls, writeOnlyCalls, List.filterMap_append], ?_⟩
        simp only [part_modify, e3]
        simp [SchemaCalls.part, SchemaCalls.constant, SchemaCalls.oneOf,
          SchemaCalls.enumeration, enumerations, alternatives, defaults, units, formats, readOnlyCalls,
          writeOnlyCalls, List.filterMap_append, lastOf_append, PartialDataSchemaBuilder.pushOneOf]
      case readOnly =>
        simp only [KindBuilder.apply] at h2
        split at h2
        · cases h2
          refine ⟨rfl, by cases op <;> simp [access, readOnlyCalls, writeOnlyCalls, List.filterMap_append], ?_⟩
          simp only [part_modify, e3]
          cases op <;> simp [SchemaCalls.part, SchemaCalls.constant, SchemaCalls.oneOf,
            SchemaCalls.enumeration, enumerations, alternatives, defaults, units, formats, readOnlyCalls,
            writeOnlyCalls, List.filterMap_append, lastOf_append, PartialDataSchemaBuilder.setReadOnly]
        · cases h2
      case writeOnly =>
        simp only [KindBuilder.apply] at h2
        split at h2
        · rename_i _ _ ha _
          cases h2
          refine ⟨rfl, ?_, ?_⟩
          · have hnil : readOnlyCalls ops = [] := by
              cases hr : readOnlyCalls ops with
              | nil => rfl
              | cons => cases op <;> simp [access, hr] at ha
            have hsn : readOnlyCalls (ops ++ [KindOp.writeOnly]) = [] := by
              rw [← hnil]; simp [readOnlyCalls, List.filterMap_append]
            cases op <;> first
              | (simp [access] at ha; done)
              | simp [access, hsn, writeOnlyCalls, List.filterMap_append]
          · simp only [part_modify, e3]
            cases op <;> simp [SchemaCalls.part, SchemaCalls.constant, SchemaCalls.oneOf,
              SchemaCalls.enumeration, enumerations, alternatives, defaults, units, formats, readOnlyCalls,
              writeOnlyCalls, List.filterMap_append, lastOf_append, PartialDataSchemaBuilder.setWriteOnly]
        · cases h2
end

theorem info_history {b : DataSchemaBuilder DS AS OS} {op : SpecOp DS AS OS}
    {ops : List (KindOp DS AS OS)} {k : KindBuilder (DataSchemaBuilder DS AS OS) DS AS OS}
    (h : ops.foldlM KindBuilder.apply (specialise b op) = some k) :
    k.inner.info = info (infos ops) b.info := by
  induction ops using snoc_induction generalizing k with
  | nil =>
    cases h
    have : info ([] : List InfoOp) b.info = b.info := rfl
    rw [show infos ([] : List (KindOp DS AS OS)) = [] from rfl, this]
    cases op <;> rfl
  | snoc ops o ih =>
    obtain ⟨d, h1, h2⟩ := foldlM_snoc h
    have e := ih h1
    cases ho : o.specific with
    | true =>
      obtain ⟨kd, h3, rfl⟩ := apply_specific ho h2
      rw [(calls_same ops ho).2.2.2]; exact e
    | false =>
      cases o <;> first | (cases ho; done) | skip
      case info v =>
        cases h2
        rw [show infos (ops ++ [KindOp.info v]) = infos ops ++ [v] by simp [infos, List.filterMap_append],
          info_snoc, ← e]
      all_goals
        first
          | (cases h2
             rw [show infos (ops ++ [_]) = infos ops by simp [infos, List.filterMap_append], ← e]
             rfl)
          | (simp only [KindBuilder.apply] at h2
             split at h2
             · cases h2
               rw [show infos (ops ++ [_]) = infos ops by simp [infos, List.filterMap_append], ← e]
               rfl
             · cases h2)

theorem PlainReach.attype {b : DataSchemaBuilder DS AS OS} (h : PlainReach DS b) :
    b.info.attype ≠ some [] := by
  induction h with
  | empty => simp [DataSchemaBuilder.empty]
  | info op _ ih => cases op <;> first | exact ih | simp [HumanReadableInfo.apply, optPush]
  | _ => assumption

theorem toSubtype_kind (ops : List (KindOp DS AS OS)) (op : SpecOp DS AS OS) :
    (kind ops op).toSubtype = subtype ops op := by
  cases op <;> rfl

theorem access_onReadOnly (ops : List (KindOp DS AS OS)) (op : SpecOp DS AS OS) :
    (access ops op).onReadOnly (!(readOnlyCalls ops).isEmpty) = SchemaCalls.readOnly ops op := by
  cases op <;> first | rfl | skip
  all_goals
    simp only [access, SchemaCalls.readOnly]
    cases (readOnlyCalls ops).isEmpty <;> cases (writeOnlyCalls ops).isEmpty <;> rfl

theorem attype_eq {o : Option (List String)} (h : o ≠ some []) (l : List String) :
    (if l.isEmpty then o else some (o.getD [] ++ l)) = nonEmpty (o.getD [] ++ l) := by
  cases l with
  | cons a l =>
    cases o with
    | none => simp [nonEmpty]
    | some m => cases m <;> simp [nonEmpty]
  | nil =>
    cases o with
    | none => simp [nonEmpty]
    | some m => cases m with
      | nil => exact absurd rfl h
      | cons a m => simp [nonEmpty]

/-- The schema produced by a sequence of calls. -/
theorem toUnchecked_history {b : DataSchemaBuilder DS AS OS} (hb : PlainReach DS b) {op : SpecOp DS AS OS}
    {ops : List (KindOp DS AS OS)} {k : KindBuilder (DataSchemaBuilder DS AS OS) DS AS OS}
    (h : ops.foldlM KindBuilder.apply (specialise b op) = some k) :
    k.toUnchecked = schema ops b op := by
  obtain ⟨h1, h2, h3⟩ := kind_history h
  have h3 : k.inner.part = SchemaCalls.part ops b.part op := h3
  have h4 := info_history h
  obtain ⟨hp, -⟩ := PlainInv.plain hb
  unfold KindBuilder.toUnchecked
  rw [h1, h2, h3, h4]
  simp only [schema, SchemaCalls.part, info, hp.readOnly, hp.writeOnly, hp.constant, hp.oneOf,
    hp.enumeration, Bool.or_false, Option.or_none, List.nil_append, access_onReadOnly, toSubtype_kind,
    attype_eq hb.attype]
  congr 1
  · congr 1
    · cases op <;> rfl
    · cases op <;> rfl
  · cases op <;> rfl

/-- The data schema of a property produced by a sequence of calls. -/
theorem toPartial_history {b : PartialDataSchemaBuilder DS AS OS} (hb : PartialReach DS b)
    {op : SpecOp DS AS OS} {ops : List (KindOp DS AS OS)}
    {k : KindBuilder (PartialDataSchemaBuilder DS AS OS) DS AS OS}
    (h : ops.foldlM KindBuilder.apply (specialise b op) = some k) :
    k.toPartial = partialSchema ops b op := by
  obtain ⟨h1, h2, h3⟩ := kind_history h
  have h3 : k.inner = SchemaCalls.part ops b op := h3
  have hp := PlainInv.partialReach hb
  unfold KindBuilder.toPartial
  rw [h1, h2, h3]
  simp only [partialSchema, SchemaCalls.part, hp.readOnly, hp.writeOnly, hp.constant, hp.oneOf,
    hp.enumeration, Bool.or_false, Option.or_none, List.nil_append, access_onReadOnly, toSubtype_kind]
  congr 1
  · cases op <;> rfl
  · cases op <;> rfl
  · cases op <;> rfl

end Wot
