import Verif.Model.Reach
import Verif.Lemmas.Convert
/-
What holds of every data schema built with the API.
-/
namespace Wot

variable {DS AS OS : Type}

theorem ofCalls_values (calls : List (String × String)) :
    (MultiLanguageBuilder.ofCalls calls).values = HMap.collect calls := by
  unfold MultiLanguageBuilder.ofCalls HMap.collect
  suffices h : ∀ b : MultiLanguageBuilder,
      (calls.foldl (fun b kv => b.add kv.1 kv.2) b).values =
        calls.foldl (fun m kv => HMap.insert kv.1 kv.2 m) b.values from h _
  induction calls with
  | nil => intro b; rfl
  | cons kv calls ih => intro b; exact ih _

/-- The translations of human readable information are sorted. -/
def InfoRep (i : HumanReadableInfo) : Prop := LangRep i.titles ∧ LangRep i.descriptions

theorem langRep_none : LangRep none := fun _ h => nomatch h

theorem langRep_ofCalls (c : List (String × String)) : LangRep (some (.ofCalls c)) := by
  rintro b h
  cases h
  rw [ofCalls_values]
  exact HMap.collect_sorted _

theorem infoRep_empty : InfoRep {} := ⟨langRep_none, langRep_none⟩

theorem InfoRep.apply {i : HumanReadableInfo} (h : InfoRep i) (op : InfoOp) : InfoRep (i.apply op) := by
  cases op with
  | titles c => exact ⟨langRep_ofCalls c, h.2⟩
  | descriptions c => exact ⟨h.1, langRep_ofCalls c⟩
  | _ => exact h

/-! ### The part common to both kinds of builders -/

/-- Access to the partial builder inside. -/
class LawfulPartial (I : Type) (DS AS OS : outParam Type) [HasPartial I DS AS OS] where
  part : I → PartialDataSchemaBuilder DS AS OS
  part_modify : ∀ f (i : I), part (HasPartial.modify f i) = f (part i)
  part_info : ∀ f (g : I → I) i, HasPartial.modifyInfo f = some g → part (g i) = part i

instance : LawfulPartial (PartialDataSchemaBuilder DS AS OS) DS AS OS where
  part := id
  part_modify _ _ := rfl
  part_info _ _ _ h := by cases h

instance : LawfulPartial (DataSchemaBuilder DS AS OS) DS AS OS where
  part := (·.part)
  part_modify _ _ := rfl
  part_info _ _ _ h := by cases h; rfl

/-- The schemas stored in the kind-specific state. -/
def Kind.schemas : Kind DS AS OS → List (UncheckedDataSchema DS AS OS)
  | .tuple items _ => items
  | .vec item _ _ _ => item.toList
  | .object ps _ _ => ps.map (·.2)
  | _ => []

/-- The flags and collections of a specialised builder are consistent with its kind. -/
structure KindInv (p : PartialDataSchemaBuilder DS AS OS) (kind : Kind DS AS OS) (a : Access) :
    Prop where
  both : a = .both → p.readOnly = false ∧ p.writeOnly = false
  readOnly : a = .readOnly → p.writeOnly = false
  writeOnly : a = .writeOnly → p.readOnly = false ∧ p.writeOnly = true
  oneOf : kind = .oneOf → p.oneOf ≠ [] ∧ a = .both
  enum : kind = .enum → p.enumeration ≠ []
  constant : kind = .stateless none → p.constant ≠ none ∧ a = .readOnly
  required : ∀ ps r o, kind = .object ps r o → ∀ n ∈ r, n ∈ ps.map (·.1)

/-- A plain builder has no flags, constants, alternatives. -/
structure PlainInv (p : PartialDataSchemaBuilder DS AS OS) : Prop where
  readOnly : p.readOnly = false
  writeOnly : p.writeOnly = false
  constant : p.constant = none
  oneOf : p.oneOf = []
  enumeration : p.enumeration = []

theorem PlainInv.plain {DS : Type} {b : DataSchemaBuilder DS AS OS} (h : PlainReach DS b) :
    PlainInv b.part ∧ InfoRep b.info := by
  induction h with
  | empty DS other => exact ⟨⟨rfl, rfl, rfl, rfl, rfl⟩, infoRep_empty⟩
  | ext f _ ih => exact ⟨⟨ih.1.readOnly, ih.1.writeOnly, ih.1.constant, rfl, ih.1.enumeration⟩, ih.2⟩
  | finishExtend _ ih => exact ⟨⟨ih.1.readOnly, ih.1.writeOnly, ih.1.constant, ih.1.oneOf,
      ih.1.enumeration⟩, ih.2⟩
  | unit v _ ih => exact ⟨⟨ih.1.readOnly, ih.1.writeOnly, ih.1.constant, ih.1.oneOf,
      ih.1.enumeration⟩, ih.2⟩
  | format v _ ih => exact ⟨⟨ih.1.readOnly, ih.1.writeOnly, ih.1.constant, ih.1.oneOf,
      ih.1.enumeration⟩, ih.2⟩
  | default v _ ih => exact ⟨⟨ih.1.readOnly, ih.1.writeOnly, ih.1.constant, ih.1.oneOf,
      ih.1.enumeration⟩, ih.2⟩
  | info op _ ih => exact ⟨ih.1, ih.2.apply op⟩
  | other o _ ih => exact ⟨⟨ih.1.readOnly, ih.1.writeOnly, ih.1.constant, ih.1.oneOf,
      ih.1.enumeration⟩, ih.2⟩

theorem PlainInv.partialReach {DS : Type} {b : PartialDataSchemaBuilder DS AS OS}
    (h : PartialReach DS b) : PlainInv b := by
  induction h with
  | empty DS other => exact ⟨rfl, rfl, rfl, rfl, rfl⟩
  | ext f _ ih => exact ⟨ih.readOnly, ih.writeOnly, ih.constant, rfl, ih.enumeration⟩
  | finishExtend _ ih => exact ⟨ih.readOnly, ih.writeOnly, ih.constant, ih.oneOf, ih.enumeration⟩
  | unit v _ ih => exact ⟨ih.readOnly, ih.writeOnly, ih.constant, ih.oneOf, ih.enumeration⟩
  | format v _ ih => exact ⟨ih.readOnly, ih.writeOnly, ih.constant, ih.oneOf, ih.enumeration⟩
  | default v _ ih => exact ⟨ih.readOnly, ih.writeOnly, ih.constant, ih.oneOf, ih.enumeration⟩

/-- The calls that act on the kind-specific state. -/
def KindOp.specific : KindOp DS AS OS → Bool
  | .unit _ | .format _ | .defaultValue _ | .info _ | .enumeration _ | .oneOf _ | .readOnly
  | .writeOnly => false
  | _ => true

theorem apply_kind {I : Type} [HasPartial I DS AS OS] {k k' : KindBuilder I DS AS OS} {o : KindOp DS AS OS}
    (ha : k.apply o = some k') (h : o.specific = true) :
    ∃ kd, k.kind.apply o = some kd ∧ k' = { k with kind := kd } := by
  cases o <;> first | cases h | skip
  all_goals
    simp only [KindBuilder.apply] at ha
    split at ha
    · cases ha
    · obtain ⟨kd, h1, h2⟩ := Option.map_eq_some_iff.1 ha
      exact ⟨kd, h1, h2.symm⟩

section
variable {I : Type} [HasPartial I DS AS OS] [LawfulPartial I DS AS OS]
open LawfulPartial

/-- All schemas stored in a builder. -/
def KindBuilder.schemas (k : KindBuilder I DS AS OS) : List (UncheckedDataSchema DS AS OS) :=
  (part k.inner).oneOf ++ k.kind.schemas

theorem specialise_inv {b : I} (h : PlainInv (part b)) (op : SpecOp DS AS OS) :
    KindInv (part (specialise b op).inner) (specialise b op).kind (specialise b op).access := by
  cases op <;> constructor <;>
    simp [specialise, part_modify, PartialDataSchemaBuilder.setConstant,
      PartialDataSchemaBuilder.pushEnum, PartialDataSchemaBuilder.pushOneOf, h.readOnly, h.writeOnly]

theorem specialise_schemas {b : I} (h : PlainInv (part b)) (op : SpecOp DS AS OS) :
    (specialise b op).schemas = op.args := by
  cases op <;> simp [specialise, KindBuilder.schemas, part_modify, Kind.schemas, SpecOp.args,
    PartialDataSchemaBuilder.setConstant,
    PartialDataSchemaBuilder.pushEnum, PartialDataSchemaBuilder.pushOneOf, h.oneOf]

/-- What a call on a specialised builder can do. -/
theorem apply_cases {k k' : KindBuilder I DS AS OS} {op : KindOp DS AS OS}
    (h : k.apply op = some k') :
    (∃ f : PartialDataSchemaBuilder DS AS OS → PartialDataSchemaBuilder DS AS OS,
      part k'.inner = f (part k.inner) ∧ k'.kind = k.kind ∧ k'.access = k.access ∧
      (∀ p, (f p).readOnly = p.readOnly ∧ (f p).writeOnly = p.writeOnly ∧
        (f p).constant = p.constant ∧
        (∀ s ∈ (f p).oneOf, s ∈ p.oneOf ∨ s ∈ op.args) ∧ (p.oneOf ≠ [] → (f p).oneOf ≠ []) ∧
        (p.enumeration ≠ [] → (f p).enumeration ≠ []))) ∨
    (part k'.inner = part k.inner ∧ k'.access = k.access ∧ k.kind.apply op = some k'.kind) ∨
    (op = .readOnly ∧ part k'.inner = (part k.inner).setReadOnly ∧ k'.kind = k.kind ∧
      k.access = .both ∧ k'.access = .readOnly ∧ k.kind.hasAccess = true) ∨
    (op = .writeOnly ∧ part k'.inner = (part k.inner).setWriteOnly ∧ k'.kind = k.kind ∧
      k.access = .both ∧ k'.access = .writeOnly ∧ k.kind.hasAccess = true) := by
  cases op
  case unit v =>
    cases h
    exact .inl ⟨(·.setUnit v), part_modify _ _, rfl, rfl, fun p =>
      ⟨rfl, rfl, rfl, fun s hs => .inl hs, id, id⟩⟩
  case format v =>
    cases h
    exact .inl ⟨(·.setFormat v), part_modify _ _, rfl, rfl, fun p =>
      ⟨rfl, rfl, rfl, fun s hs => .inl hs, id, id⟩⟩
  case defaultValue v =>
    cases h
    exact .inl ⟨(·.setDefault v), part_modify _ _, rfl, rfl, fun p =>
      ⟨rfl, rfl, rfl, fun s hs => .inl hs, id, id⟩⟩
  case info op =>
    simp only [KindBuilder.apply, Option.map_eq_some_iff] at h
    obtain ⟨g, hg, rfl⟩ := h
    exact .inl ⟨id, part_info _ _ _ hg, rfl, rfl, fun p =>
      ⟨rfl, rfl, rfl, fun s hs => .inl hs, fun h => h, fun h => h⟩⟩
  case enumeration v =>
    simp only [KindBuilder.apply] at h
    split at h
    · cases h
      exact .inl ⟨(·.pushEnum v), part_modify _ _, rfl, rfl, fun p =>
        ⟨rfl, rfl, rfl, fun s hs => .inl hs, id, fun _ => by simp [PartialDataSchemaBuilder.pushEnum]⟩⟩
    · cases h
  case oneOf s =>
    simp only [KindBuilder.apply] at h
    split at h
    · cases h
      exact .inl ⟨(·.pushOneOf s), part_modify _ _, rfl, rfl, fun p =>
        ⟨rfl, rfl, rfl, fun s' hs => by
          simpa [PartialDataSchemaBuilder.pushOneOf, KindOp.args] using hs,
          fun _ => by simp [PartialDataSchemaBuilder.pushOneOf], id⟩⟩
    · cases h
  case readOnly =>
    simp only [KindBuilder.apply] at h
    split at h
    · cases h
      exact .inr (.inr (.inl ⟨rfl, part_modify _ _, rfl, by assumption, rfl, by assumption⟩))
    · cases h
  case writeOnly =>
    simp only [KindBuilder.apply] at h
    split at h
    · cases h
      exact .inr (.inr (.inr ⟨rfl, part_modify _ _, rfl, by assumption, rfl, by assumption⟩))
    · cases h
  all_goals
    obtain ⟨kd, hkd, rfl⟩ := apply_kind h rfl
    exact .inr (.inl ⟨rfl, rfl, hkd⟩)

/-- The kind-specific setters keep the kind, and only add their arguments to the stored schemas. -/
theorem kind_apply_inv {kd kd' : Kind DS AS OS} {op : KindOp DS AS OS} (h : kd.apply op = some kd') :
    (kd' ≠ .oneOf ∧ kd' ≠ .enum ∧ kd' ≠ .stateless none) ∧
    (∀ s ∈ kd'.schemas, s ∈ kd.schemas ∨ s ∈ op.args) ∧
    ((∀ ps r o, kd = .object ps r o → ∀ n ∈ r, n ∈ ps.map (·.1)) →
      ∀ ps r o, kd' = .object ps r o → ∀ n ∈ r, n ∈ ps.map (·.1)) := by
  unfold Kind.apply at h
  split at h <;> first
    | (cases h; done)
    | (cases h
       refine ⟨by simp, ?_, ?_⟩
       · simp +contextual [Kind.schemas, KindOp.args]
       · first
         | (intro _ ps r o h; simp at h; done)
         | (rename_i ps r o name required s
            intro hr ps' r' o' h n hn
            simp only [Kind.object.injEq] at h
            obtain ⟨rfl, rfl, rfl⟩ := h
            have hr := hr _ _ _ rfl n
            simp only [List.map_append, List.map_cons, List.map_nil, List.mem_append,
              List.mem_singleton]
            cases required with
            | false => exact .inl (hr hn)
            | true =>
              simp only [if_true, List.mem_append, List.mem_singleton] at hn
              rcases hn with hn | hn
              · exact .inl (hr hn)
              · exact .inr hn))

theorem apply_inv {k k' : KindBuilder I DS AS OS} {op : KindOp DS AS OS} (h : k.apply op = some k')
    (inv : KindInv (part k.inner) k.kind k.access) :
    KindInv (part k'.inner) k'.kind k'.access := by
  rcases apply_cases h with ⟨f, h1, h2, h3, hf⟩ | ⟨h1, h2, h3⟩ | ⟨_, h1, h2, h3, h4, h5⟩ |
    ⟨_, h1, h2, h3, h4, h5⟩
  · obtain ⟨f1, f2, f3, f4, f5, f6⟩ := hf (part k.inner)
    rw [h1, h2, h3]
    exact ⟨fun h => by rw [f1, f2]; exact inv.both h, fun h => by rw [f2]; exact inv.readOnly h,
      fun h => by rw [f1, f2]; exact inv.writeOnly h,
      fun h => ⟨f5 (inv.oneOf h).1, (inv.oneOf h).2⟩, fun h => f6 (inv.enum h),
      fun h => by rw [f3]; exact inv.constant h, inv.required⟩
  · obtain ⟨⟨n1, n2, n3⟩, _, hr⟩ := kind_apply_inv h3
    rw [h1, h2]
    exact ⟨inv.both, inv.readOnly, inv.writeOnly, fun h => absurd h n1, fun h => absurd h n2,
      fun h => absurd h n3, hr inv.required⟩
  · rw [h1, h2, h4]
    have hb := inv.both h3
    exact ⟨(fun h => by cases h), fun _ => hb.2, (fun h => by cases h),
      fun h => by rw [h] at h5; simp [Kind.hasAccess] at h5, inv.enum,
      fun h => ⟨(inv.constant h).1, rfl⟩, inv.required⟩
  · rw [h1, h2, h4]
    have hb := inv.both h3
    exact ⟨(fun h => by cases h), (fun h => by cases h), fun _ => ⟨hb.1, rfl⟩,
      fun h => by rw [h] at h5; simp [Kind.hasAccess] at h5, inv.enum,
      (fun h => by have := (inv.constant h).2; rw [h3] at this; cases this), inv.required⟩

theorem apply_schemas {k k' : KindBuilder I DS AS OS} {op : KindOp DS AS OS}
    (h : k.apply op = some k') {s : UncheckedDataSchema DS AS OS} (hs : s ∈ k'.schemas) :
    s ∈ k.schemas ∨ s ∈ op.args := by
  unfold KindBuilder.schemas at *
  rw [List.mem_append] at *
  rcases apply_cases h with ⟨f, h1, h2, h3, hf⟩ | ⟨h1, h2, h3⟩ | ⟨_, h1, h2, h3, h4, h5⟩ |
    ⟨_, h1, h2, h3, h4, h5⟩
  · obtain ⟨f1, f2, f3, f4, f5, f6⟩ := hf (part k.inner)
    rw [h1, h2] at hs
    rcases hs with hs | hs
    · rcases f4 s hs with h | h
      · exact .inl (.inl h)
      · exact .inr h
    · exact .inl (.inr hs)
  · rw [h1] at hs
    rcases hs with hs | hs
    · exact .inl (.inl hs)
    · rcases (kind_apply_inv h3).2.1 s hs with h | h
      · exact .inl (.inr h)
      · exact .inr h
  · rw [h1, h2] at hs; exact .inl hs
  · rw [h1, h2] at hs; exact .inl hs

end

theorem info_apply {k k' : KindBuilder (DataSchemaBuilder DS AS OS) DS AS OS} {op : KindOp DS AS OS}
    (h : k.apply op = some k') (hi : InfoRep k.inner.info) : InfoRep k'.inner.info := by
  cases op
  case info op => cases h; exact hi.apply op
  case enumeration v => simp only [KindBuilder.apply] at h; split at h <;> cases h; exact hi
  case oneOf v => simp only [KindBuilder.apply] at h; split at h <;> cases h; exact hi
  case readOnly => simp only [KindBuilder.apply] at h; split at h <;> cases h; exact hi
  case writeOnly => simp only [KindBuilder.apply] at h; split at h <;> cases h; exact hi
  case unit => cases h; exact hi
  case format => cases h; exact hi
  case defaultValue => cases h; exact hi
  all_goals
    obtain ⟨kd, hkd, rfl⟩ := apply_kind h rfl
    exact hi

/-- Everything known about a reachable specialised builder. -/
structure KindFacts (k : KindBuilder (DataSchemaBuilder DS AS OS) DS AS OS) : Prop where
  inv : KindInv k.inner.part k.kind k.access
  info : InfoRep k.inner.info
  schemas : ∀ s ∈ k.schemas, SchemaBuilt s

theorem KindReach.facts {k : KindBuilder (DataSchemaBuilder DS AS OS) DS AS OS} (h : KindReach k) :
    KindFacts k := by
  refine KindReach.rec (motive_1 := fun k _ => KindFacts k) (motive_2 := fun _ _ => True)
    ?_ ?_ ?_ ?_ h
  · intro b op hb hargs _
    obtain ⟨hp, hi⟩ := PlainInv.plain hb
    refine ⟨specialise_inv (I := DataSchemaBuilder DS AS OS) (b := b) hp op, ?_, fun s hs => ?_⟩
    · cases op <;> exact hi
    · rw [specialise_schemas (I := DataSchemaBuilder DS AS OS) (b := b) hp op] at hs
      exact hargs s hs
  · intro k k' op hk hargs hap ih _
    exact ⟨apply_inv hap ih.inv, info_apply hap ih.info, fun s hs =>
      (apply_schemas hap hs).elim (ih.schemas s) (hargs s)⟩
  · intros; trivial
  · intros; trivial

theorem PartialKindReach.facts {k : KindBuilder (PartialDataSchemaBuilder DS AS OS) DS AS OS}
    (h : PartialKindReach k) :
    KindInv k.inner k.kind k.access ∧ ∀ s ∈ k.schemas, SchemaBuilt s := by
  induction h with
  | start op hb hargs =>
    rename_i b
    have hp := PlainInv.partialReach hb
    refine ⟨specialise_inv (I := PartialDataSchemaBuilder DS AS OS) (b := b) hp op, fun s hs => ?_⟩
    rw [specialise_schemas (I := PartialDataSchemaBuilder DS AS OS) (b := b) hp op] at hs
    exact hargs s hs
  | step op hk _ hargs hap ih =>
    exact ⟨apply_inv hap ih.1, fun s hs => (apply_schemas hap hs).elim (ih.2 s) (hargs s)⟩

/-- The nested schemas of a conversion are schemas stored in the builder. -/
theorem toSubtype_children {kd : Kind DS AS OS} {st : SubtypeF AS OS (UncheckedDataSchema DS AS OS)}
    (h : kd.toSubtype = some st) {c : UncheckedDataSchema DS AS OS} (hc : c ∈ st.children) :
    c ∈ kd.schemas := by
  cases kd with
  | stateless ty =>
    cases ty with
    | none => cases h
    | some ty => cases h; cases ty <;> simp [StatelessType.toSubtype, SubtypeF.children] at hc
  | tuple items other =>
    cases h
    simpa [SubtypeF.children, ElemOrVec.toList, Kind.schemas] using hc
  | vec item a b other =>
    cases h
    cases item with
    | none => simp [SubtypeF.children] at hc
    | some x => simpa [SubtypeF.children, ElemOrVec.toList, Kind.schemas] using hc
  | number n => cases h; simp [SubtypeF.children] at hc
  | integer n => cases h; simp [SubtypeF.children] at hc
  | object ps r o =>
    cases h
    cases hp : nonEmpty ps with
    | none => simp [SubtypeF.children, hp] at hc
    | some m =>
      obtain ⟨rfl, _⟩ := nonEmpty_eq_some.1 hp
      simp only [SubtypeF.children, hp, Option.map, Option.getD, HMap.values, List.mem_map] at hc
      obtain ⟨⟨n, x⟩, hx, rfl⟩ := hc
      have hg := (HMap.get?_eq_some_iff (HMap.collect_sorted ps).nodup).2 hx
      rw [HMap.collect_get?] at hg
      obtain ⟨kv, hkv, rfl⟩ := Option.map_eq_some_iff.1 hg
      exact List.mem_map.2 ⟨kv, by simpa using List.mem_of_find?_eq_some hkv, rfl⟩
  | string s => cases h; simp [SubtypeF.children] at hc
  | enum => cases h
  | oneOf => cases h

theorem keepOneOf_some {kd : Kind DS AS OS} {l m : List (UncheckedDataSchema DS AS OS)}
    (h : kd.keepOneOf l = some m) : kd = .oneOf ∧ l = m := by
  cases kd <;> simp_all [Kind.keepOneOf]

theorem toSubtype_object {kd : Kind DS AS OS} {o : ObjectF OS (UncheckedDataSchema DS AS OS)}
    (h : kd.toSubtype = some (.object o)) : ∃ ps r, kd = .object ps r o.other ∧
      o.properties = (nonEmpty ps).map HMap.collect ∧ o.required = nonEmpty r := by
  cases kd with
  | object ps r x => cases h; exact ⟨ps, r, rfl, rfl, rfl⟩
  | stateless ty => cases ty with
    | none => cases h
    | some ty => cases ty <;> cases h
  | _ => cases h

theorem toSubtype_sorted {kd : Kind DS AS OS} {o : ObjectF OS (UncheckedDataSchema DS AS OS)}
    {m : HMap (UncheckedDataSchema DS AS OS)}
    (h : kd.toSubtype = some (.object o)) (hm : o.properties = some m) : HMap.Sorted m := by
  obtain ⟨ps, r, _, hp, _⟩ := toSubtype_object h
  rw [hm] at hp
  cases hn : nonEmpty ps with
  | none => simp [hn] at hp
  | some ps' =>
    simp only [hn, Option.map, Option.some.injEq] at hp
    subst hp
    exact HMap.collect_sorted _

/-- The schemas directly nested in a built schema are built. -/
theorem SchemaBuilt.children {s : UncheckedDataSchema DS AS OS} (h : SchemaBuilt s) :
    (∀ l, s.oneOf = some l → ∀ c ∈ l, SchemaBuilt c) ∧
    (∀ st, s.subtype = some st → ∀ c ∈ st.children, SchemaBuilt c) := by
  cases h with
  | conv hk =>
    have hf := hk.facts
    constructor
    · intro l hl c hc
      obtain ⟨_, rfl⟩ := keepOneOf_some hl
      exact hf.schemas c (List.mem_append_left _ hc)
    · intro st hst c hc
      exact hf.schemas c (List.mem_append_right _ (toSubtype_children hst hc))
  | default o =>
    exact ⟨(fun l hl => by cases hl), (fun st hst => by cases hst)⟩

/-- All schemas within a built schema are built. -/
theorem SchemaBuilt.within {x s : UncheckedDataSchema DS AS OS} (h : SchemaBuilt s) (hx : Within x s) :
    SchemaBuilt x := by
  revert h
  induction hx with
  | self => exact id
  | oneOf h1 h2 _ ih => exact fun h => ih (h.children.1 _ h1 _ h2)
  | item h1 h2 _ ih =>
    exact fun h => ih (h.children.2 _ h1 _ (mem_children_iff.2 (.inl ⟨_, rfl, h2⟩)))
  | items h1 h2 h3 _ ih =>
    exact fun h => ih (h.children.2 _ h1 _ (mem_children_iff.2 (.inr (.inl ⟨_, _, rfl, h2, h3⟩))))
  | property h1 h2 h3 _ ih =>
    exact fun h => ih (h.children.2 _ h1 _ (mem_children_iff.2 (.inr (.inr ⟨_, _, _, rfl, h2, h3⟩))))

theorem SchemaBuilt.rep {s : UncheckedDataSchema DS AS OS} (h : SchemaBuilt s) : SchemaRep s := by
  intro x hx
  cases h.within hx with
  | conv hk =>
    have hf := hk.facts
    exact ⟨hf.info.1, hf.info.2, fun o m h1 h2 => toSubtype_sorted h1 h2⟩
  | default o => exact ⟨langRep_none, langRep_none, fun _ _ h => by cases h⟩

theorem PartialBuilt.children {d : PartialDataSchema DS AS OS} (h : PartialBuilt d) :
    (∀ l, d.oneOf = some l → ∀ c ∈ l, SchemaBuilt c) ∧
    (∀ st, d.subtype = some st → ∀ c ∈ st.children, SchemaBuilt c) ∧
    (∀ o m, d.subtype = some (.object o) → o.properties = some m → HMap.Sorted m) := by
  cases h with
  | conv hk =>
    have hf := hk.facts
    refine ⟨?_, ?_, fun o m h1 h2 => toSubtype_sorted h1 h2⟩
    · intro l hl c hc
      obtain ⟨_, rfl⟩ := keepOneOf_some hl
      exact hf.2 c (List.mem_append_left _ hc)
    · intro st hst c hc
      exact hf.2 c (List.mem_append_right _ (toSubtype_children hst hc))
  | default o =>
    exact ⟨(fun l hl => by cases hl), (fun st hst => by cases hst), (fun _ _ h => by cases h)⟩

end Wot
