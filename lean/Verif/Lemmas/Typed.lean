import Verif.Lemmas.Grammar
import Verif.Lemmas.Defaults
import Verif.Lemmas.Round
import Verif.Spec.Typed
import Verif.Spec.Reread
/-
What the members of a data schema that depend on its type say.
-/
namespace Wot

variable {α : Type} {k : String} {es : Members} {de : Json → Option α}

/-! ### Values -/

theorem u32_iff {v : Json} {n : U32} : deU32 v = some n ↔ Doc.IsU32 v n := by
  unfold deU32 Doc.IsU32
  split
  · rename_i m
    split
    · rename_i h
      simp only [Option.some.injEq, Json.num.injEq, JNum.pos.injEq]
      exact ⟨fun e => e ▸ rfl, fun e => Fin.ext e⟩
    · rename_i h
      simp only [reduceCtorEq, Json.num.injEq, JNum.pos.injEq, false_iff]
      intro e; exact h (e ▸ n.isLt)
  · rename_i h
    exact ⟨nofun, fun e => absurd e (h _)⟩

theorem nonZero_iff {v : Json} {n : NonZeroU64} : deNonZeroU64 v = some n ↔ Doc.IsNonZero v n := by
  unfold deNonZeroU64 Doc.IsNonZero NonZeroU64.ofNat?
  split
  · rename_i m
    split
    · rename_i h
      simp only [Json.num.injEq, JNum.pos.injEq]
      exact ⟨fun e => Option.some.inj e ▸ rfl, fun e => congrArg some (Subtype.ext e)⟩
    · rename_i h
      simp only [reduceCtorEq, Json.num.injEq, JNum.pos.injEq, false_iff]
      intro e; exact h (e ▸ n.2)
  · rename_i h
    exact ⟨nofun, fun e => absurd e (h _)⟩

theorem ofInt?_iff {z : Int} {n : I64} : I64.ofInt? z = some n ↔ z = n.val := by
  unfold I64.ofInt?
  split
  · exact ⟨fun e => Option.some.inj e ▸ rfl, fun e => congrArg some (Subtype.ext e)⟩
  · rename_i h
    exact ⟨nofun, fun e => absurd (e ▸ n.2) h⟩

theorem i64_iff {v : Json} {n : I64} : deI64 v = some n ↔ Doc.IsI64 v n := by
  unfold deI64 Doc.IsI64 Doc.IsInteger
  split
  · rw [ofInt?_iff]; simp [eq_comm]
  · rw [ofInt?_iff]; simp [eq_comm]
  · rename_i h1 h2
    refine ⟨nofun, ?_⟩
    rintro (⟨m, rfl, _⟩ | ⟨m, rfl, _⟩)
    · exact absurd rfl (h1 _)
    · exact absurd rfl (h2 _)

theorem float_iff {v : Json} (hv : v.NumbersInRange) {x : F64} : deF64 v = some x ↔ Doc.IsFloat v x := by
  have key : ∀ z : Int, -2^63 ≤ z → z < 2^64 →
      (some (F64.ofInt z) = some x ↔ x.Nearest z ∧ x.neg = decide (z < 0)) := by
    intro z h1 h2
    rw [Option.some.injEq]
    constructor
    · rintro rfl; exact ⟨ofInt_nearest h1 h2, (ofInt_mag h1 h2).2⟩
    · rintro ⟨h, hn⟩
      exact (ofInt_nearest h1 h2).unique h (ofInt_mag h1 h2).2 hn
  unfold deF64 Doc.IsFloat Doc.IsInteger
  split
  · simp
  · rename_i n
    have hr := hv _ .here
    simp only [JNum.InRange] at hr
    rw [key n (by omega) (by omega)]
    simp
  · rename_i n
    have hr := hv _ .here
    simp only [JNum.InRange] at hr
    rw [key _ (by omega) (by omega)]
    simp
  · rename_i h1 h2 h3
    refine ⟨nofun, ?_⟩
    rintro (rfl | ⟨z, ⟨m, rfl, _⟩ | ⟨m, rfl, _⟩, _⟩)
    · exact absurd rfl (h1 _)
    · exact absurd rfl (h2 _)
    · exact absurd rfl (h3 _)

theorem str_iff {v : Json} {s : String} : deStr v = some s ↔ Doc.IsString v s := by
  unfold deStr Doc.IsString
  split
  · simp
  · rename_i h
    exact ⟨nofun, fun e => absurd e (h _)⟩

theorem strs_iff {v : Json} {l : List String} : deVec deStr v = some l ↔ Doc.IsStrings v l := by
  unfold Doc.IsStrings
  cases v with
  | arr js =>
    simp only [deVec, mapOpt_eq_some, Json.arr.injEq]
    induction js generalizing l with
    | nil => cases l <;> simp
    | cons j js ih =>
      cases l with
      | nil => simp
      | cons s l => simp only [Pointwise.cons_iff, ih, List.map_cons, List.cons.injEq]; rw [str_iff]; rfl
  | _ => simp [deVec]

/-! ### Members -/

theorem says_of {Is : Json → α → Prop} {o : Option α} (h : optional k de es = some o)
    (hi : ∀ v, (k, v) ∈ es → ∀ x, de v = some x ↔ Is v x) (hn : de .null = none) : Doc.Says k es Is o := by
  intro x
  rcases defaulted_eq_some h with ⟨ha, rfl⟩ | ⟨v, hv, e⟩
  · refine ⟨nofun, ?_⟩
    rintro ⟨v, hv, _⟩
    exact absurd (List.mem_map.2 ⟨_, hv, rfl⟩) ha
  · have hm : ∀ w, (k, w) ∈ es ↔ w = v := by
      intro w; rw [← mem_occ, hv, List.mem_singleton]
    have hvm := (hm v).2 rfl
    have : o = some x ↔ de v = some x := by
      cases v with
      | null => cases e; simp [hn]
      | _ =>
        obtain ⟨y, hy, e⟩ := Option.map_eq_some_iff.1 e
        rw [← e, hy]
    rw [this, hi v hvm]
    exact ⟨fun h => ⟨v, hvm, h⟩, fun ⟨w, hw, h⟩ => (hm w).1 hw ▸ h⟩

theorem pointwise_snoc {α β : Type} {R : α → β → Prop} {l : List α} {m : List β} (h : Pointwise R l m) {a : α}
    {b : β} (hab : R a b) : Pointwise R (l ++ [a]) (m ++ [b]) := by
  induction h with
  | nil => exact .cons hab .nil
  | cons h _ ih => exact .cons h ih

theorem pointwise_reverse {α β : Type} {R : α → β → Prop} {l : List α} {m : List β} (h : Pointwise R l m) :
    Pointwise R l.reverse m.reverse := by
  induction h with
  | nil => exact .nil
  | cons h _ ih => rw [List.reverse_cons, List.reverse_cons]; exact pointwise_snoc ih h

theorem pointwise_find {α β : Type} {f : α → Option β} {l : List (String × α)} {m : List (String × β)}
    (h : Pointwise (fun a b => a.1 = b.1 ∧ f a.2 = some b.2) l m) (k : String) (b : β) :
    (m.find? (·.1 == k)).map (·.2) = some b ↔ ∃ a, (l.find? (·.1 == k)).map (·.2) = some a ∧ f a = some b := by
  induction h with
  | nil => simp
  | cons h _ ih =>
    rename_i x y _ _ _
    simp only [List.find?_cons, ← h.1]
    by_cases hk : (x.1 == k) = true
    · simp [hk, h.2]
    · simp only [hk, ih]

theorem map_of {o : Option (HMap α)} (h : optional k (deMap de) es = some o) : Doc.SaysMap k es de o := by
  refine ⟨optional_isNone h, ?_⟩
  rintro m rfl
  rcases defaulted_eq_some h with ⟨_, e⟩ | ⟨v, hv, e⟩
  · cases e
  · refine ⟨v, mem_occ.1 (hv ▸ List.mem_singleton.2 rfl), ?_⟩
    cases v with
    | obj ps =>
      obtain ⟨y, hy, e⟩ := Option.map_eq_some_iff.1 e
      cases e
      obtain ⟨l, hl, rfl⟩ := Option.map_eq_some_iff.1 hy
      refine ⟨ps, rfl, fun k s => ?_⟩
      have hp := pointwise_reverse (mapOptVals_eq_some.1 hl)
      rw [← HMap.get?_eq_some_iff (HMap.collect_sorted l).nodup, HMap.collect_get?, pointwise_find hp,
        find_reverse_occ]
    | _ => cases e

theorem find_first {k k' : String} {v : Json} :
    (es.find? fun kv => [k, k'].contains kv.1) = some (k, v) ↔ Doc.First k k' es v := by
  rw [List.find?_eq_some_iff_append]
  unfold Doc.First
  simp

theorem find_first' {k k' : String} {v : Json} :
    (es.find? fun kv => [k, k'].contains kv.1) = some (k', v) ↔ Doc.First k' k es v := by
  rw [List.find?_eq_some_iff_append]
  unfold Doc.First
  simp [and_comm]

theorem maximum_of {T : Type} {de : Json → Option T} {Is : Json → T → Prop} {es : Members}
    (hi : ∀ kv ∈ es, ∀ x, de kv.2 = some x ↔ Is kv.2 x) : Doc.SaysMaximum es Is (deMaximum de es) := by
  intro x
  have key : ∀ b, deMaximum de es = some b ↔
      (∃ v y, Doc.First "maximum" "exclusiveMaximum" es v ∧ Is v y ∧ b = .inclusive y) ∨
      ∃ v y, Doc.First "exclusiveMaximum" "maximum" es v ∧ Is v y ∧ b = .exclusive y := by
    intro b
    simp only [deMaximum, deFlatEnum, Option.bind_eq_some_iff, List.map_cons, List.map_nil]
    constructor
    · rintro ⟨⟨k, v⟩, hf, f, hn, hd⟩
      obtain ⟨y, hy, rfl⟩ := Option.map_eq_some_iff.1 hd
      have hm := List.mem_of_find?_eq_some hf
      have hk := List.find?_some hf
      simp only [List.contains_eq_mem, List.mem_cons, List.not_mem_nil, or_false, decide_eq_true_eq] at hk
      rcases hk with rfl | rfl
      · cases hn
        exact .inl ⟨v, y, find_first.1 hf, (hi _ hm y).1 hy, rfl⟩
      · cases hn
        exact .inr ⟨v, y, find_first'.1 hf, (hi _ hm y).1 hy, rfl⟩
    · rintro (⟨v, y, hf, hy, rfl⟩ | ⟨v, y, hf, hy, rfl⟩)
      · have hf := find_first.2 hf
        exact ⟨_, hf, _, rfl, by rw [(hi _ (List.mem_of_find?_eq_some hf) y).2 hy]; rfl⟩
      · have hf := find_first'.2 hf
        exact ⟨_, hf, _, rfl, by rw [(hi _ (List.mem_of_find?_eq_some hf) y).2 hy]; rfl⟩
  rw [key, key]
  simp

theorem minimum_of {T : Type} {de : Json → Option T} {Is : Json → T → Prop} {es : Members}
    (hi : ∀ kv ∈ es, ∀ x, de kv.2 = some x ↔ Is kv.2 x) : Doc.SaysMinimum es Is (deMinimum de es) := by
  intro x
  have key : ∀ b, deMinimum de es = some b ↔
      (∃ v y, Doc.First "minimum" "exclusiveMinimum" es v ∧ Is v y ∧ b = .inclusive y) ∨
      ∃ v y, Doc.First "exclusiveMinimum" "minimum" es v ∧ Is v y ∧ b = .exclusive y := by
    intro b
    simp only [deMinimum, deFlatEnum, Option.bind_eq_some_iff, List.map_cons, List.map_nil]
    constructor
    · rintro ⟨⟨k, v⟩, hf, f, hn, hd⟩
      obtain ⟨y, hy, rfl⟩ := Option.map_eq_some_iff.1 hd
      have hm := List.mem_of_find?_eq_some hf
      have hk := List.find?_some hf
      simp only [List.contains_eq_mem, List.mem_cons, List.not_mem_nil, or_false, decide_eq_true_eq] at hk
      rcases hk with rfl | rfl
      · cases hn
        exact .inl ⟨v, y, find_first.1 hf, (hi _ hm y).1 hy, rfl⟩
      · cases hn
        exact .inr ⟨v, y, find_first'.1 hf, (hi _ hm y).1 hy, rfl⟩
    · rintro (⟨v, y, hf, hy, rfl⟩ | ⟨v, y, hf, hy, rfl⟩)
      · have hf := find_first.2 hf
        exact ⟨_, hf, _, rfl, by rw [(hi _ (List.mem_of_find?_eq_some hf) y).2 hy]; rfl⟩
      · have hf := find_first'.2 hf
        exact ⟨_, hf, _, rfl, by rw [(hi _ (List.mem_of_find?_eq_some hf) y).2 hy]; rfl⟩
  rw [key, key]
  simp

/-- Other members do not matter. -/
theorem firstOf_rest {K : List String} {k k' : String} {v : Json} (h : k ∉ K) (h' : k' ∉ K) :
    Doc.First k k' (rest K es) v ↔ Doc.First k k' es v := by
  rw [← find_first, ← find_first, rest, List.find?_filter]
  have : (fun kv : String × Json => (!K.contains kv.1) && [k, k'].contains kv.1) = fun kv => [k, k'].contains kv.1 := by
    funext kv
    simp only [List.contains_eq_mem, List.mem_cons, List.not_mem_nil, or_false]
    by_cases e : kv.1 = k
    · simp [e, h]
    · by_cases e' : kv.1 = k'
      · simp [e', h']
      · simp [e, e']
  have e : (fun a : String × Json => decide ((!K.contains a.1) = true ∧ [k, k'].contains a.1 = true)) =
      fun kv => [k, k'].contains kv.1 := by
    rw [← this]; funext kv; simp
  rw [e]

theorem says_rest {α : Type} {Is : Json → α → Prop} {o : Option α} {K : List String} {k : String} (h : k ∉ K) :
    Doc.Says k (rest K es) Is o ↔ Doc.Says k es Is o := by
  unfold Doc.Says
  simp only [mem_rest_iff (kv := (k, _)) h]

theorem saysMap_rest {α : Type} {o : Option (List (String × α))} {de : Json → Option α} {K : List String} {k : String}
    (h : k ∉ K) : Doc.SaysMap k (rest K es) de o ↔ Doc.SaysMap k es de o := by
  unfold Doc.SaysMap LeftOut
  simp only [mem_rest_iff (kv := (k, _)) h]

theorem atMostOne_rest {P : Json → Prop} {K : List String} {k : String} (h : k ∉ K) :
    AtMostOne k (rest K es) P ↔ AtMostOne k es P := by
  unfold AtMostOne; rw [occ_rest_of h]

/-! ### Types -/

theorem Acc.u32 : Acc deU32 fun v => ∃ n, v = .num (.pos n) ∧ n < 2^32 := by
  intro v
  simp only [u32_iff, Doc.IsU32]
  exact ⟨fun ⟨n, h⟩ => ⟨_, h, n.isLt⟩, fun ⟨n, h, hn⟩ => ⟨⟨n, hn⟩, h⟩⟩

theorem Acc.nonZero : Acc deNonZeroU64 fun v => ∃ n, v = .num (.pos n) ∧ 0 < n ∧ n < 2^64 := by
  intro v
  simp only [nonZero_iff, Doc.IsNonZero]
  exact ⟨fun ⟨n, h⟩ => ⟨_, h, n.2⟩, fun ⟨n, h, hn⟩ => ⟨⟨n, hn⟩, h⟩⟩

theorem Acc.float : Acc deF64 fun v => ∃ n, v = .num n := by
  intro v
  cases v with
  | num n => cases n <;> simp [deF64]
  | _ => simp [deF64]

theorem Acc.items {P : Json → Prop} (h : Acc de P) : Acc (deItems de) (Doc.OneOrMany P) := by
  intro v
  rw [Doc.OneOrMany, ← h v, ← h.vec v]
  unfold deItems
  cases de v with
  | some a => simp
  | none =>
    simp only [exists_map]
    simp

/-- The name of a type. -/
def SchemaTag.text : SchemaTag → String
  | .array => "array"
  | .boolean => "boolean"
  | .number => "number"
  | .integer => "integer"
  | .object => "object"
  | .string => "string"
  | .null => "null"

theorem SchemaTag.text_inj {a b : SchemaTag} (h : a.text = b.text) : a = b := by
  revert h
  cases a <;> cases b <;> first | (intro; rfl) | (intro h; exact absurd h (by decide))

theorem nameOf?_schema {s : String} {tag : SchemaTag} : nameOf? schemaTable s = some tag ↔ s = tag.text := by
  constructor
  · intro h
    have hs : s ∈ schemaTable.map (·.1) := nameOf?_some.1 ⟨_, h⟩
    simp only [schemaTable, List.map_cons, List.map_nil, List.mem_cons, List.not_mem_nil, or_false] at hs
    rcases hs with rfl | rfl | rfl | rfl | rfl | rfl | rfl <;> (cases h; rfl)
  · rintro rfl
    cases tag <;> rfl

theorem schemaTable_get {n : Nat} {tag : SchemaTag} :
    (schemaTable[n]?).map (·.2) = some tag ↔ Doc.types[n]? = some tag.text := by
  have : Doc.types = schemaTable.map (·.2.text) := rfl
  rw [this, List.getElem?_map]
  cases schemaTable[n]? with
  | none => simp
  | some e =>
    simp only [Option.map_some, Option.some.injEq]
    exact ⟨fun h => h ▸ rfl, SchemaTag.text_inj⟩

theorem deTag_schema {v : Json} {tag : SchemaTag} : deTag schemaTable v = some tag ↔
    v = .str tag.text ∨ ∃ n, v = .num (.pos n) ∧ Doc.types[n]? = some tag.text := by
  unfold deTag
  split
  · rename_i s
    rw [nameOf?_schema]
    simp
  · rename_i n
    rw [schemaTable_get]
    simp
  · rename_i h1 h2
    refine ⟨nofun, ?_⟩
    rintro (rfl | ⟨n, rfl, _⟩)
    · exact absurd rfl (h1 _)
    · exact absurd rfl (h2 _)

section
variable {DSx AS OS : Type} {C : ExtCodec DSx} {CA : ExtCodec AS} {CO : ExtCodec OS} {env : SerdeEnv}
  {K : List String}

/-- The reader of the members that depend on the type. -/
def readType {S : Type} (CA : ExtCodec AS) (CO : ExtCodec OS) (sub : Json → Option S) (es : Members) :
    SchemaTag → Option (SubtypeF AS OS S)
  | .array => (deArray CA sub es).map .array
  | .boolean => pure .boolean
  | .number => (deNumber es).map .number
  | .integer => (deInteger es).map .integer
  | .object => (deObject CO sub es).map .object
  | .string => (deString es).map .string
  | .null => pure .null

theorem deSchemaSubtype_eq {S : Type} {sub : Json → Option S} : deSchemaSubtype CA CO sub es =
    (required "type" (deTag schemaTable) es).bind (readType CA CO sub (rest ["type"] es)) := by
  simp only [deSchemaSubtype, bind]
  rfl

theorem readType_name {S : Type} {sub : Json → Option S} {tag : SchemaTag} {st : SubtypeF AS OS S}
    (h : readType CA CO sub es tag = some st) : st.typeName = tag.text := by
  cases tag <;> simp only [readType, pure, Option.some.injEq, Option.map_eq_some_iff] at h
  all_goals first | (obtain ⟨_, _, rfl⟩ := h; rfl) | (subst h; rfl)

/-- The members that depend on the type, for all types. -/
theorem names_free (hK : ∀ k ∈ Names.schemaType, k ∉ K) {k : String} (hk : k ∈ Names.schemaType) (ht : k ≠ "type") :
    k ∉ ["type"] ∧ k ∉ schemaKeys ∧ k ∉ K := by
  refine ⟨by simpa using ht, ?_, hK k hk⟩
  revert k
  decide

theorem arrayRest_eq : rest ["items", "min_items", "max_items"] (rest ["type"] (rest schemaKeys (rest K es))) =
      es.filter fun kv => !(Doc.arrayNames K).contains kv.1 := by
  rw [rest_rest, rest_rest, rest_rest]
  exact rest_congr fun k => by simp only [Doc.arrayNames, List.mem_append, List.mem_cons, List.append_assoc,
      List.not_mem_nil, or_false]; rfl

theorem objectRest_eq : rest ["properties", "required"] (rest ["type"] (rest schemaKeys (rest K es))) =
      es.filter fun kv => !(Doc.objectNames K).contains kv.1 := by
  rw [rest_rest, rest_rest, rest_rest]
  exact rest_congr fun k => by simp only [Doc.objectNames, List.mem_append, List.mem_cons, List.append_assoc,
      List.not_mem_nil, or_false]; rfl

theorem constraints_iff (hK : ∀ k ∈ Names.schemaType, k ∉ K) (tag : SchemaTag) :
    (∃ st, readType CA CO (deSchema C CA CO env) (rest ["type"] (rest schemaKeys (rest K es))) tag = some st) ↔
      Doc.Constraints env C CA CO K es tag.text := by
  have am : ∀ {k : String} {P : Json → Prop}, k ∈ Names.schemaType → k ≠ "type" →
      (AtMostOne k (rest ["type"] (rest schemaKeys (rest K es))) P ↔ AtMostOne k es P) := by
    intro k P hk ht
    obtain ⟨h1, h2, h3⟩ := names_free hK hk ht
    rw [atMostOne_rest h1, atMostOne_rest h2, atMostOne_rest h3]
  generalize ht : tag.text = T
  constructor
  · intro h
    subst ht
    cases tag with
    | boolean => exact .boolean
    | null => exact .null
    | number =>
      simp only [readType, exists_map, deNumber, bind, pure, exists_bind, Option.some.injEq, exists_eq', and_true,
        Acc.float.optional] at h
      exact .number ((am (by decide) (by decide)).1 h)
    | integer =>
      simp only [readType, exists_map, deInteger, bind, pure, exists_bind, Option.some.injEq, exists_eq', and_true,
        Acc.nonZero.optional] at h
      exact .integer ((am (by decide) (by decide)).1 h)
    | string =>
      simp only [readType, exists_map, deString, bind, pure, exists_bind, exists_and_right, Option.some.injEq,
        exists_eq', and_true, Acc.u32.optional, Acc.str.optional] at h
      obtain ⟨h1, h2, h3, h4, h5⟩ := h
      exact .string ((am (by decide) (by decide)).1 h1) ((am (by decide) (by decide)).1 h2)
        ((am (by decide) (by decide)).1 h3) ((am (by decide) (by decide)).1 h4) ((am (by decide) (by decide)).1 h5)
    | array =>
      simp only [readType, exists_map, deArray, bind, pure, exists_bind, exists_and_right, Option.some.injEq,
        exists_eq', and_true, Acc.u32.optional, Acc.schema.items.optional, arrayRest_eq] at h
      obtain ⟨h1, h2, h3, h4⟩ := h
      exact .array ((am (by decide) (by decide)).1 h1) ((am (by decide) (by decide)).1 h2)
        ((am (by decide) (by decide)).1 h3) h4
    | object =>
      simp only [readType, exists_map, deObject, bind, pure, exists_bind, exists_and_right, Option.some.injEq,
        exists_eq', and_true, Acc.str.vec.optional, Acc.schema.map.optional, objectRest_eq] at h
      obtain ⟨h1, h2, h3⟩ := h
      exact .object ((am (by decide) (by decide)).1 h1) ((am (by decide) (by decide)).1 h2) h3
  · intro h
    cases h <;> cases tag <;> (first | (exfalso; revert ht; decide) | skip)
    · exact ⟨_, rfl⟩
    · exact ⟨_, rfl⟩
    · simp only [readType, exists_map, deNumber, bind, pure, exists_bind, Option.some.injEq, exists_eq', and_true,
        Acc.float.optional]
      exact (am (by decide) (by decide)).2 ‹_›
    · simp only [readType, exists_map, deInteger, bind, pure, exists_bind, Option.some.injEq, exists_eq', and_true,
        Acc.nonZero.optional]
      exact (am (by decide) (by decide)).2 ‹_›
    · simp only [readType, exists_map, deString, bind, pure, exists_bind, exists_and_right, Option.some.injEq,
        exists_eq', and_true, Acc.u32.optional, Acc.str.optional]
      exact ⟨(am (by decide) (by decide)).2 ‹_›, (am (by decide) (by decide)).2 ‹_›,
        (am (by decide) (by decide)).2 ‹_›, (am (by decide) (by decide)).2 ‹_›, (am (by decide) (by decide)).2 ‹_›⟩
    · simp only [readType, exists_map, deArray, bind, pure, exists_bind, exists_and_right, Option.some.injEq,
        exists_eq', and_true, Acc.u32.optional, Acc.schema.items.optional, arrayRest_eq]
      exact ⟨(am (by decide) (by decide)).2 ‹_›, (am (by decide) (by decide)).2 ‹_›,
        (am (by decide) (by decide)).2 ‹_›, ‹_›⟩
    · simp only [readType, exists_map, deObject, bind, pure, exists_bind, exists_and_right, Option.some.injEq,
        exists_eq', and_true, Acc.str.vec.optional, Acc.schema.map.optional, objectRest_eq]
      exact ⟨(am (by decide) (by decide)).2 ‹_›, (am (by decide) (by decide)).2 ‹_›, ‹_›⟩

theorem typeIs_iff (hK : ∀ k ∈ Names.schemaType, k ∉ K) (tag : SchemaTag) :
    required "type" (deTag schemaTable) (rest schemaKeys (rest K es)) = some tag ↔ Doc.TypeIs tag.text es := by
  unfold required Doc.TypeIs HasOne
  rw [occ_rest_of (by decide), occ_rest_of (hK _ (by decide))]
  split
  · rename_i v hv
    rw [hv, deTag_schema]; simp
  · rename_i h
    refine ⟨nofun, ?_⟩
    rintro ⟨v, hv, _⟩
    exact absurd hv (h v)

theorem subtype_name (hK : ∀ k ∈ Names.schemaType, k ∉ K) {T : String} :
    (deSchemaSubtype CA CO (deSchema C CA CO env) (rest schemaKeys (rest K es))).map SubtypeF.typeName = some T ↔
      Doc.TypeIs T es ∧ Doc.Constraints env C CA CO K es T := by
  rw [deSchemaSubtype_eq]
  constructor
  · intro h
    obtain ⟨st, hst, rfl⟩ := Option.map_eq_some_iff.1 h
    obtain ⟨tag, htag, hst⟩ := Option.bind_eq_some_iff.1 hst
    rw [readType_name hst]
    exact ⟨(typeIs_iff hK tag).1 htag, (constraints_iff hK tag).1 ⟨_, hst⟩⟩
  · rintro ⟨h1, h2⟩
    obtain ⟨tag, rfl⟩ : ∃ tag : SchemaTag, T = tag.text := by
      cases h2 with
      | boolean => exact ⟨.boolean, rfl⟩
      | null => exact ⟨.null, rfl⟩
      | number => exact ⟨.number, rfl⟩
      | integer => exact ⟨.integer, rfl⟩
      | string => exact ⟨.string, rfl⟩
      | array => exact ⟨.array, rfl⟩
      | object => exact ⟨.object, rfl⟩
    obtain ⟨st, hst⟩ := (constraints_iff hK tag).2 h2
    rw [(typeIs_iff hK tag).2 h1, Option.bind_some, hst, Option.map_some, readType_name hst]

theorem items_iff {S : Type} {read : Json → Option S} (ho : ∀ v, (∀ es, v ≠ .obj es) → read v = none) {v : Json}
    {x : ElemOrVec S} : deItems read v = some x ↔ Doc.IsItems read v x := by
  unfold deItems
  cases e : read v with
  | some s =>
    have hv : ∃ es, v = .obj es := Classical.byContradiction fun h => by
      rw [ho v fun es e => h ⟨es, e⟩] at e; cases e
    obtain ⟨es, rfl⟩ := hv
    cases x <;> simp [Doc.IsItems, e]
  | none =>
    cases x with
    | elem s => simp [Doc.IsItems, e]
    | vec ss =>
      simp only [Doc.IsItems]
      cases v <;> simp [deVec, mapOpt_eq_some]

theorem number_mem (hd : (Json.obj es).NumbersInRange) {kv : String × Json} (h : kv ∈ es) : kv.2.NumbersInRange :=
  fun n hn => hd n (.member h hn)

theorem subtype_says (hK : ∀ k ∈ Names.schemaType, k ∉ K) (hd : (Json.obj es).NumbersInRange)
    {st : SubtypeF AS OS (DataSchema DSx AS OS)}
    (h : deSchemaSubtype CA CO (deSchema C CA CO env) (rest schemaKeys (rest K es)) = some st) :
    Doc.TypeSays (deSchema C CA CO env) CA CO K es st := by
  have free := @names_free K hK
  have hobj : ∀ v, (∀ es, v ≠ .obj es) → deSchema C CA CO env v = none := by
    intro v hv
    cases v <;> first | rfl | exact absurd rfl (hv _)
  have hm : ∀ K' : List String, ∀ kv ∈ rest K' (rest ["type"] (rest schemaKeys (rest K es))), kv ∈ es :=
    fun K' kv hkv => mem_rest_sub (mem_rest_sub (mem_rest_sub (mem_rest_sub hkv)))
  have hm' : ∀ kv ∈ rest ["type"] (rest schemaKeys (rest K es)), kv ∈ es :=
    fun kv hkv => mem_rest_sub (mem_rest_sub (mem_rest_sub hkv))
  have says : ∀ {α : Type} {de : Json → Option α} {Is : Json → α → Prop} {o : Option α} {k : String},
      optional k de (rest ["type"] (rest schemaKeys (rest K es))) = some o →
      (∀ v, (k, v) ∈ es → ∀ x, de v = some x ↔ Is v x) → de .null = none → k ∈ Names.schemaType → k ≠ "type" →
      Doc.Says k es Is o := by
    intro α de Is o k h hi hn hk ht
    obtain ⟨h1, h2, h3⟩ := free hk ht
    have := says_of h (fun v hv => hi v (hm' _ hv)) hn
    rwa [says_rest h1, says_rest h2, says_rest h3] at this
  have maxi : ∀ {α : Type} {de : Json → Option α} {Is : Json → α → Prop},
      (∀ kv ∈ es, ∀ x, de kv.2 = some x ↔ Is kv.2 x) →
      Doc.SaysMaximum es Is (deMaximum de (rest ["multipleOf"] (rest ["type"] (rest schemaKeys (rest K es))))) := by
    intro α de Is hi x
    obtain ⟨a1, a2, a3⟩ := free (k := "maximum") (by decide) (by decide)
    obtain ⟨b1, b2, b3⟩ := free (k := "exclusiveMaximum") (by decide) (by decide)
    have := maximum_of (es := rest ["multipleOf"] (rest ["type"] (rest schemaKeys (rest K es))))
      (fun kv hkv => hi kv (hm _ _ hkv)) x
    simpa only [firstOf_rest (K := ["multipleOf"]) (k := "maximum") (k' := "exclusiveMaximum") (by decide) (by decide),
      firstOf_rest (K := ["multipleOf"]) (k := "exclusiveMaximum") (k' := "maximum") (by decide) (by decide),
      firstOf_rest a1 b1, firstOf_rest b1 a1, firstOf_rest a2 b2, firstOf_rest b2 a2, firstOf_rest a3 b3, firstOf_rest b3 a3] using this
  have mini : ∀ {α : Type} {de : Json → Option α} {Is : Json → α → Prop},
      (∀ kv ∈ es, ∀ x, de kv.2 = some x ↔ Is kv.2 x) →
      Doc.SaysMinimum es Is (deMinimum de (rest ["multipleOf"] (rest ["type"] (rest schemaKeys (rest K es))))) := by
    intro α de Is hi x
    obtain ⟨a1, a2, a3⟩ := free (k := "minimum") (by decide) (by decide)
    obtain ⟨b1, b2, b3⟩ := free (k := "exclusiveMinimum") (by decide) (by decide)
    have := minimum_of (es := rest ["multipleOf"] (rest ["type"] (rest schemaKeys (rest K es))))
      (fun kv hkv => hi kv (hm _ _ hkv)) x
    simpa only [firstOf_rest (K := ["multipleOf"]) (k := "minimum") (k' := "exclusiveMinimum") (by decide) (by decide),
      firstOf_rest (K := ["multipleOf"]) (k := "exclusiveMinimum") (k' := "minimum") (by decide) (by decide),
      firstOf_rest a1 b1, firstOf_rest b1 a1, firstOf_rest a2 b2, firstOf_rest b2 a2, firstOf_rest a3 b3, firstOf_rest b3 a3] using this
  rw [deSchemaSubtype_eq] at h
  obtain ⟨tag, -, h⟩ := Option.bind_eq_some_iff.1 h
  cases tag with
  | boolean => cases h; exact .boolean
  | null => cases h; exact .null
  | number =>
    obtain ⟨x, hx, rfl⟩ := Option.map_eq_some_iff.1 h
    have hx := deNumber_iff.1 hx
    have hf : ∀ kv ∈ es, ∀ x, deF64 kv.2 = some x ↔ Doc.IsFloat kv.2 x :=
      fun kv hkv x => float_iff (number_mem hd hkv)
    exact .number (hx.maximum ▸ maxi hf) (hx.minimum ▸ mini hf)
      (says hx.multipleOf (fun v hv => hf _ hv) rfl (by decide) (by decide))
  | integer =>
    obtain ⟨x, hx, rfl⟩ := Option.map_eq_some_iff.1 h
    have hx := deInteger_iff.1 hx
    exact .integer (hx.maximum ▸ maxi fun _ _ _ => i64_iff) (hx.minimum ▸ mini fun _ _ _ => i64_iff)
      (says hx.multipleOf (fun _ _ _ => nonZero_iff) rfl (by decide) (by decide))
  | string =>
    obtain ⟨x, hx, rfl⟩ := Option.map_eq_some_iff.1 h
    have hx := deString_iff.1 hx
    exact .string (says hx.minLength (fun _ _ _ => u32_iff) rfl (by decide) (by decide))
      (says hx.maxLength (fun _ _ _ => u32_iff) rfl (by decide) (by decide))
      (says hx.pattern (fun _ _ _ => str_iff) rfl (by decide) (by decide))
      (says hx.contentEncoding (fun _ _ _ => str_iff) rfl (by decide) (by decide))
      (says hx.contentMediaType (fun _ _ _ => str_iff) rfl (by decide) (by decide))
  | array =>
    obtain ⟨x, hx, rfl⟩ := Option.map_eq_some_iff.1 h
    have hx := deArray_iff.1 hx
    exact .array (says hx.items (fun _ _ _ => items_iff hobj) rfl (by decide) (by decide))
      (says hx.minItems (fun _ _ _ => u32_iff) rfl (by decide) (by decide))
      (says hx.maxItems (fun _ _ _ => u32_iff) rfl (by decide) (by decide))
      (arrayRest_eq ▸ hx.other)
  | object =>
    obtain ⟨x, hx, rfl⟩ := Option.map_eq_some_iff.1 h
    have hx := deObject_iff.1 hx
    obtain ⟨h1, h2, h3⟩ := free (k := "properties") (by decide) (by decide)
    have hp := map_of hx.properties
    rw [saysMap_rest h1, saysMap_rest h2, saysMap_rest h3] at hp
    exact .object hp (says hx.required (fun _ _ _ => strs_iff) rfl (by decide) (by decide))
      (objectRest_eq ▸ hx.other)

end

end Wot
