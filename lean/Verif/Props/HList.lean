import Verif.Lemmas.HList
import Verif.Lemmas.CodecThing
/-
C34: heterogeneous lists. C35: lists of extensions in documents.
-/
namespace Wot
open HList

/-! ### C34 -/

/-- A list made from `Nil` by adding these elements, in this order. -/
inductive Added : {Ts : List Type} → List Dyn → HList Ts → Prop
  | nil : Added (Ts := []) [] ()
  | cons {T : Type} {Ts : List Type} {xs : HList Ts} {l : List Dyn} (x : T) :
      Added l xs → Added (l ++ [⟨T, x⟩]) (xs.cons x)

/-- Adding an element and taking off the head are inverse to each other. -/
theorem C34_split_head {T : Type} {Ts : List Type} :
    (∀ (xs : HList Ts) (x : T), (xs.cons x).splitHead = (x, xs)) ∧
    (∀ xs : HList (T :: Ts), xs.splitHead.2.cons xs.splitHead.1 = xs) :=
  ⟨fun _ _ => rfl, fun _ => rfl⟩

/-- The elements of a list are those added, the last one first. -/
theorem C34_elements {Ts : List Type} {l : List Dyn} {xs : HList Ts} (h : Added l xs) :
    xs.elems = l.reverse := by
  induction h with
  | nil => rfl
  | cons x _ ih => simp [HList.cons, elems, ih]

example : (((HList.empty.cons true).cons "a").cons (3 : Nat) : HList [Nat, String, Bool]).elems =
    [⟨Nat, 3⟩, ⟨String, "a"⟩, ⟨Bool, true⟩] :=
  C34_elements (.cons (3 : Nat) (.cons "a" (.cons true .nil)))

/-- Every list that is not empty can be split at its last element and reversed, and the types are the
expected ones. -/
theorem C34_non_empty (Ts : List Type) :
    (Ts ≠ [] ↔ ∃ init last rev, Nonempty (NonEmpty Ts init last rev)) ∧
    ∀ init last rev, NonEmpty Ts init last rev → Ts = init ++ [last] ∧ rev = Ts.reverse := by
  refine ⟨⟨fun h => ?_, ?_⟩, fun _ _ _ d => types_of d⟩
  · cases Ts with
    | nil => exact absurd rfl h
    | cons T Ts => exact exists_derivation Ts.length _ rfl
  · rintro ⟨init, last, rev, ⟨d⟩⟩ rfl
    have := (types_of d).1
    simp at this

/-- `split_last` gives the last element and the others in their order. -/
theorem C34_split_last {Ts init rev : List Type} {last : Type} (d : NonEmpty Ts init last rev)
    (xs : HList Ts) : xs.elems = (splitLast d xs).2.elems ++ [⟨last, (splitLast d xs).1⟩] :=
  (splitLast_elems d xs).symm

/-- It is the element that was added first. -/
theorem C34_split_last_added {Ts init rev : List Type} {last : Type} (d : NonEmpty Ts init last rev)
    {x : Dyn} {l : List Dyn} {xs : HList Ts} (h : Added (x :: l) xs) :
    ⟨last, (splitLast d xs).1⟩ = x ∧ (splitLast d xs).2.elems = l.reverse := by
  have h1 := C34_elements h
  rw [C34_split_last d xs, List.reverse_cons] at h1
  have := List.append_inj_right' h1 rfl
  exact ⟨List.cons.inj this |>.1, List.append_inj_left' h1 rfl⟩

/-- `reverse` reverses. -/
theorem C34_reverse {Ts init rev : List Type} {last : Type} (d : NonEmpty Ts init last rev)
    (xs : HList Ts) : (reverse d xs).elems = xs.elems.reverse := reverse_elems d xs

/-- Reversing twice gives the list back. -/
theorem C34_reverse_reverse {Ts Ts' init init' rev : List Type} {last last' : Type}
    (d : NonEmpty Ts init last rev) (d' : NonEmpty rev init' last' Ts') (xs : HList Ts) :
    ∃ e : Ts' = Ts, e ▸ reverse d' (reverse d xs) = xs := by
  have e : Ts' = Ts := by
    rw [(types_of d').2, (types_of d).2, List.reverse_reverse]
  subst e
  refine ⟨rfl, elems_injective _ _ ?_⟩
  rw [C34_reverse, C34_reverse, List.reverse_reverse]

example : ∃ (init rev : List Type) (last : Type), Nonempty (NonEmpty [Nat, String, Bool] init last rev) :=
  let ⟨i, l, r, h⟩ := (C34_non_empty [Nat, String, Bool]).1.1 (by simp)
  ⟨i, r, l, h⟩

/-- `to_ref` refers to the elements in their order. -/
theorem C34_to_ref {Ts : List Type} (xs : HList Ts) :
    (toRef xs).elems = xs.elems.map fun d => ⟨Ref d.type, ⟨d.val⟩⟩ := toRef_elems xs

/-- Writing through the reference at position `i` of `to_mut` replaces the element at position `i` and
nothing else; there is such a reference for each position. -/
theorem C34_to_mut {Ts : List Type} {i : Nat} {x : Dyn} (xs : HList Ts) :
    (∀ ys, Writes (toMut (.var (HList Ts))) i x xs ys → ys.elems = xs.elems.set i x) ∧
    (Ts[i]? = some x.type → ∃ ys, Writes (toMut (.var (HList Ts))) i x xs ys) := by
  refine ⟨fun ys h => ?_, writes_exists _ xs⟩
  obtain ⟨v, rfl, h2⟩ := toMut_writes h
  exact h2

/-- The same behind any other reference to the list. -/
theorem C34_to_mut_behind {O : Type} {Ts : List Type} {i : Nat} {x : Dyn} {r : Mut O (HList Ts)}
    (hr : r.Lawful) {o o' : O} (h : Writes (toMut r) i x o o') :
    (r.get o').elems = (r.get o).elems.set i x := by
  obtain ⟨v, rfl, h2⟩ := toMut_writes h
  rw [hr.get_set, h2]

example : Writes (toMut (.var (HList [Nat, Bool]))) 1 ⟨Bool, false⟩
    ((HList.empty.cons true).cons (3 : Nat)) ((HList.empty.cons false).cons (3 : Nat)) :=
  .tail (Ts := [Bool]) _ (.head (Ts := []) _ false _)

/-! ### C35 -/

/-- A list of extensions is written as the members of its elements, one after the other, and it can be
written just when all elements can. -/
theorem C35_members {Ts : List Type} (cs : CodecList Ts) (xs : HList Ts) (m : Members) :
    cs.codec.ser xs = some m ↔
      ∃ parts, Pointwise (fun w p => w = some p) (cs.written xs) parts ∧ m = parts.flatten := by
  rw [CodecList.codec_ser, Option.map_eq_some_iff]
  constructor
  · rintro ⟨l, h, rfl⟩
    exact ⟨l, mapOpt_eq_some.1 h, rfl⟩
  · rintro ⟨l, h, rfl⟩
    exact ⟨l, mapOpt_eq_some.2 h, rfl⟩

/-- If no two extensions have a member name in common, a list of any length is read back when each
element is. -/
theorem C35_read_back {Ts : List Type} (cs : CodecList Ts) (hd : cs.Disjoint) {xs : HList Ts}
    (h : cs.AllRead xs) : cs.codec.Reads xs := cs.codec_reads hd h

/-- The empty list writes nothing and accepts everything. -/
theorem C35_empty : (CodecList.nil.codec.ser () = some []) ∧ ∀ es, CodecList.nil.codec.de es = some () :=
  ⟨rfl, fun _ => rfl⟩

/-- A one-member extension, to have an example. -/
def oneMember (k : String) : ExtCodec String where
  keys := [k]
  ser s := some [(k, .str s)]
  de es := required k deStr es
  takes := true

theorem oneMember_reads (k s : String) : (oneMember k).Reads s where
  own := by
    intro m h kv hkv
    cases h
    cases List.mem_singleton.1 hkv
    exact List.mem_singleton.2 rfl
  read := by
    intro m es h hc
    cases h
    have := hc k (List.mem_singleton.2 rfl)
    unfold Carries at this
    simp only [occ_cons, occ_nil, if_true, lastOf] at this
    obtain ⟨v, h1, h2⟩ := this
    cases h2.str
    simp [oneMember, required, h1, deStr]

example : (CodecList.cons (oneMember "a") (.cons (oneMember "b") .nil)).codec.Reads
    ((HList.empty.cons "y").cons "x") :=
  C35_read_back _ (by simp [CodecList.Disjoint, CodecList.names, oneMember, Apart])
    ⟨oneMember_reads _ _, oneMember_reads _ _, trivial⟩

/-- Two extensions that use the same name are not read back, even though each one is. -/
theorem C35_conflict :
    ∃ cs : CodecList [String, String], ∃ xs, cs.AllRead xs ∧ ∃ m, cs.codec.ser xs = some m ∧
      cs.codec.de m ≠ some xs :=
  ⟨.cons (oneMember "a") (.cons (oneMember "a") .nil), (HList.empty.cons "y").cons "x",
    ⟨oneMember_reads _ _, oneMember_reads _ _, trivial⟩, _, rfl,
    show (none : Option (HList [String, String])) ≠ _ from nofun⟩

variable {X : ExtTypes} {C : ExtCodecs X}

/-- Wherever extensions are allowed, their members end up at the end of the enclosing object. -/
theorem C35_flattened (env : SerdeEnv) (j : Json) :
    (∀ t : Thing X, serThing C env t = some j →
      ∃ m e, j = .obj m ∧ C.thing.ser t.other = some e ∧ e <:+ m) ∧
    (∀ f : Form X, serForm C f = some j →
      ∃ m e, j = .obj m ∧ C.form.ser f.other = some e ∧ e <:+ m) ∧
    (∀ r : ExpectedResponse X.response, serResponse C.response r = some j →
      ∃ m e, j = .obj m ∧ C.response.ser r.other = some e ∧ e <:+ m) ∧
    (∀ s : DS X, serDS C env.toEnv s = some j →
      ∃ m e, j = .obj m ∧ C.dataSchema.ser s.head.other = some e ∧ e <:+ m) ∧
    (∀ p : PropertyAffordance X, serProperty C env.toEnv p = some j →
      ∃ m e, j = .obj m ∧ C.property.ser p.other = some e ∧ e <:+ m) ∧
    (∀ a : ActionAffordance X, serAction C env.toEnv a = some j →
      ∃ m e, j = .obj m ∧ C.action.ser a.other = some e ∧ e <:+ m) ∧
    (∀ a : EventAffordance X, serEvent C env.toEnv a = some j →
      ∃ m e, j = .obj m ∧ C.event.ser a.other = some e ∧ e <:+ m) := by
  refine ⟨?_, ?_, ?_, ?_, ?_, ?_, ?_⟩
  · intro t h
    simp only [serThing, bind, pure, Option.bind_eq_some_iff] at h
    obtain ⟨_, _, _, _, _, _, _, _, _, _, _, _, _, _, _, _, _, _, e, he, hj⟩ := h
    cases hj
    exact ⟨_, e, rfl, he, List.suffix_append _ _⟩
  · intro t h
    simp only [serForm, bind, pure, Option.bind_eq_some_iff] at h
    obtain ⟨_, _, e, he, hj⟩ := h
    cases hj
    exact ⟨_, e, rfl, he, List.suffix_append _ _⟩
  · intro r h
    obtain ⟨e, he, hj⟩ := Option.map_eq_some_iff.1 h
    cases hj
    exact ⟨_, e, rfl, he, List.suffix_cons _ _⟩
  · intro s h
    rw [serDS, serSchema_eq] at h
    obtain ⟨m, hm, rfl⟩ := Option.map_eq_some_iff.1 h
    simp only [serSchemaMembers, serSchemaStep, bind, pure, Option.bind_eq_some_iff] at hm
    obtain ⟨_, _, _, _, e, he, hj⟩ := hm
    cases hj
    exact ⟨_, e, rfl, he, List.suffix_append _ _⟩
  · intro t h
    simp only [serProperty, bind, pure, Option.bind_eq_some_iff] at h
    obtain ⟨_, _, _, _, e, he, hj⟩ := h
    cases hj
    exact ⟨_, e, rfl, he, List.suffix_append _ _⟩
  · intro t h
    simp only [serAction, bind, pure, Option.bind_eq_some_iff] at h
    obtain ⟨_, _, _, _, _, _, e, he, hj⟩ := h
    cases hj
    exact ⟨_, e, rfl, he, List.suffix_append _ _⟩
  · intro t h
    simp only [serEvent, bind, pure, Option.bind_eq_some_iff] at h
    obtain ⟨_, _, _, _, _, _, _, _, _, _, e, he, hj⟩ := h
    cases hj
    exact ⟨_, e, rfl, he, List.suffix_append _ _⟩

end Wot
