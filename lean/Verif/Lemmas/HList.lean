import Verif.Spec.HList
import Verif.Lemmas.CodecSecurity
/-
Heterogeneous lists.
-/
namespace Wot
namespace HList

theorem elems_injective : {Ts : List Type} → (xs ys : HList Ts) → xs.elems = ys.elems → xs = ys
  | [], (), (), _ => rfl
  | T :: Ts, ⟨x, xs⟩, ⟨y, ys⟩, h => by
    simp only [elems, List.cons.injEq, Dyn.mk.injEq, heq_eq_eq, true_and] at h
    obtain ⟨rfl, h2⟩ := h
    cases elems_injective xs ys h2
    rfl

theorem elems_types : {Ts : List Type} → (xs : HList Ts) → xs.elems.map (·.type) = Ts
  | [], _ => rfl
  | T :: _, xs => by simp only [elems, List.map_cons, elems_types]

theorem splitLast_elems {Ts init rev : List Type} {last : Type} (d : NonEmpty Ts init last rev) :
    ∀ xs : HList Ts, elems (splitLast d xs).2 ++ [⟨last, (splitLast d xs).1⟩] = xs.elems := by
  induction d with
  | one T => intro xs; rfl
  | more d d' ih _ =>
    intro xs
    simp only [splitLast, elems, List.cons_append, ih (Cons.tail xs)]

theorem reverse_elems {Ts init rev : List Type} {last : Type} (d : NonEmpty Ts init last rev) :
    ∀ xs : HList Ts, (reverse d xs).elems = xs.elems.reverse := by
  induction d with
  | one T => intro xs; rfl
  | @more T last last' Us init init' rev rev' d d' _ ih2 =>
    intro xs
    rw [← splitLast_elems (.more d d') xs, List.reverse_append, ← ih2]
    rfl

theorem types_of {Ts init rev : List Type} {last : Type} (d : NonEmpty Ts init last rev) :
    Ts = init ++ [last] ∧ rev = Ts.reverse := by
  induction d with
  | one T => exact ⟨rfl, rfl⟩
  | more d d' ih1 ih2 =>
    obtain ⟨h1, _⟩ := ih1
    obtain ⟨_, h2⟩ := ih2
    subst h1 h2
    exact ⟨rfl, by simp⟩

theorem exists_derivation (n : Nat) : ∀ Ts : List Type, Ts.length = n + 1 →
    ∃ init last rev, Nonempty (NonEmpty Ts init last rev) := by
  induction n with
  | zero =>
    intro Ts h
    obtain ⟨T, rfl⟩ := List.length_eq_one_iff.1 h
    exact ⟨_, _, _, ⟨.one T⟩⟩
  | succ n ih =>
    intro Ts h
    cases Ts with
    | nil => cases h
    | cons T Us =>
      obtain ⟨init, last, rev, ⟨d⟩⟩ := ih Us (by simpa using h)
      have hl : (T :: init).length = n + 1 := by
        have := (types_of d).1
        subst this
        simpa using h
      obtain ⟨init', last', rev', ⟨d'⟩⟩ := ih (T :: init) hl
      exact ⟨_, _, _, ⟨.more d d'⟩⟩

theorem toRef_elems : {Ts : List Type} → (xs : HList Ts) →
    (toRef xs).elems = xs.elems.map fun d => ⟨Ref d.type, ⟨d.val⟩⟩
  | [], _ => rfl
  | T :: _, xs => congrArg (List.cons (⟨Ref T, ⟨Cons.head xs⟩⟩ : Dyn)) (toRef_elems (Cons.tail xs))

theorem Mut.Lawful.head {O T U : Type} {r : Mut O (Cons T U)} (h : r.Lawful) : r.head.Lawful where
  get_set o x := by simp [Mut.head, h.get_set]
  set_get o := by simp only [Mut.head]; exact h.set_get o
  set_set o x y := by simp [Mut.head, h.get_set, h.set_set]

theorem Mut.Lawful.tail {O T U : Type} {r : Mut O (Cons T U)} (h : r.Lawful) : r.tail.Lawful where
  get_set o x := by simp [Mut.tail, h.get_set]
  set_get o := by simp only [Mut.tail]; exact h.set_get o
  set_set o x y := by simp [Mut.tail, h.get_set, h.set_set]

theorem toMut_writes {O : Type} : {Ts : List Type} → {r : Mut O (HList Ts)} → {i : Nat} →
    {x : Dyn} → {o o' : O} → Writes (toMut r) i x o o' →
    ∃ v, o' = r.set o v ∧ v.elems = (r.get o).elems.set i x
  | [], r, i, x, o, o', h => nomatch h
  | T :: Ts, r, _, _, o, _, .head _ x _ => ⟨_, rfl, rfl⟩
  | T :: Ts, r, _, x, o, o', .tail (i := i) _ h => by
    obtain ⟨v, h1, h2⟩ := toMut_writes (r := Mut.tail (T := T) (U := HList Ts) r) h
    refine ⟨_, h1, ?_⟩
    exact congrArg (List.cons _) h2

theorem writes_exists {O : Type} : {Ts : List Type} → (rs : HList (Ts.map (Mut O))) → {i : Nat} →
    {x : Dyn} → (o : O) → Ts[i]? = some x.type → ∃ o', Writes rs i x o o'
  | [], _, _, _, _, h => by simp at h
  | T :: Ts, rs, 0, ⟨T', x⟩, o, h => by
    simp only [List.getElem?_cons_zero, Option.some.injEq] at h
    subst h
    exact ⟨_, .head rs x o⟩
  | T :: Ts, rs, i + 1, x, o, h => by
    obtain ⟨o', h'⟩ := writes_exists (Cons.tail rs) o (i := i) (x := x) (by simpa using h)
    exact ⟨o', .tail rs h'⟩

end HList

/-! ### Codecs -/

theorem ExtCodec.nil_reads : ExtCodec.nil.Reads () where
  own := by intro m h; cases h; nofun
  read := fun _ _ _ _ => rfl

theorem ExtCodec.cons_reads {A B : Type} {h : ExtCodec A} {t : ExtCodec B} {a : A} {b : B}
    (ha : h.Reads a) (hb : t.Reads b) (hd : Apart h.keys t.keys) : (ExtCodec.cons h t).Reads ⟨a, b⟩ where
  own := by
    intro m hm kv hkv
    simp only [ExtCodec.cons, bind, pure, Option.bind_eq_some_iff] at hm
    obtain ⟨ma, h1, mb, h2, e⟩ := hm
    cases e
    rcases List.mem_append.1 hkv with h | h
    · exact List.mem_append_left _ (ha.own _ h1 kv h)
    · exact List.mem_append_right _ (hb.own _ h2 kv h)
  read := by
    intro m es hm hc
    simp only [ExtCodec.cons, bind, pure, Option.bind_eq_some_iff] at hm
    obtain ⟨ma, h1, mb, h2, e⟩ := hm
    cases e
    have r1 : h.de es = some a := ha.read ma es h1 fun k hk =>
      (hc k (List.mem_append_left _ hk)).left (occ_none_of_keys (hb.own _ h2) fun hk' => hd k hk hk')
    have r2 : t.de (if h.takes then rest h.keys es else es) = some b := hb.read mb _ h2 fun k hk => by
      have hc := (hc k (List.mem_append_right _ hk)).right
        (occ_none_of_keys (ha.own _ h1) fun hk' => hd k hk' hk)
      split
      · exact hc.rest fun hk' => hd k hk' hk
      · exact hc
    simp only [ExtCodec.cons, bind, pure, r1, r2, Option.bind_some]

namespace CodecList

theorem codec_keys : {Ts : List Type} → (cs : CodecList Ts) → cs.codec.keys = cs.names.flatten
  | _, .nil => rfl
  | _, .cons c cs => by simp only [codec, ExtCodec.cons, names, List.flatten_cons, codec_keys cs]

theorem codec_reads : {Ts : List Type} → (cs : CodecList Ts) → cs.Disjoint → {xs : HList Ts} →
    cs.AllRead xs → cs.codec.Reads xs
  | _, .nil, _, (), _ => ExtCodec.nil_reads
  | _, .cons c cs, hd, ⟨x, xs⟩, h => by
    have hd := List.pairwise_cons.1 hd
    refine ExtCodec.cons_reads h.1 (codec_reads cs hd.2 h.2) ?_
    intro k hk hk'
    rw [codec_keys] at hk'
    obtain ⟨K, hK, hk'⟩ := List.mem_flatten.1 hk'
    exact hd.1 K hK k hk hk'

theorem codec_ser : {Ts : List Type} → (cs : CodecList Ts) → (xs : HList Ts) →
    cs.codec.ser xs = (mapOpt id (cs.written xs)).map List.flatten
  | _, .nil, _ => rfl
  | _, .cons c cs, xs => by
    have ih := codec_ser cs (Cons.tail xs)
    show (ExtCodec.cons c cs.codec).ser xs = _
    simp only [ExtCodec.cons, written, mapOpt, id, bind, pure]
    rw [ih]
    cases c.ser (Cons.head xs) with
    | none => rfl
    | some m =>
      cases mapOpt id (cs.written (Cons.tail xs)) with
      | none => rfl
      | some l => rfl

end CodecList
end Wot
