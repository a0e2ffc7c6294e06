import Verif.Model.HList
import Verif.Spec.Storable
/-
Vocabulary for statements about heterogeneous lists.
-/
namespace Wot

/-- A value together with its type. -/
structure Dyn : Type 1 where
  type : Type
  val : type

namespace HList

/-- The elements of a heterogeneous list, in order. -/
def elems : {Ts : List Type} → HList Ts → List Dyn
  | [], _ => []
  | T :: _, xs => ⟨T, Cons.head xs⟩ :: elems (Cons.tail xs)

/-- A mutable reference that can be read back after writing, and leaves alone what it does not change. -/
structure Mut.Lawful {O T : Type} (r : Mut O T) : Prop where
  get_set : ∀ o x, r.get (r.set o x) = x
  set_get : ∀ o, r.set o (r.get o) = o
  set_set : ∀ o x y, r.set (r.set o x) y = r.set o y

/-- The mutable reference to a variable. -/
def Mut.var (O : Type) : Mut O O := ⟨fun o => o, fun _ x => x⟩

/-- The effect of writing `x` through the mutable reference at some position of a list of references
to values of `T`. -/
inductive Writes {O : Type} : {Ts : List Type} → HList (Ts.map (Mut O)) → Nat → Dyn → O → O → Prop
  | head {T : Type} {Ts : List Type} (rs : HList ((T :: Ts).map (Mut O))) (x : T) (o : O) :
      Writes (Ts := T :: Ts) rs 0 ⟨T, x⟩ o (Mut.set (T := T) (Cons.head rs) o x)
  | tail {T : Type} {Ts : List Type} (rs : HList ((T :: Ts).map (Mut O))) {i : Nat} {x : Dyn} {o o' : O} :
      Writes (Ts := Ts) (Cons.tail rs) i x o o' → Writes (Ts := T :: Ts) rs (i + 1) x o o'

end HList

namespace CodecList

/-- The member names of each codec. -/
def names : {Ts : List Type} → CodecList Ts → List (List String)
  | _, .nil => []
  | _, .cons c cs => c.keys :: cs.names

/-- What each element is written as. -/
def written : {Ts : List Type} → CodecList Ts → HList Ts → List (Option Members)
  | _, .nil, _ => []
  | _, .cons c cs, xs => c.ser (Cons.head xs) :: cs.written (Cons.tail xs)

/-- Each element survives on its own. -/
def AllRead : {Ts : List Type} → CodecList Ts → HList Ts → Prop
  | _, .nil, _ => True
  | _, .cons c cs, xs => c.Reads (Cons.head xs) ∧ cs.AllRead (Cons.tail xs)

/-- No two codecs have a member name in common. -/
def Disjoint {Ts : List Type} (cs : CodecList Ts) : Prop := cs.names.Pairwise fun a b => Apart a b

end CodecList
end Wot
