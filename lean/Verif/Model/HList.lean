import Verif.Model.Serde
/-
Heterogeneous lists (`src/hlist.rs`) and the extension traits built on them (`src/extend.rs`).
-/
namespace Wot

/-- `Nil` (`src/hlist.rs:9`), the same as the empty extension used elsewhere in the model. -/
abbrev Nil := Unit

/-- `Cons<T, U>` (`src/hlist.rs:13–25`). -/
structure Cons (T U : Type) where
  head : T
  tail : U

/-- The types `Nil`, `Cons<T, Nil>`, `Cons<T, Cons<U, Nil>>`, … by the list of the element types
(`src/hlist.rs:9–25`). -/
def HList : List Type → Type
  | [] => Nil
  | T :: Ts => Cons T (HList Ts)

namespace HList

/-- `Nil`, also `Extendable::empty` (`src/hlist.rs:9`, `src/extend.rs:132–138, 148–154`). -/
def empty : HList [] := ()

/-- `Nil::cons` and `Cons::cons` (`src/hlist.rs:30–35, 41–46`), which prepend; also
`Extend::ext` (`src/extend.rs:140–146, 156–162`). -/
def cons {T : Type} {Ts : List Type} (self : HList Ts) (value : T) : HList (T :: Ts) :=
  { head := value, tail := self }

/-- `Cons::split_head` (`src/hlist.rs:49–53`). -/
def splitHead {T : Type} {Ts : List Type} (self : HList (T :: Ts)) : T × HList Ts :=
  (Cons.head self, Cons.tail self)

/-- A derivation of `NonEmptyHList` (`src/hlist.rs:138–201`): the list type with its associated types
`Init`, `Last` and `Reversed`. The two constructors are the two impls (`160–163`, `178–185`); the
second needs the trait of the tail and of the list without its last element. -/
inductive NonEmpty : List Type → List Type → Type → List Type → Type 1
  | one (T : Type) : NonEmpty [T] [] T [T]
  | more {T last last' : Type} {Us init init' rev rev' : List Type} :
      NonEmpty Us init last rev → NonEmpty (T :: init) init' last' rev' →
      NonEmpty (T :: Us) (T :: init) last (last :: rev')

/-- `NonEmptyHList::split_last` (`src/hlist.rs:166–170, 188–193`). -/
def splitLast {Ts init rev : List Type} {last : Type} : NonEmpty Ts init last rev → HList Ts →
    last × HList init
  | .one _, self => (Cons.head self, Cons.tail self)
  | .more d _, self =>
    let (last, tail) := splitLast d (Cons.tail self)
    (last, { head := Cons.head self, tail := tail : Cons _ _ })

/-- `NonEmptyHList::reverse` (`src/hlist.rs:173–175, 196–200`). -/
def reverse {Ts init rev : List Type} {last : Type} : NonEmpty Ts init last rev → HList Ts → HList rev
  | .one _, self => self
  | .more d d', self =>
    let (last, init) := splitLast (.more d d') self
    ({ head := last, tail := reverse d' init } : Cons _ _)

/-- A shared reference, as what it refers to (`&'a T`). -/
structure Ref (T : Type) where
  val : T

/-- `HListRef::to_ref` (`src/hlist.rs:65–88`). -/
def toRef : {Ts : List Type} → HList Ts → HList (Ts.map Ref)
  | [], _ => ()
  | _ :: _, self => { head := ⟨Cons.head self⟩, tail := toRef (Cons.tail self) : Cons _ _ }

/-- A mutable reference `&'a mut T` into a value of type `O`: how to read and to replace what it refers
to. -/
structure Mut (O T : Type) where
  get : O → T
  set : O → T → O

/-- A mutable reference to a field `head` of what another one refers to. -/
def Mut.head {O T U : Type} (r : Mut O (Cons T U)) : Mut O T :=
  ⟨fun o => (r.get o).head, fun o x => r.set o { r.get o with head := x }⟩

/-- The same for `tail`. -/
def Mut.tail {O T U : Type} (r : Mut O (Cons T U)) : Mut O U :=
  ⟨fun o => (r.get o).tail, fun o x => r.set o { r.get o with tail := x }⟩

/-- `HListMut::to_mut` (`src/hlist.rs:113–136`) on a mutable reference to a list. -/
def toMut {O : Type} : {Ts : List Type} → Mut O (HList Ts) → HList (Ts.map (Mut O))
  | [], _ => ()
  | T :: Ts, self =>
    { head := Mut.head (T := T) (U := HList Ts) self,
      tail := toMut (Mut.tail (T := T) (U := HList Ts) self) : Cons _ _ }

end HList

/-! ### Extensions -/

/-- The associated types of `Cons<T, U>` as an extension (`src/extend.rs:80–94`). -/
abbrev ExtTypes.cons (T U : ExtTypes) : ExtTypes where
  thing := Cons T.thing U.thing
  interaction := Cons T.interaction U.interaction
  property := Cons T.property U.property
  action := Cons T.action U.action
  event := Cons T.event U.event
  form := Cons T.form U.form
  response := Cons T.response U.response
  dataSchema := Cons T.dataSchema U.dataSchema
  objectSchema := Cons T.objectSchema U.objectSchema
  arraySchema := Cons T.arraySchema U.arraySchema

/-- `Serialize for Nil` and `Deserialize for Nil` (`src/hlist.rs:203–223`), flattened: no members are
written and all are accepted. The same holds of `()`. -/
def ExtCodec.nil : ExtCodec Nil where
  keys := []
  ser _ := some []
  de _ := some ()
  takes := true

/-- Derived `Serialize` and `Deserialize` for `Cons` (`src/hlist.rs:12–25`), flattened, whose two fields are
flattened in turn: `tail` is offered what `head` has not removed. -/
def ExtCodec.cons {A B : Type} (h : ExtCodec A) (t : ExtCodec B) : ExtCodec (Cons A B) where
  keys := h.keys ++ t.keys
  ser c := do
    let head ← h.ser c.head
    let tail ← t.ser c.tail
    pure (head ++ tail)
  de es := do
    let head ← h.de es
    let tail ← t.de (if h.takes then rest h.keys es else es)
    pure { head, tail }
  takes := false

/-- One codec for each element of a heterogeneous list. -/
inductive CodecList : List Type → Type 1
  | nil : CodecList []
  | cons {T : Type} {Ts : List Type} : ExtCodec T → CodecList Ts → CodecList (T :: Ts)

/-- The codec of a heterogeneous list (`src/hlist.rs:12–25, 203–223`). -/
def CodecList.codec : {Ts : List Type} → CodecList Ts → ExtCodec (HList Ts)
  | _, .nil => .nil
  | _, .cons c cs => ExtCodec.cons c cs.codec

/-- The codecs of `Nil` (`src/extend.rs:68–78`). -/
def ExtCodecs.nil : ExtCodecs .nil :=
  ⟨.nil, .nil, .nil, .nil, .nil, .nil, .nil, .nil, .nil, .nil⟩

/-- The codecs of `Cons<T, U>` (`src/extend.rs:80–94`). -/
def ExtCodecs.cons {T U : ExtTypes} (a : ExtCodecs T) (b : ExtCodecs U) : ExtCodecs (.cons T U) where
  thing := .cons a.thing b.thing
  interaction := .cons a.interaction b.interaction
  property := .cons a.property b.property
  action := .cons a.action b.action
  event := .cons a.event b.event
  form := .cons a.form b.form
  response := .cons a.response b.response
  dataSchema := .cons a.dataSchema b.dataSchema
  objectSchema := .cons a.objectSchema b.objectSchema
  arraySchema := .cons a.arraySchema b.arraySchema

end Wot
