import Verif.Spec.JsonText
/-
Which texts are texts of Things, as far as JSON is concerned: the grammar of RFC 8259 without any meaning, for what is skipped, and
the grammar of `Spec/JsonText.lean` for everything else. It uses no function of the model.
-/
namespace Wot

/-! ### Values without meaning -/

/-- A number, of any size. -/
def AnyNumber (cs : List Char) : Prop :=
  ∃ sign ds fraction exponent, cs = sign ++ ds ++ fraction ++ exponent ∧ sign ∈ [[], ['-']] ∧ IsInteger ds ∧
    IsFraction fraction ∧ IsExponent exponent

/-- A character inside quotation marks, as it is or escaped. Escapes with four hexadecimal digits need not denote a
character. -/
inductive AnyChar : List Char → Prop
  | plain {c : Char} : 0x20 ≤ c.toNat → c ≠ '"' → c ≠ '\\' → AnyChar [c]
  | short {e : Char} : e ∈ ['"', '\\', '/', 'b', 'f', 'n', 'r', 't'] → AnyChar ['\\', e]
  | number {hex : List Char} {n : Nat} : HexDigits hex n → AnyChar ('\\' :: 'u' :: hex)

/-- What stands between quotation marks. -/
inductive AnyChars : List Char → Prop
  | nil : AnyChars []
  | cons {cs ds : List Char} : AnyChar cs → AnyChars ds → AnyChars (cs ++ ds)

/-- A string. -/
def AnyString (text : List Char) : Prop := ∃ cs, AnyChars cs ∧ text = '"' :: cs ++ ['"']

mutual
/-- A value of RFC 8259, without white space around it. -/
inductive AnyValue : List Char → Prop
  | null : AnyValue ['n', 'u', 'l', 'l']
  | true : AnyValue ['t', 'r', 'u', 'e']
  | false : AnyValue ['f', 'a', 'l', 's', 'e']
  | num {cs : List Char} : AnyNumber cs → AnyValue cs
  | str {cs : List Char} : AnyString cs → AnyValue cs
  | empty {w : List Char} : IsSpace w → AnyValue ('[' :: w ++ [']'])
  | arr {cs : List Char} : AnyElements cs → AnyValue ('[' :: cs ++ [']'])
  | emptyObj {w : List Char} : IsSpace w → AnyValue ('{' :: w ++ ['}'])
  | obj {cs : List Char} : AnyMembers cs → AnyValue ('{' :: cs ++ ['}'])
/-- Values separated by commas, with white space around them. -/
inductive AnyElements : List Char → Prop
  | one {v w cs : List Char} : IsSpace v → AnyValue cs → IsSpace w → AnyElements (v ++ cs ++ w)
  | cons {v w cs ds : List Char} : IsSpace v → AnyValue cs → IsSpace w → AnyElements ds →
      AnyElements (v ++ cs ++ w ++ ',' :: ds)
/-- Members separated by commas, with white space between them. -/
inductive AnyMembers : List Char → Prop
  | one {u v w x ks cs : List Char} : IsSpace u → AnyString ks → IsSpace v → IsSpace w → AnyValue cs → IsSpace x →
      AnyMembers (u ++ ks ++ v ++ ':' :: w ++ cs ++ x)
  | cons {u v w x ks cs ds : List Char} : IsSpace u → AnyString ks → IsSpace v → IsSpace w → AnyValue cs → IsSpace x →
      AnyMembers ds → AnyMembers (u ++ ks ++ v ++ ':' :: w ++ cs ++ x ++ ',' :: ds)
end

/-! ### Structs -/

/-- Values separated by commas, with texts of a certain kind each. -/
inductive ElementsBy (P : Json → List Char → Prop) : List Json → List Char → Prop
  | one {j : Json} {v w cs : List Char} : IsSpace v → P j cs → IsSpace w → ElementsBy P [j] (v ++ cs ++ w)
  | cons {j : Json} {l : List Json} {v w cs ds : List Char} : IsSpace v → P j cs → IsSpace w → ElementsBy P l ds →
      ElementsBy P (j :: l) (v ++ cs ++ w ++ ',' :: ds)

/-- Members separated by commas, with texts of a certain kind each. Those without value are left out. -/
inductive MembersBy (P : String → Option Json → List Char → Prop) : Members → List Char → Prop
  | one {k : String} {o : Option Json} {u v w x ks cs : List Char} : IsSpace u → StringText k ks → IsSpace v → IsSpace w →
      P k o cs → IsSpace x → MembersBy P (o.toList.map fun j => (k, j)) (u ++ ks ++ v ++ ':' :: w ++ cs ++ x)
  | cons {k : String} {o : Option Json} {m : Members} {u v w x ks cs ds : List Char} : IsSpace u → StringText k ks →
      IsSpace v → IsSpace w → P k o cs → IsSpace x → MembersBy P m ds →
      MembersBy P ((o.toList.map fun j => (k, j)) ++ m) (u ++ ks ++ v ++ ':' :: w ++ cs ++ x ++ ',' :: ds)

/-- An array with elements of a certain kind, or something else. -/
inductive ArrayBy (fl : FloatText) (P : Json → List Char → Prop) : Json → List Char → Prop
  | empty {w : List Char} : IsSpace w → ArrayBy fl P (.arr []) ('[' :: w ++ [']'])
  | arr {l : List Json} {cs : List Char} : ElementsBy P l cs → ArrayBy fl P (.arr l) ('[' :: cs ++ [']'])
  | other {j : Json} {cs : List Char} : (∀ l, j ≠ .arr l) → ValueText fl j cs → ArrayBy fl P j cs

/-- An object with members of a certain kind, or something else. -/
inductive ObjectBy (fl : FloatText) (P : String → Option Json → List Char → Prop) : Json → List Char → Prop
  | empty {w : List Char} : IsSpace w → ObjectBy fl P (.obj []) ('{' :: w ++ ['}'])
  | obj {m : Members} {cs : List Char} : MembersBy P m cs → ObjectBy fl P (.obj m) ('{' :: cs ++ ['}'])
  | other {j : Json} {cs : List Char} : (∀ m, j ≠ .obj m) → ValueText fl j cs → ObjectBy fl P j cs

/-- The texts of a struct with these fields. What stands in other members is skipped. -/
def StructText (fl : FloatText) (fields : List String) : Json → List Char → Prop :=
  ObjectBy fl fun k o cs => (k ∈ fields ∧ ∃ j, o = some j ∧ ValueText fl j cs) ∨ (k ∉ fields ∧ o = none ∧ AnyValue cs)

/-- The texts of Things: in `version` and in the elements of `links`, members that the TD specification does not name are
skipped. -/
def ThingValueText (fl : FloatText) : Json → List Char → Prop :=
  ObjectBy fl fun k o cs => ∃ j, o = some j ∧
    ((k = "version" ∧ StructText fl ["instance", "model"] j cs) ∨
     (k = "links" ∧ ArrayBy fl (StructText fl ["href", "type", "rel", "anchor", "sizes", "hreflang"]) j cs) ∨
     (k ≠ "version" ∧ k ≠ "links" ∧ ValueText fl j cs))

/-- The same with white space around it. -/
def ThingText (fl : FloatText) (j : Json) (text : String) : Prop :=
  ∃ v cs w, IsSpace v ∧ ThingValueText fl j cs ∧ IsSpace w ∧ text.toList = v ++ cs ++ w

end Wot
