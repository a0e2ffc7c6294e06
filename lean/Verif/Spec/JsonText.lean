import Verif.Model.JsonText
import Verif.Spec.Reread
import Verif.Spec.Members
/-
The grammar of JSON texts (RFC 8259), as a relation between trees and texts. It uses no function of the model.
-/
namespace Wot

/-- White space: spaces, tabs, line feeds and carriage returns. -/
def IsSpace (cs : List Char) : Prop := ∀ c ∈ cs, c ∈ [' ', '\t', '\n', '\r']

/-- One or more decimal digits. -/
def IsDigits (cs : List Char) : Prop := cs ≠ [] ∧ ∀ c ∈ cs, c ∈ ['0', '1', '2', '3', '4', '5', '6', '7', '8', '9']

/-- Decimal digits without superfluous leading zero. -/
def IsInteger (cs : List Char) : Prop := IsDigits cs ∧ (cs.head? = some '0' → cs = ['0'])

/-- The number denoted by digits. -/
inductive DigitsDenote : List Char → Nat → Prop
  | nil : DigitsDenote [] 0
  | snoc {cs : List Char} {n d : Nat} : d < 10 → DigitsDenote cs n →
      DigitsDenote (cs ++ [Char.ofNat ('0'.toNat + d)]) (10 * n + d)

/-- Nothing, or a point and digits. -/
def IsFraction (cs : List Char) : Prop := cs = [] ∨ ∃ ds, cs = '.' :: ds ∧ IsDigits ds

/-- Nothing, or `e` or `E`, perhaps a sign, and digits. -/
def IsExponent (cs : List Char) : Prop :=
  cs = [] ∨ ∃ e sign ds, cs = e :: sign ++ ds ∧ e ∈ ['e', 'E'] ∧ sign ∈ [[], ['+'], ['-']] ∧ IsDigits ds

/-- The texts of numbers. Integers in the range of `u64` or `i64` are integers; all others are floats, and so is `-0`. -/
inductive NumberText (fl : FloatText) : JNum → List Char → Prop
  | pos {n : Nat} {ds : List Char} : IsInteger ds → DigitsDenote ds n → n < 2^64 → NumberText fl (.pos n) ds
  | neg {n : Nat} {ds : List Char} : IsInteger ds → DigitsDenote ds (n + 1) → n + 1 ≤ 2^63 →
      NumberText fl (.neg n) ('-' :: ds)
  | big {n : Nat} {ds : List Char} {f : F64} : IsInteger ds → DigitsDenote ds n → 2^64 ≤ n →
      fl.read ds = some f → NumberText fl (.float f) ds
  | low {n : Nat} {ds : List Char} {f : F64} : IsInteger ds → DigitsDenote ds n → (n = 0 ∨ 2^63 < n) →
      fl.read ('-' :: ds) = some f → NumberText fl (.float f) ('-' :: ds)
  | float {sign ds fraction exponent : List Char} {f : F64} : sign ∈ [[], ['-']] → IsInteger ds →
      IsFraction fraction → IsExponent exponent → fraction ++ exponent ≠ [] →
      fl.read (sign ++ ds ++ fraction ++ exponent) = some f →
      NumberText fl (.float f) (sign ++ ds ++ fraction ++ exponent)

/-- A hexadecimal digit and its value. -/
def HexDigit (c : Char) (n : Nat) : Prop :=
  (n < 10 ∧ c = Char.ofNat ('0'.toNat + n)) ∨
  (10 ≤ n ∧ n < 16 ∧ (c = Char.ofNat ('a'.toNat + (n - 10)) ∨ c = Char.ofNat ('A'.toNat + (n - 10))))

/-- Four hexadecimal digits and their value. -/
def HexDigits (cs : List Char) (n : Nat) : Prop :=
  ∃ c3 c2 c1 c0 n3 n2 n1 n0, cs = [c3, c2, c1, c0] ∧ HexDigit c3 n3 ∧ HexDigit c2 n2 ∧ HexDigit c1 n1 ∧
    HexDigit c0 n0 ∧ n = 4096 * n3 + 256 * n2 + 16 * n1 + n0

/-- The escapes of two characters. -/
def shortEscapes : List (Char × Char) :=
  [('"', '"'), ('\\', '\\'), ('/', '/'), ('b', Char.ofNat 0x08), ('f', Char.ofNat 0x0C), ('n', Char.ofNat 0x0A),
   ('r', Char.ofNat 0x0D), ('t', Char.ofNat 0x09)]

/-- The ways to write a character inside quotation marks: as it is, unless it is a control character, a quotation mark or a
backslash; with a short escape; with its number; with a pair of surrogates (UTF-16). -/
inductive CharText : Char → List Char → Prop
  | plain {c : Char} : 0x20 ≤ c.toNat → c ≠ '"' → c ≠ '\\' → CharText c [c]
  | short {e c : Char} : (e, c) ∈ shortEscapes → CharText c ['\\', e]
  | number {c : Char} {hex : List Char} : HexDigits hex c.toNat → CharText c ('\\' :: 'u' :: hex)
  | pair {c : Char} {high low : List Char} {h l : Nat} : h < 0x400 → l < 0x400 →
      HexDigits high (0xD800 + h) → HexDigits low (0xDC00 + l) → c.toNat = 0x10000 + 0x400 * h + l →
      CharText c ('\\' :: 'u' :: high ++ '\\' :: 'u' :: low)

/-- The text of a string between its quotation marks. -/
inductive CharsText : List Char → List Char → Prop
  | nil : CharsText [] []
  | cons {c : Char} {s cs ds : List Char} : CharText c cs → CharsText s ds → CharsText (c :: s) (cs ++ ds)

/-- The text of a string. -/
def StringText (s : String) (text : List Char) : Prop := ∃ cs, CharsText s.toList cs ∧ text = '"' :: cs ++ ['"']

mutual
/-- The texts of a JSON value, without white space around it. -/
inductive ValueText (fl : FloatText) : Json → List Char → Prop
  | null : ValueText fl .null ['n', 'u', 'l', 'l']
  | true : ValueText fl (.bool true) ['t', 'r', 'u', 'e']
  | false : ValueText fl (.bool false) ['f', 'a', 'l', 's', 'e']
  | num {n : JNum} {cs : List Char} : NumberText fl n cs → ValueText fl (.num n) cs
  | str {s : String} {cs : List Char} : StringText s cs → ValueText fl (.str s) cs
  | empty {w : List Char} : IsSpace w → ValueText fl (.arr []) ('[' :: w ++ [']'])
  | arr {j : Json} {l : List Json} {cs : List Char} : ElementsText fl (j :: l) cs →
      ValueText fl (.arr (j :: l)) ('[' :: cs ++ [']'])
  | emptyObj {w : List Char} : IsSpace w → ValueText fl (.obj []) ('{' :: w ++ ['}'])
  | obj {kv : String × Json} {m : List (String × Json)} {cs : List Char} : MembersText fl (kv :: m) cs →
      ValueText fl (.obj (kv :: m)) ('{' :: cs ++ ['}'])
/-- Values separated by commas, with white space around them. -/
inductive ElementsText (fl : FloatText) : List Json → List Char → Prop
  | one {j : Json} {v w cs : List Char} : IsSpace v → ValueText fl j cs → IsSpace w →
      ElementsText fl [j] (v ++ cs ++ w)
  | cons {j : Json} {l : List Json} {v w cs ds : List Char} : IsSpace v → ValueText fl j cs → IsSpace w →
      ElementsText fl l ds → ElementsText fl (j :: l) (v ++ cs ++ w ++ ',' :: ds)
/-- Members, a name, a colon and a value each, separated by commas, with white space between them. -/
inductive MembersText (fl : FloatText) : List (String × Json) → List Char → Prop
  | one {k : String} {j : Json} {u v w x ks cs : List Char} : IsSpace u → StringText k ks → IsSpace v → IsSpace w →
      ValueText fl j cs → IsSpace x → MembersText fl [(k, j)] (u ++ ks ++ v ++ ':' :: w ++ cs ++ x)
  | cons {k : String} {j : Json} {m : List (String × Json)} {u v w x ks cs ds : List Char} : IsSpace u →
      StringText k ks → IsSpace v → IsSpace w → ValueText fl j cs → IsSpace x → MembersText fl m ds →
      MembersText fl ((k, j) :: m) (u ++ ks ++ v ++ ':' :: w ++ cs ++ x ++ ',' :: ds)
end

/-- A JSON text: a value with white space around it. -/
def JsonText (fl : FloatText) (j : Json) (text : String) : Prop :=
  ∃ v cs w, IsSpace v ∧ ValueText fl j cs ∧ IsSpace w ∧ text.toList = v ++ cs ++ w

/-- The law of floats for one number: its text is a number with a fraction or an exponent, from which it is read. -/
def FloatText.Keeps (fl : FloatText) (f : F64) : Prop :=
  ∃ sign ds fraction exponent, fl.write f = sign ++ ds ++ fraction ++ exponent ∧ sign ∈ [[], ['-']] ∧ IsInteger ds ∧
    IsFraction fraction ∧ IsExponent exponent ∧ fraction ++ exponent ≠ [] ∧ fl.read (fl.write f) = some f

/-- The law of floats for all of them: every finite float is kept, and only finite ones are read (serde_json refuses numbers that
are too large). It holds of serde_json with its feature `float_roundtrip`. -/
structure FloatText.Lawful (fl : FloatText) : Prop where
  keeps : ∀ f, f.isFinite = true → fl.Keeps f
  finite : ∀ cs f, fl.read cs = some f → f.isFinite = true

/-- The number has a text from which it is read again: an integer of 64 bits, or a float that obeys the law. -/
def JNum.Kept (fl : FloatText) : JNum → Prop
  | .pos n => n < 2^64
  | .neg n => n < 2^63
  | .float f => fl.Keeps f

/-- So have all numbers in the tree. -/
def Json.NumbersKept (fl : FloatText) (j : Json) : Prop := ∀ n, NumberIn n j → n.Kept fl

/-- So has everything that a number in a document can become: itself, as a value, and the float nearest to it, as the bound of a
number schema. -/
def JNum.Lasts (fl : FloatText) : JNum → Prop
  | .pos n => n < 2^64 ∧ ∀ f : F64, f.Nearest n → fl.Keeps f
  | .neg n => n < 2^63 ∧ ∀ f : F64, f.Nearest (-(n + 1 : Int)) → fl.Keeps f
  | .float f => fl.Keeps f

/-- All numbers in the document are such numbers. -/
def Json.NumbersLast (fl : FloatText) (j : Json) : Prop := ∀ n, NumberIn n j → n.Lasts fl

/-! ### The numbers of a Thing -/

/-- The float is a bound or the `multipleOf` of a number schema. -/
def NumberSchema.Uses (s : NumberSchema) (f : F64) : Prop :=
  s.maximum = some (.inclusive f) ∨ s.maximum = some (.exclusive f) ∨ s.minimum = some (.inclusive f) ∨
    s.minimum = some (.exclusive f) ∨ s.multipleOf = some f

/-- The numbers in what the extension writes have texts from which they are read. -/
def ExtCodec.NumbersKept {A : Type} (C : ExtCodec A) (fl : FloatText) (a : A) : Prop :=
  ∀ es, C.ser a = some es → ∀ kv ∈ es, kv.2.NumbersKept fl

/-- The same, whatever extensions write. -/
structure ExtCodecs.NumbersKept {X : ExtTypes} (C : ExtCodecs X) (fl : FloatText) : Prop where
  dataSchema : ∀ a, C.dataSchema.NumbersKept fl a
  arraySchema : ∀ a, C.arraySchema.NumbersKept fl a
  objectSchema : ∀ a, C.objectSchema.NumbersKept fl a
  form : ∀ a, C.form.NumbersKept fl a
  response : ∀ a, C.response.NumbersKept fl a
  interaction : ∀ a, C.interaction.NumbersKept fl a
  property : ∀ a, C.property.NumbersKept fl a
  action : ∀ a, C.action.NumbersKept fl a
  event : ∀ a, C.event.NumbersKept fl a
  thing : ∀ a, C.thing.NumbersKept fl a

/-- The numbers of a Thing have texts from which they are read again: the finite floats of its schemas, and the numbers in
the JSON values that it carries as they are (see `Thing.NestsWithin`). -/
structure Thing.NumbersKept {X : ExtTypes} (fl : FloatText) (C : ExtCodecs X) (t : Thing X) : Prop where
  floats : ∀ p s x n f, t.HasSchema p s → Within x s → x.subtype = some (.number n) → n.Uses f →
    f.isFinite = true → fl.Keeps f
  values : ∀ p s x, t.HasSchema p s → Within x s →
    (∀ v, x.head.constant = some v → v.NumbersKept fl) ∧ (∀ v, x.head.default = some v → v.NumbersKept fl) ∧
    (∀ l, x.head.enumeration = some l → ∀ v ∈ l, v.NumbersKept fl) ∧ C.dataSchema.NumbersKept fl x.head.other ∧
    (∀ a, x.subtype = some (.array a) → C.arraySchema.NumbersKept fl a.other) ∧
    (∀ o, x.subtype = some (.object o) → C.objectSchema.NumbersKept fl o.other)
  forms : ∀ ctx f, t.HasForm ctx f → C.form.NumbersKept fl f.other ∧
    ∀ r, f.response = some r → C.response.NumbersKept fl r.other
  interactions : ∀ i, t.HasInteraction i → C.interaction.NumbersKept fl i.other
  properties : ∀ ps, t.properties = some ps → ∀ kv ∈ ps, C.property.NumbersKept fl kv.2.other
  actions : ∀ as, t.actions = some as → ∀ kv ∈ as, C.action.NumbersKept fl kv.2.other
  events : ∀ es, t.events = some es → ∀ kv ∈ es, C.event.NumbersKept fl kv.2.other
  security : ∀ n s scheme es, (n, s) ∈ t.securityDefinitions → s.subtype = .unknown scheme (.obj es) →
    ∀ kv ∈ es, kv.2.NumbersKept fl
  context : t.context.NumbersKept fl
  other : C.thing.NumbersKept fl t.other

end Wot
