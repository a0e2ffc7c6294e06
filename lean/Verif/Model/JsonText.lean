import Verif.Model.Text
/-
The characters of JSON texts: what `serde_json::to_string` and `to_string_pretty` write for a tree, and which tree
`serde_json::from_str` sees in a text (the reading and writing of the `Thing` of `src/thing.rs:51–167` as a string;
`Cargo.toml:13`, no features). serde_json is a dependency: this file follows its documented behaviour and its source from memory, and
is part of the trusted base of the properties that use it.

Simplification: serde_json reads a text and builds the Thing in one pass. Here the tree is found first, and the Thing is built
from it. Where serde_json does not look at the values (unknown members of links and of the version information), the tree has no
members, and the text is skipped as serde_json skips it.
-/
namespace Wot

/-- The text of floats: `write` is what `ryu` prints for a finite `f64`, `read` is the conversion from decimal of serde_json
(`none` if the number is too large). Both are external, and no law is part of this structure: without the feature
`float_roundtrip`, what is read may differ from what was written in the last place. -/
structure FloatText where
  write : F64 → List Char
  read : List Char → Option F64

/-! ### Writing (`serde_json::ser`) -/

/-- A digit in base 10 or 16, in lower case. -/
def digitChar (n : Nat) : Char := if n < 10 then Char.ofNat (48 + n) else Char.ofNat (87 + n)

/-- `itoa`: the decimal digits of a number. -/
def decimal (n : Nat) : List Char :=
  if n < 10 then [digitChar n] else decimal (n / 10) ++ [digitChar (n % 10)]

/-- `Serializer::serialize_{u64,i64,f64}`. -/
def JNum.text (fl : FloatText) : JNum → List Char
  | .pos n => decimal n
  | .neg n => '-' :: decimal (n + 1)
  | .float f => fl.write f

/-- `format_escaped_str_contents`: the table `ESCAPE` and `write_char_escape`. -/
def escapeChar (c : Char) : List Char :=
  if c = '"' then ['\\', '"']
  else if c = '\\' then ['\\', '\\']
  else if c.toNat = 8 then ['\\', 'b']
  else if c.toNat = 9 then ['\\', 't']
  else if c.toNat = 10 then ['\\', 'n']
  else if c.toNat = 12 then ['\\', 'f']
  else if c.toNat = 13 then ['\\', 'r']
  else if c.toNat < 32 then ['\\', 'u', '0', '0', digitChar (c.toNat / 16), digitChar (c.toNat % 16)]
  else [c]

/-- `format_escaped_str`. -/
def stringText (s : String) : List Char := '"' :: s.toList.flatMap escapeChar ++ ['"']

mutual
/-- `serde_json::to_string` (`CompactFormatter`). -/
def Json.compact (fl : FloatText) : Json → List Char
  | .null => ['n', 'u', 'l', 'l']
  | .bool true => ['t', 'r', 'u', 'e']
  | .bool false => ['f', 'a', 'l', 's', 'e']
  | .num n => n.text fl
  | .str s => stringText s
  | .arr [] => ['[', ']']
  | .arr (j :: l) => '[' :: j.compact fl ++ Json.compactList fl l
  | .obj [] => ['{', '}']
  | .obj ((k, j) :: m) => '{' :: stringText k ++ ':' :: j.compact fl ++ Json.compactMembers fl m
/-- The elements after the first, and the bracket. -/
def Json.compactList (fl : FloatText) : List Json → List Char
  | [] => [']']
  | j :: l => ',' :: j.compact fl ++ Json.compactList fl l
/-- The members after the first, and the brace. -/
def Json.compactMembers (fl : FloatText) : List (String × Json) → List Char
  | [] => ['}']
  | (k, j) :: m => ',' :: stringText k ++ ':' :: j.compact fl ++ Json.compactMembers fl m
end

/-- A new line with indentation by two spaces for every open array and object. -/
def newLine (depth : Nat) : List Char := '\n' :: List.replicate (2 * depth) ' '

mutual
/-- `serde_json::to_string_pretty` (`PrettyFormatter`), inside `depth` arrays and objects. -/
def Json.pretty (fl : FloatText) (depth : Nat) : Json → List Char
  | .null => ['n', 'u', 'l', 'l']
  | .bool true => ['t', 'r', 'u', 'e']
  | .bool false => ['f', 'a', 'l', 's', 'e']
  | .num n => n.text fl
  | .str s => stringText s
  | .arr [] => ['[', ']']
  | .arr (j :: l) => '[' :: newLine (depth + 1) ++ j.pretty fl (depth + 1) ++ Json.prettyList fl depth l
  | .obj [] => ['{', '}']
  | .obj ((k, j) :: m) =>
    '{' :: newLine (depth + 1) ++ stringText k ++ ':' :: ' ' :: j.pretty fl (depth + 1) ++ Json.prettyMembers fl depth m
/-- The elements after the first, and the bracket. -/
def Json.prettyList (fl : FloatText) (depth : Nat) : List Json → List Char
  | [] => newLine depth ++ [']']
  | j :: l => ',' :: newLine (depth + 1) ++ j.pretty fl (depth + 1) ++ Json.prettyList fl depth l
/-- The members after the first, and the brace. -/
def Json.prettyMembers (fl : FloatText) (depth : Nat) : List (String × Json) → List Char
  | [] => newLine depth ++ ['}']
  | (k, j) :: m =>
    ',' :: newLine (depth + 1) ++ stringText k ++ ':' :: ' ' :: j.pretty fl (depth + 1) ++
      Json.prettyMembers fl depth m
end

/-! ### Reading (`serde_json::de`) -/

/-- `parse_whitespace`. -/
def skipSpace : List Char → List Char
  | [] => []
  | c :: cs => if c = ' ' ∨ c = '\n' ∨ c = '\t' ∨ c = '\r' then skipSpace cs else c :: cs

/-- The digits a text begins with, and what follows. -/
def scanDigits : List Char → List Char × List Char
  | [] => ([], [])
  | c :: cs => if c.isDigit then (c :: (scanDigits cs).1, (scanDigits cs).2) else ([], c :: cs)

/-- `parse_decimal`: if there is a point, digits must follow. -/
def scanFraction : List Char → Option (List Char × List Char)
  | '.' :: cs => if (scanDigits cs).1 = [] then none else some ('.' :: (scanDigits cs).1, (scanDigits cs).2)
  | cs => some ([], cs)

/-- The sign of an exponent. -/
def scanSign : List Char → List Char × List Char
  | '+' :: cs => (['+'], cs)
  | '-' :: cs => (['-'], cs)
  | cs => ([], cs)

/-- `parse_exponent`: if there is an `e`, digits must follow, perhaps after a sign. -/
def scanExponent : List Char → Option (List Char × List Char)
  | [] => some ([], [])
  | c :: cs =>
    if c = 'e' ∨ c = 'E' then
      if (scanDigits (scanSign cs).2).1 = [] then none
      else some (c :: (scanSign cs).1 ++ (scanDigits (scanSign cs).2).1, (scanDigits (scanSign cs).2).2)
    else some ([], c :: cs)

/-- The value of decimal digits. -/
def digitsValue (cs : List Char) : Nat := cs.foldl (fun n c => 10 * n + (c.toNat - 48)) 0

/-- `parse_number`: an integer that fits into `u64`, or is negative and fits into `i64`, is an integer;
everything else, also `-0`, is converted to a float. -/
def numberOf (fl : FloatText) (minus : Bool) (digits after : List Char) : Option JNum :=
  let n := digitsValue digits
  let float := (fl.read ((if minus then ['-'] else []) ++ digits ++ after)).map .float
  if after ≠ [] then float
  else if minus then if 0 < n ∧ n ≤ 2^63 then some (.neg (n - 1)) else float
  else if n < 2^64 then some (.pos n) else float

/-- `parse_integer` and `parse_number` after the sign: no digit may follow a leading zero. -/
def scanNumber (fl : FloatText) (minus : Bool) (cs : List Char) : Option (JNum × List Char) :=
  match scanDigits cs with
  | ([], _) => none
  | ('0' :: _ :: _, _) => none
  | (digits, cs) =>
    (scanFraction cs).bind fun (fraction, cs) =>
      (scanExponent cs).bind fun (exponent, cs) =>
        (numberOf fl minus digits (fraction ++ exponent)).map fun n => (n, cs)

/-- A hexadecimal digit (`decode_hex_val`). -/
def hexVal (c : Char) : Option Nat :=
  if '0' ≤ c ∧ c ≤ '9' then some (c.toNat - 48)
  else if 'a' ≤ c ∧ c ≤ 'f' then some (c.toNat - 87)
  else if 'A' ≤ c ∧ c ≤ 'F' then some (c.toNat - 55)
  else none

/-- `decode_hex_escape`: four hexadecimal digits. -/
def scanHex : List Char → Option (Nat × List Char)
  | a :: b :: c :: d :: cs => do
    let a ← hexVal a
    let b ← hexVal b
    let c ← hexVal c
    let d ← hexVal d
    pure (((a * 16 + b) * 16 + c) * 16 + d, cs)
  | _ => none

/-- `parse_unicode_escape`, after `\u`: surrogates must come in pairs. -/
def scanUnicode (cs : List Char) : Option (Char × List Char) :=
  (scanHex cs).bind fun (n, cs) =>
    if 0xDC00 ≤ n ∧ n ≤ 0xDFFF then none
    else if 0xD800 ≤ n ∧ n ≤ 0xDBFF then
      match cs with
      | '\\' :: 'u' :: cs =>
        (scanHex cs).bind fun (m, cs) =>
          if 0xDC00 ≤ m ∧ m ≤ 0xDFFF then
            some (Char.ofNat ((n - 0xD800) * 0x400 + (m - 0xDC00) + 0x10000), cs)
          else none
      | _ => none
    else some (Char.ofNat n, cs)

/-- `parse_escape`, after the backslash. -/
def scanEscape : List Char → Option (Char × List Char)
  | [] => none
  | c :: cs =>
    if c = '"' ∨ c = '\\' ∨ c = '/' then some (c, cs)
    else if c = 'b' then some (Char.ofNat 8, cs)
    else if c = 'f' then some (Char.ofNat 12, cs)
    else if c = 'n' then some ('\n', cs)
    else if c = 'r' then some ('\r', cs)
    else if c = 't' then some ('\t', cs)
    else if c = 'u' then scanUnicode cs
    else none

/-- `parse_str`, after the opening quotation mark: control characters must be escaped. The number bounds the length. -/
def scanString : Nat → List Char → Option (List Char × List Char)
  | 0, _ => none
  | _, [] => none
  | n + 1, c :: cs =>
    if c = '"' then some ([], cs)
    else if c = '\\' then
      (scanEscape cs).bind fun (x, cs) => (scanString n cs).map fun (s, cs) => (x :: s, cs)
    else if c.toNat < 32 then none
    else (scanString n cs).map fun (s, cs) => (c :: s, cs)

/-- What follows a given beginning (`parse_ident`). -/
def stripPrefix : List Char → List Char → Option (List Char)
  | [], cs => some cs
  | _, [] => none
  | a :: l, c :: cs => if a = c then stripPrefix l cs else none

mutual
/-- `Deserializer::parse_any_value`. The number bounds the length. -/
def scanValue (fl : FloatText) : Nat → List Char → Option (Json × List Char)
  | 0, _ => none
  | n + 1, cs =>
    match skipSpace cs with
    | [] => none
    | c :: cs =>
      if c = 'n' then (stripPrefix ['u', 'l', 'l'] cs).map fun cs => (.null, cs)
      else if c = 't' then (stripPrefix ['r', 'u', 'e'] cs).map fun cs => (.bool true, cs)
      else if c = 'f' then (stripPrefix ['a', 'l', 's', 'e'] cs).map fun cs => (.bool false, cs)
      else if c = '-' then (scanNumber fl true cs).map fun (x, cs) => (.num x, cs)
      else if c.isDigit then (scanNumber fl false (c :: cs)).map fun (x, cs) => (.num x, cs)
      else if c = '"' then (scanString n cs).map fun (s, cs) => (.str (String.ofList s), cs)
      else if c = '[' then
        match skipSpace cs with
        | [] => none
        | d :: ds =>
          if d = ']' then some (.arr [], ds)
          else (scanElements fl n (d :: ds)).map fun (l, cs) => (.arr l, cs)
      else if c = '{' then
        match skipSpace cs with
        | [] => none
        | d :: ds =>
          if d = '}' then some (.obj [], ds)
          else (scanMembers fl n (d :: ds)).map fun (m, cs) => (.obj m, cs)
      else none
/-- `SeqAccess::next_element_seed` until the bracket. -/
def scanElements (fl : FloatText) : Nat → List Char → Option (List Json × List Char)
  | 0, _ => none
  | n + 1, cs =>
    (scanValue fl n cs).bind fun (j, cs) =>
      match skipSpace cs with
      | [] => none
      | c :: cs =>
        if c = ']' then some ([j], cs)
        else if c = ',' then (scanElements fl n cs).map fun (l, cs) => (j :: l, cs)
        else none
/-- `MapAccess::next_key_seed`, `next_value_seed` until the brace. -/
def scanMembers (fl : FloatText) : Nat → List Char → Option (List (String × Json) × List Char)
  | 0, _ => none
  | n + 1, cs =>
    match skipSpace cs with
    | [] => none
    | c :: cs =>
      if c = '"' then
        (scanString n cs).bind fun (k, cs) =>
          match skipSpace cs with
          | [] => none
          | c :: cs =>
            if c = ':' then
              (scanValue fl n cs).bind fun (j, cs) =>
                match skipSpace cs with
                | [] => none
                | c :: cs =>
                  if c = '}' then some ([(String.ofList k, j)], cs)
                  else if c = ',' then (scanMembers fl n cs).map fun (m, cs) => ((String.ofList k, j) :: m, cs)
                  else none
            else none
      else none
end

/-- `serde_json::from_str`: the tree of a text. Only white space may follow the value (`Deserializer::end`). -/
def Json.parse (fl : FloatText) (text : String) : Option Json :=
  match scanValue fl (text.toList.length + 1) text.toList with
  | some (j, cs) => if skipSpace cs = [] then some j else none
  | none => none

/-! ### Skipping (`Deserializer::ignore_value`) -/

/-- `ignore_integer`, `ignore_decimal` and `ignore_exponent` after the sign: what follows a number of any size. -/
def skipNumber (cs : List Char) : Option (List Char) :=
  match scanDigits cs with
  | ([], _) => none
  | ('0' :: _ :: _, _) => none
  | (_, cs) => (scanFraction cs).bind fun (_, cs) => (scanExponent cs).map fun (_, cs) => cs

/-- `ignore_escape`, after the backslash: surrogates are not checked. -/
def skipEscape : List Char → Option (List Char)
  | [] => none
  | c :: cs =>
    if c = '"' ∨ c = '\\' ∨ c = '/' ∨ c = 'b' ∨ c = 'f' ∨ c = 'n' ∨ c = 'r' ∨ c = 't' then some cs
    else if c = 'u' then (scanHex cs).map fun (_, cs) => cs
    else none

/-- `ignore_str`, after the opening quotation mark. The number bounds the length. -/
def skipString : Nat → List Char → Option (List Char)
  | 0, _ => none
  | _, [] => none
  | n + 1, c :: cs =>
    if c = '"' then some cs
    else if c = '\\' then (skipEscape cs).bind (skipString n)
    else if c.toNat < 32 then none
    else skipString n cs

/-- The bracket that closes an array or an object. -/
def closing (frame : Char) : Char := if frame = '[' then ']' else '}'

/-- In an object: the name of a member and the colon. -/
def skipName (frame : Char) (cs : List Char) : Option (List Char) :=
  if frame = '[' then some cs
  else
    match skipSpace cs with
    | [] => none
    | c :: cs =>
      if c = '"' then
        (skipString (cs.length + 1) cs).bind fun cs =>
          match skipSpace cs with
          | [] => none
          | c :: cs => if c = ':' then some cs else none
      else none

mutual
/-- The outer loop of `ignore_value`: skips a value. The arrays and objects that are open are kept on a stack (`enclosing` and
`scratch`), not in recursive calls, and nothing limits its size. The number bounds the steps. -/
def skipValue : Nat → List Char → List Char → Option (List Char)
  | 0, _, _ => none
  | n + 1, stack, cs =>
    match skipSpace cs with
    | [] => none
    | c :: cs =>
      if c = 'n' then (stripPrefix ['u', 'l', 'l'] cs).bind (skipAfter n true stack)
      else if c = 't' then (stripPrefix ['r', 'u', 'e'] cs).bind (skipAfter n true stack)
      else if c = 'f' then (stripPrefix ['a', 'l', 's', 'e'] cs).bind (skipAfter n true stack)
      else if c = '-' then (skipNumber cs).bind (skipAfter n true stack)
      else if c.isDigit then (skipNumber (c :: cs)).bind (skipAfter n true stack)
      else if c = '"' then (skipString (cs.length + 1) cs).bind (skipAfter n true stack)
      else if c = '[' ∨ c = '{' then skipAfter n false (c :: stack) cs
      else none
/-- The inner loop of `ignore_value`: after a value (`accept_comma`) or an opening bracket. -/
def skipAfter : Nat → Bool → List Char → List Char → Option (List Char)
  | 0, _, _, _ => none
  | _, _, [], cs => some cs
  | n + 1, acceptComma, frame :: stack, cs =>
    match skipSpace cs with
    | [] => none
    | c :: cs =>
      if c = ',' ∧ acceptComma then (skipName frame cs).bind (skipValue n (frame :: stack))
      else if c = closing frame then skipAfter n true stack cs
      else if acceptComma then none
      else (skipName frame (c :: cs)).bind (skipValue n (frame :: stack))
end

/-! ### Reading structs -/

/-- `SeqAccess::next_element_seed` until the bracket, for elements that are read in a given way. The number bounds the length. -/
def scanElementsBy (value : List Char → Option (Json × List Char)) : Nat → List Char → Option (List Json × List Char)
  | 0, _ => none
  | n + 1, cs =>
    (value cs).bind fun (j, cs) =>
      match skipSpace cs with
      | [] => none
      | c :: cs =>
        if c = ']' then some ([j], cs)
        else if c = ',' then (scanElementsBy value n cs).map fun (l, cs) => (j :: l, cs)
        else none

/-- `MapAccess::next_key_seed`, `next_value_seed` until the brace, for members whose values are read in a way that depends on their
names; those without value are left out. The number bounds the length. -/
def scanMembersBy (value : String → List Char → Option (Option Json × List Char)) :
    Nat → List Char → Option (Members × List Char)
  | 0, _ => none
  | n + 1, cs =>
    match skipSpace cs with
    | [] => none
    | c :: cs =>
      if c = '"' then
        (scanString n cs).bind fun (k, cs) =>
          match skipSpace cs with
          | [] => none
          | c :: cs =>
            if c = ':' then
              (value (String.ofList k) cs).bind fun (v, cs) =>
                let member := (v.map fun j => (String.ofList k, j)).toList
                match skipSpace cs with
                | [] => none
                | c :: cs =>
                  if c = '}' then some (member, cs)
                  else if c = ',' then (scanMembersBy value n cs).map fun (m, cs) => (member ++ m, cs)
                  else none
            else none
      else none

/-- `deserialize_seq`: an array whose elements are read in a given way. Everything else is read as it is. -/
def scanArrayBy (fl : FloatText) (value : List Char → Option (Json × List Char)) (n : Nat) (cs : List Char) :
    Option (Json × List Char) :=
  match skipSpace cs with
  | [] => none
  | c :: r =>
    if c = '[' then
      match skipSpace r with
      | [] => none
      | d :: ds =>
        if d = ']' then some (.arr [], ds)
        else (scanElementsBy value n (d :: ds)).map fun (l, cs) => (.arr l, cs)
    else scanValue fl n cs

/-- `deserialize_struct` and `deserialize_map`: an object whose members are read in a given way. Everything else is read as it is. -/
def scanObjectBy (fl : FloatText) (value : String → List Char → Option (Option Json × List Char)) (n : Nat)
    (cs : List Char) : Option (Json × List Char) :=
  match skipSpace cs with
  | [] => none
  | c :: r =>
    if c = '{' then
      match skipSpace r with
      | [] => none
      | d :: ds =>
        if d = '}' then some (.obj [], ds)
        else (scanMembersBy value n (d :: ds)).map fun (m, cs) => (.obj m, cs)
    else scanValue fl n cs

/-- A struct without flattened fields: members that are not its fields are skipped (`IgnoredAny`). -/
def scanStruct (fl : FloatText) (fields : List String) (n : Nat) : List Char → Option (Json × List Char) :=
  scanObjectBy fl (fun k cs =>
    if fields.contains k then (scanValue fl n cs).map fun (j, cs) => (some j, cs)
    else (skipValue (2 * cs.length + 2) [] cs).map fun cs => (none, cs)) n

/-- The members of a Thing (`src/thing.rs:55–167`). The structs without flattened fields that are read directly from the text are
`VersionInfo` and `Link` (`src/thing.rs:84, 122, 647–654, 1428–1459`); see `countedMember`. -/
def scanThing (fl : FloatText) (n : Nat) : List Char → Option (Json × List Char) :=
  scanObjectBy fl (fun k cs =>
    (if k = "version" then scanStruct fl ["instance", "model"] n cs
     else if k = "links" then
       scanArrayBy fl (scanStruct fl ["href", "type", "rel", "anchor", "sizes", "hreflang"] n) n cs
     else scanValue fl n cs).map fun (j, cs) => (some j, cs)) n

/-- `serde_json::from_str` for a Thing: what is looked at of a text. Only white space may follow (`Deserializer::end`). -/
def Thing.parse (fl : FloatText) (text : String) : Option Json :=
  match scanThing fl (text.toList.length + 1) text.toList with
  | some (j, cs) => if skipSpace cs = [] then some j else none
  | none => none

variable {X : ExtTypes} (C : ExtCodecs X)

/-- `serde_json::to_string(&thing)` (`src/thing.rs:51–167`). -/
def Thing.toString (env : SerdeEnv) (fl : FloatText) (t : Thing X) : Option String :=
  (toText C env t).map fun j => String.ofList (j.compact fl)

/-- `serde_json::to_string_pretty(&thing)` (`src/thing.rs:51–167`). -/
def Thing.toStringPretty (env : SerdeEnv) (fl : FloatText) (t : Thing X) : Option String :=
  (toText C env t).map fun j => String.ofList (j.pretty fl 0)

/-- `serde_json::from_str::<Thing>(text)` (`src/thing.rs:51–167`). What is skipped does not count for the limit on nesting. -/
def Thing.fromString (env : SerdeEnv) (fl : FloatText) (text : String) : Option (Thing X) :=
  (Thing.parse fl text).bind fun j => if j.nesting ≤ nestingLimit then fromText C env j else none

end Wot
