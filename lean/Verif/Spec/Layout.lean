import Verif.Spec.JsonText
/-
How the strings look: line breaks and indentation as a function of the characters of a text, without its tree.
-/
namespace Wot

/-- A line break and two spaces for every open bracket. -/
def lineBreak (depth : Nat) : List Char := '\n' :: (List.replicate depth [' ', ' ']).flatten

/-- Layout of a text without white space: a line break after every opening bracket and comma and before every closing
bracket, except between the brackets of empty arrays and objects, and a space after every colon. Nothing changes inside
quotation marks (`quoted`). -/
def laidOut (quoted : Bool) (depth : Nat) : List Char → List Char
  | [] => []
  | '\\' :: c :: cs => '\\' :: c :: laidOut quoted depth cs
  | '"' :: cs => '"' :: laidOut (!quoted) depth cs
  | '[' :: ']' :: cs => '[' :: ']' :: laidOut quoted depth cs
  | '{' :: '}' :: cs => '{' :: '}' :: laidOut quoted depth cs
  | c :: cs =>
    if quoted then c :: laidOut quoted depth cs
    else if c ∈ ['[', '{'] then c :: lineBreak (depth + 1) ++ laidOut quoted (depth + 1) cs
    else if c ∈ [']', '}'] then lineBreak (depth - 1) ++ c :: laidOut quoted (depth - 1) cs
    else if c = ',' then c :: lineBreak depth ++ laidOut quoted depth cs
    else if c = ':' then c :: ' ' :: laidOut quoted depth cs
    else c :: laidOut quoted depth cs

/-- No text from which a float in the tree is read is shorter than what is written for it. -/
def Json.FloatsShortest (fl : FloatText) (j : Json) : Prop :=
  ∀ f, NumberIn (.float f) j → ∀ cs, NumberText fl (.float f) cs → (fl.write f).length ≤ cs.length

end Wot
