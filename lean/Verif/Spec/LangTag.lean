import Verif.Model.Prelude
/-
Language tags after RFC 5646. This file uses no function of the model.
-/
namespace Wot.Rfc5646

/-! ### Well-formed tags (section 2.1) -/

/-- Between `lo` and `hi` letters, digits, or both. -/
def Letters (lo hi : Nat) (t : List Char) : Prop := lo ≤ t.length ∧ t.length ≤ hi ∧ ∀ c ∈ t, c.isAlpha = true
@[inherit_doc Letters] def Figures (lo hi : Nat) (t : List Char) : Prop := lo ≤ t.length ∧ t.length ≤ hi ∧ ∀ c ∈ t, c.isDigit = true
@[inherit_doc Letters] def Alphanumeric (lo hi : Nat) (t : List Char) : Prop :=
  lo ≤ t.length ∧ t.length ≤ hi ∧ ∀ c ∈ t, c.isAlphanum = true

/-- `language = 2*3ALPHA ["-" extlang] / 4ALPHA / 5*8ALPHA`, `extlang = 3ALPHA *2("-" 3ALPHA)`. -/
def IsLanguage (l : List (List Char)) : Prop :=
  ∃ t ext, l = t :: ext ∧ (Letters 2 3 t ∧ ext.length ≤ 3 ∧ (∀ e ∈ ext, Letters 3 3 e) ∨ Letters 4 8 t ∧ ext = [])

/-- `["-" script]`, `script = 4ALPHA`. -/
def MayScript (l : List (List Char)) : Prop := l = [] ∨ ∃ t, l = [t] ∧ Letters 4 4 t

/-- `["-" region]`, `region = 2ALPHA / 3DIGIT`. -/
def MayRegion (l : List (List Char)) : Prop := l = [] ∨ ∃ t, l = [t] ∧ (Letters 2 2 t ∨ Figures 3 3 t)

/-- `variant = 5*8alphanum / (DIGIT 3alphanum)`. -/
def IsVariant (t : List Char) : Prop :=
  Alphanumeric 5 8 t ∨ ∃ d r, t = d :: r ∧ d.isDigit = true ∧ Alphanumeric 3 3 r

/-- `extension = singleton 1*("-" (2*8alphanum))`, where the singleton is not `x`. -/
def IsExtension (l : List (List Char)) : Prop :=
  ∃ s ts, l = [s] :: ts ∧ s.isAlphanum = true ∧ s ∉ ['x', 'X'] ∧ ts ≠ [] ∧ ∀ t ∈ ts, Alphanumeric 2 8 t

/-- `privateuse = "x" 1*("-" (1*8alphanum))`. -/
def IsPrivateUse (l : List (List Char)) : Prop :=
  ∃ s ts, l = [s] :: ts ∧ s ∈ ['x', 'X'] ∧ ts ≠ [] ∧ ∀ t ∈ ts, Alphanumeric 1 8 t

/-- `langtag = language ["-" script] ["-" region] *("-" variant) *("-" extension) ["-" privateuse]`. -/
def IsLangtag (l : List (List Char)) : Prop :=
  ∃ language script region variants extensions privateUse,
    l = language ++ script ++ region ++ variants ++ List.flatten extensions ++ privateUse ∧
    IsLanguage language ∧ MayScript script ∧ MayRegion region ∧ (∀ t ∈ variants, IsVariant t) ∧
    (∀ e ∈ extensions, IsExtension e) ∧ (privateUse = [] ∨ IsPrivateUse privateUse)

/-- `irregular` and `regular`. -/
def grandfathered : List String :=
  ["en-GB-oed", "i-ami", "i-bnn", "i-default", "i-enochian", "i-hak", "i-klingon", "i-lux", "i-mingo", "i-navajo", "i-pwn", "i-tao",
   "i-tay", "i-tsu", "sgn-BE-FR", "sgn-BE-NL", "sgn-CH-DE",
   "art-lojban", "cel-gaulish", "no-bok", "no-nyn", "zh-guoyu", "zh-hakka", "zh-min", "zh-min-nan", "zh-xiang"]

/-- The texts differ at most in the case of (ASCII) letters. -/
def SameLetters (s s' : String) : Prop := s.toList.map Char.toLower = s'.toList.map Char.toLower

/-- The subtags, with hyphens between them. -/
def Hyphenated (s : String) (l : List (List Char)) : Prop :=
  s.toList = List.intercalate ['-'] l ∧ l ≠ [] ∧ ∀ t ∈ l, '-' ∉ t

/-- `Language-Tag = langtag / privateuse / grandfathered`. -/
def WellFormed (s : String) : Prop :=
  (∃ l, Hyphenated s l ∧ (IsLangtag l ∨ IsPrivateUse l)) ∨ ∃ g ∈ grandfathered, SameLetters s g

/-! ### Formatting (section 2.1.1) -/

/-- "All subtags, including extension and private use subtags, use lowercase letters with two exceptions. First, two-letter subtags that
neither appear at the start of the tag nor occur after singletons are all uppercase. Second, four-letter subtags that neither appear
at the start of the tag nor occur after singletons are titlecase." Here for the subtags after the first one. -/
def casedAfter (singleton : Bool) : List (List Char) → List (List Char)
  | [] => []
  | t :: ts =>
    (if singleton = false ∧ t.length = 2 ∧ t.all Char.isAlpha then t.map Char.toUpper
     else if singleton = false ∧ t.length = 4 ∧ t.all Char.isAlpha then (t.take 1).map Char.toUpper ++ (t.drop 1).map Char.toLower
     else t.map Char.toLower) :: casedAfter (singleton || t.length = 1) ts

@[inherit_doc casedAfter] def cased : List (List Char) → List (List Char)
  | [] => []
  | t :: ts => t.map Char.toLower :: casedAfter (t.length = 1) ts

/-- The second text is the first one, with the recommended case of letters. -/
def Formatted (s s' : String) : Prop := ∃ l, Hyphenated s l ∧ Hyphenated s' (cased l)

/-! ### What is accepted besides -/

/-- `x-` and letters, digits and hyphens in any order. -/
def LoosePrivateUse (s : String) : Prop :=
  ∃ x cs, s.toList = x :: '-' :: cs ∧ x ∈ ['x', 'X'] ∧ cs ≠ [] ∧ ∀ c ∈ cs, c.isAlphanum = true ∨ c = '-'

end Wot.Rfc5646
