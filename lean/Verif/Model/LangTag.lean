import Verif.Model.Thing
/-
Language tags: `oxilangtag` 0.1 (`Cargo.toml`), used by `src/builder.rs:1782-1791` and `3015` (`str::parse`) and by serde for
`MultiLanguage` and `Link::hreflang` (`src/thing.rs:30, 1458`). `oxilangtag` is a dependency: this file follows its source from memory,
and is part of the trusted base of the properties that use it.

Simplifications: lengths are counted in characters and not in bytes; a text with characters that are not ASCII is refused either way.
Errors are not told apart, and the positions of the parts of a tag, which the crate does not use, are left out.
-/
namespace Wot.LangTag

/-- `str::split('-')`. -/
def subtags : List Char → List (List Char)
  | [] => [[]]
  | c :: cs =>
    if c = '-' then [] :: subtags cs
    else match subtags cs with
      | [] => [[c]]
      | t :: ts => (c :: t) :: ts

/-- The subtags with `-` between them, as the output buffer collects them. -/
def join : List (List Char) → List Char
  | [] => []
  | [t] => t
  | t :: ts => t ++ '-' :: join ts

/-- `to_lowercase`, `to_uppercase`, `to_uppercase_first`. -/
def lower (t : List Char) : List Char := t.map Char.toLower
@[inherit_doc lower] def upper (t : List Char) : List Char := t.map Char.toUpper
@[inherit_doc lower] def title : List Char → List Char
  | [] => []
  | c :: t => c.toUpper :: lower t

/-- `is_alphabetic`, `is_numeric`, `is_alphanumeric`. -/
def alphabetic (t : List Char) : Bool := t.all Char.isAlpha
@[inherit_doc alphabetic] def numeric (t : List Char) : Bool := t.all Char.isDigit
@[inherit_doc alphabetic] def alphanumeric (t : List Char) : Bool := t.all Char.isAlphanum

/-- The `State` of `parse_langtag`, with the number of extended languages so far. -/
inductive State
  | start
  | afterLanguage (extlangs : Nat)
  | afterExtLang
  | afterScript
  | afterRegion
  | inExtension (expected : Bool)
  | inPrivateUse (expected : Bool)
  deriving DecidableEq

/-- A script may follow. -/
def State.beforeScript : State → Bool
  | .afterLanguage _ | .afterExtLang => true
  | _ => false

/-- A region may follow. -/
def State.beforeRegion (st : State) : Bool := st.beforeScript || st = .afterScript

/-- A variant may follow. -/
def State.beforeVariant (st : State) : Bool := st.beforeRegion || st = .afterRegion

/-- The loop body of `parse_langtag`: the next state, and the subtag as it is written to the output. -/
def step (st : State) (t : List Char) : Option (State × List Char) :=
  if t.length = 0 ∨ 8 < t.length then none
  else if st = .start then
    if t.length < 2 ∨ alphabetic t = false then none
    else some (if t.length < 4 then .afterLanguage 0 else .afterExtLang, lower t)
  else if st = .inPrivateUse true ∨ st = .inPrivateUse false then
    if alphanumeric t = false then none else some (.inPrivateUse false, lower t)
  else if t = ['x'] ∨ t = ['X'] then
    if st = .inExtension true then none else some (.inPrivateUse true, ['x'])
  else if t.length = 1 ∧ alphanumeric t = true then
    if st = .inExtension true then none else some (.inExtension true, lower t)
  else if st = .inExtension true ∨ st = .inExtension false then
    if alphanumeric t = false then none else some (.inExtension false, lower t)
  else match st, decide (t.length = 3) && alphabetic t with
    | .afterLanguage n, true => if n + 1 > 3 then none else some (.afterLanguage (n + 1), lower t)
    | _, _ =>
      if st.beforeScript ∧ t.length = 4 ∧ alphabetic t = true then some (.afterScript, title t)
      else if st.beforeRegion ∧ (t.length = 2 ∧ alphabetic t = true ∨ t.length = 3 ∧ numeric t = true) then
        some (.afterRegion, upper t)
      else if st.beforeVariant ∧ alphanumeric t = true ∧
          (5 ≤ t.length ∧ alphabetic (t.take 1) = true ∨ 4 ≤ t.length ∧ numeric (t.take 1) = true) then
        some (.afterRegion, lower t)
      else none

/-- The loop of `parse_langtag`, and the check of the final state. -/
def run (st : State) : List (List Char) → Option (List (List Char))
  | [] => if st = .inExtension true ∨ st = .inPrivateUse true then none else some []
  | t :: ts =>
    match step st t with
    | none => none
    | some (st', out) => (run st' ts).map (out :: ·)

/-- `GRANDFATHEREDS`. -/
def grandfathered : List String :=
  ["art-lojban", "cel-gaulish", "en-GB-oed", "i-ami", "i-bnn", "i-default", "i-enochian", "i-hak", "i-klingon", "i-lux", "i-mingo",
   "i-navajo", "i-pwn", "i-tao", "i-tay", "i-tsu", "no-bok", "no-nyn", "sgn-BE-FR", "sgn-BE-NL", "sgn-CH-DE", "zh-guoyu",
   "zh-hakka", "zh-min", "zh-min-nan", "zh-xiang"]

/-- `parse_language_tag`: the output. -/
def parseTag (cs : List Char) : Option (List Char) :=
  match grandfathered.find? fun g => lower g.toList = lower cs with
  | some g => some g.toList
  | none =>
    if cs.take 2 = ['x', '-'] ∨ cs.take 2 = ['X', '-'] then
      if cs.all (fun c => c.isAlphanum || c == '-') = false then none
      else if cs.length = 2 then none
      else some (lower cs)
    else (run .start (subtags cs)).map join

/-- `LanguageTag::parse_and_normalize`, which is `FromStr for LanguageTag<String>`: the text of the tag. -/
def normalize (tag : String) : Option String := (parseTag tag.toList).map String.ofList

/-- `LanguageTag::parse`, which `Deserialize for LanguageTag<String>` uses: the text is kept. -/
def check (tag : String) : Option String := (parseTag tag.toList).map fun _ => tag

end Wot.LangTag
