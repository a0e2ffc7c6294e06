import Verif.Model.Json
import Verif.Model.Security
/-
When a custom security scheme looks like a predefined one: its name is the name of a predefined scheme
and its members are acceptable for that scheme.
-/
namespace Wot

/-- The members of an object; nothing else has members. -/
def Json.ownMembers : Json → List (String × Json)
  | .obj m => m
  | _ => []

/-- A text. -/
def IsText (v : Json) : Prop := ∃ s, v = .str s

/-- One text, or an array of texts. -/
def IsTexts (v : Json) : Prop := IsText v ∨ ∃ l : List String, v = .arr (l.map .str)

/-- One of the names, or an object with that member only, which is `null` or an empty object. -/
def IsNameIn (names : List String) (v : Json) : Prop :=
  ∃ n ∈ names, v = .str n ∨ v = .obj [(n, .null)] ∨ v = .obj [(n, .obj [])]

/-- If there is such a member, its value is as it should be. -/
def IfMember (m : List (String × Json)) (k : String) (P : Json → Prop) : Prop :=
  ∀ v, (k, v) ∈ m → P v

/-- The same for members which can also be `null`. -/
def IfNotNull (m : List (String × Json)) (k : String) (P : Json → Prop) : Prop :=
  ∀ v, (k, v) ∈ m → v ≠ .null → P v

/-- There is such a member, and its value is as it should be. -/
def HasMember (m : List (String × Json)) (k : String) (P : Json → Prop) : Prop :=
  ∃ v, (k, v) ∈ m ∧ P v

/-- The members of a scheme with a location and a name. -/
def LooksLocated (m : List (String × Json)) : Prop :=
  IfMember m "in" (IsNameIn ["header", "query", "body", "cookie", "uri"]) ∧ IfNotNull m "name" IsText

/-- A scheme of this name with these members looks like a predefined one. -/
inductive LooksPredefined : String → List (String × Json) → Prop
  | nosec {m : List (String × Json)} : LooksPredefined "nosec" m
  | auto {m : List (String × Json)} : LooksPredefined "auto" m
  | oneOf {v : Json} : IsTexts v → LooksPredefined "combo" [("oneOf", v)]
  | allOf {v : Json} : IsTexts v → LooksPredefined "combo" [("allOf", v)]
  | basic {m : List (String × Json)} : LooksLocated m → LooksPredefined "basic" m
  | apikey {m : List (String × Json)} : LooksLocated m → LooksPredefined "apikey" m
  | digest {m : List (String × Json)} : LooksLocated m → HasMember m "qop" (IsNameIn ["auth", "auth-int"]) →
      LooksPredefined "digest" m
  | bearer {m : List (String × Json)} : LooksLocated m → IfNotNull m "authorization" IsText →
      IfMember m "alg" IsText → IfMember m "format" IsText → LooksPredefined "bearer" m
  | psk {m : List (String × Json)} : IfNotNull m "identity" IsText → LooksPredefined "psk" m
  | oauth2 {m : List (String × Json)} : IfNotNull m "authorization" IsText →
      IfNotNull m "token" IsText → IfNotNull m "refresh" IsText → IfNotNull m "scopes" IsTexts →
      HasMember m "flow" IsText → LooksPredefined "oauth2" m

end Wot
