import Verif.Spec.Reading
import Verif.Spec.Storable
import Verif.Spec.Operations
/-
Which documents can be read: a grammar of Thing Description documents, as far as reading insists on it.
-/
namespace Wot
namespace Doc

/-! ### Values -/

def Any (_ : Json) : Prop := True

def Flag (v : Json) : Prop := ∃ b, v = .bool b

/-- An array of such values. -/
def ArrayOf (P : Json → Prop) (v : Json) : Prop := ∃ l, v = .arr l ∧ ∀ x ∈ l, P x

/-- An object whose members, whatever their names, have such values. -/
def MapOf (P : Json → Prop) (v : Json) : Prop := ∃ m, v = .obj m ∧ ∀ kv ∈ m, P kv.2

/-- One such value, or an array of them. -/
def OneOrMany (P : Json → Prop) (v : Json) : Prop := P v ∨ ArrayOf P v

/-- An object from language tags to texts. -/
def Translations (env : SerdeEnv) (v : Json) : Prop :=
  ∃ m, v = .obj m ∧ ∀ kv ∈ m, (∃ tag, env.langRead kv.1 = some tag) ∧ IsText kv.2

/-- A date and time. -/
def Instant (env : SerdeEnv) (v : Json) : Prop := ∃ s d, v = .str s ∧ env.timeParse s = some d

/-- A language tag. -/
def Tag (env : SerdeEnv) (v : Json) : Prop := ∃ s tag, v = .str s ∧ env.langRead s = some tag

/-- The name of an operation, or an object with that member only, which is `null`. -/
def Operation (v : Json) : Prop := ∃ n ∈ standardOperations, v = .str n ∨ v = .obj [(n, .null)]

/-- One operation or an array; in an array, empty objects can stand instead of `null`. -/
def Operations (v : Json) : Prop := Operation v ∨ ArrayOf (IsNameIn standardOperations) v

/-- There is at most one member `k`; its value is as it should be, and cannot be `null`. -/
def Given (k : String) (es : Members) (P : Json → Prop) : Prop :=
  occ k es = [] ∨ ∃ v, occ k es = [v] ∧ P v

/-- The extension accepts the members that are not in `K`. -/
def Extra {A : Type} (c : ExtCodec A) (K : List String) (es : Members) : Prop :=
  ∃ a, c.de (es.filter fun kv => !K.contains kv.1) = some a

/-! ### Security schemes -/

/-- The predefined schemes, in the order of their declaration. -/
def schemes : List String :=
  ["nosec", "auto", "combo", "basic", "digest", "bearer", "psk", "oauth2", "apikey"]

/-- The members of a scheme with a location and a name. -/
def Located (es : Members) : Prop :=
  Given "in" es (IsNameIn ["header", "query", "body", "cookie", "uri"]) ∧ AtMostOne "name" es IsText

/-- Members that the predefined scheme of this name can have; those of all definitions are not counted. -/
inductive Predefined : String → Members → Prop
  | nosec {es : Members} : Predefined "nosec" es
  | auto {es : Members} : Predefined "auto" es
  | oneOf {v : Json} : IsTexts v → Predefined "combo" [("oneOf", v)]
  | allOf {v : Json} : IsTexts v → Predefined "combo" [("allOf", v)]
  | basic {es : Members} : Located es → Predefined "basic" es
  | apikey {es : Members} : Located es → Predefined "apikey" es
  | digest {es : Members} : HasOne "qop" es (IsNameIn ["auth", "auth-int"]) → Located es → Predefined "digest" es
  | bearer {es : Members} : AtMostOne "authorization" es IsText → Given "alg" es IsText →
      Given "format" es IsText → Located es → Predefined "bearer" es
  | psk {es : Members} : AtMostOne "identity" es IsText → Predefined "psk" es
  | oauth2 {es : Members} : AtMostOne "authorization" es IsText → AtMostOne "token" es IsText →
      AtMostOne "refresh" es IsText → AtMostOne "scopes" es IsTexts → HasOne "flow" es IsText →
      Predefined "oauth2" es

/-- The members of a definition that belong to its scheme. -/
def schemeMembers (es : Members) : Members :=
  es.filter fun kv => !("scheme" :: Names.security).contains kv.1

/-- The name of the scheme; a number stands for a predefined scheme. -/
inductive SchemeName (es : Members) : Prop
  | text : HasOne "scheme" es IsText → SchemeName es
  | number (n : Nat) (s : String) : HasOne "scheme" es (· = .num (.pos n)) → schemes[n]? = some s →
      Predefined s (schemeMembers es) → SchemeName es

/-- A security definition. -/
structure Security (env : SerdeEnv) (es : Members) : Prop where
  attype : AtMostOne "@type" es IsTexts
  description : AtMostOne "description" es IsText
  descriptions : AtMostOne "descriptions" es (Translations env)
  proxy : AtMostOne "proxy" es IsText
  scheme : SchemeName es

/-! ### Data schemas -/

/-- The members of a data schema, besides `oneOf` and those of extensions. Nothing is required of the members
that depend on the type. -/
structure SchemaHead (env : SerdeEnv) (es : Members) : Prop where
  attype : AtMostOne "@type" es IsTexts
  title : AtMostOne "title" es IsText
  titles : AtMostOne "titles" es (Translations env)
  description : AtMostOne "description" es IsText
  descriptions : AtMostOne "descriptions" es (Translations env)
  constant : AtMostOne "const" es Any
  default : AtMostOne "default" es Any
  unit : AtMostOne "unit" es IsText
  oneOf : AtMostOne "oneOf" es (ArrayOf Any)
  enumeration : AtMostOne "enum" es (ArrayOf Any)
  readOnly : Given "readOnly" es Flag
  writeOnly : Given "writeOnly" es Flag
  format : AtMostOne "format" es IsText

/-- A data schema. -/
inductive Schema (env : SerdeEnv) {A : Type} (C : ExtCodec A) : Json → Prop
  | mk {es : Members} : SchemaHead env es → Extra C Names.schemaHead es →
      (∀ l v, ("oneOf", .arr l) ∈ es → v ∈ l → Schema env C v) → Schema env C (.obj es)

/-! ### Forms and links -/

/-- An object with such members. -/
def Object (P : Members → Prop) (v : Json) : Prop := ∃ es, v = .obj es ∧ P es

/-- `null`, or such a value. -/
def OrNull (P : Json → Prop) (v : Json) : Prop := v = .null ∨ P v

/-- The expected response of a form. -/
structure Response {A : Type} (C : ExtCodec A) (es : Members) : Prop where
  contentType : HasOne "contentType" es IsText
  other : Extra C ["contentType"] es

/-- An additional response: an object, or an array of the three values. -/
def Additional (v : Json) : Prop :=
  (∃ es, v = .obj es ∧ Given "success" es Flag ∧ AtMostOne "contentType" es IsText ∧ AtMostOne "schema" es IsText) ∨
  ∃ a b c, v = .arr [a, b, c] ∧ Flag a ∧ OrNull IsText b ∧ OrNull IsText c

variable {X : ExtTypes} (env : SerdeEnv) (C : ExtCodecs X)

/-- A form. -/
structure Form (es : Members) : Prop where
  op : AtMostOne "op" es Operations
  href : HasOne "href" es IsText
  contentType : AtMostOne "contentType" es IsText
  contentCoding : AtMostOne "contentCoding" es IsText
  subprotocol : AtMostOne "subprotocol" es IsText
  security : AtMostOne "security" es IsTexts
  scopes : AtMostOne "scopes" es IsTexts
  response : AtMostOne "response" es (Object (Response C.response))
  additionalResponses : AtMostOne "additionalResponses" es (OneOrMany Additional)
  other : Extra C.form Names.form es

/-- A link: an object, or an array of the values, of which the last can be left out. -/
def Link (v : Json) : Prop :=
  (∃ es, v = .obj es ∧ HasOne "href" es IsText ∧ AtMostOne "type" es IsText ∧ AtMostOne "rel" es IsText ∧
    AtMostOne "anchor" es IsText ∧ AtMostOne "sizes" es IsText ∧ AtMostOne "hreflang" es (OneOrMany (Tag env))) ∨
  ∃ h t r a s last, v = .arr (h :: t :: r :: a :: s :: last) ∧ IsText h ∧ OrNull IsText t ∧ OrNull IsText r ∧
    OrNull IsText a ∧ OrNull IsText s ∧ (last = [] ∨ ∃ l, last = [l] ∧ OrNull (OneOrMany (Tag env)) l)

/-! ### Affordances -/

/-- A data schema with the extensions of a Thing. -/
abbrev DS : Json → Prop := Schema env C.dataSchema

/-- The members of all affordances; `K` are names of members that do not concern it. -/
structure Interaction (K : List String) (es : Members) : Prop where
  attype : AtMostOne "@type" es IsTexts
  title : AtMostOne "title" es IsText
  titles : AtMostOne "titles" es (Translations env)
  description : AtMostOne "description" es IsText
  descriptions : AtMostOne "descriptions" es (Translations env)
  forms : HasOne "forms" es (ArrayOf (Object (Form C)))
  uriVariables : AtMostOne "uriVariables" es (MapOf (DS env C))
  other : Extra C.interaction (K ++ Names.interaction) es

/-- A property. -/
structure Property (es : Members) : Prop where
  interaction : Interaction env C ["observable"] es
  head : SchemaHead env es
  extension : Extra C.dataSchema ("observable" :: Names.schemaHead) es
  oneOf : ∀ l v, ("oneOf", .arr l) ∈ es → v ∈ l → DS env C v
  observable : AtMostOne "observable" es Flag
  other : Extra C.property ["observable"] es

/-- An action. -/
structure Action (es : Members) : Prop where
  interaction : Interaction env C Names.action es
  input : AtMostOne "input" es (DS env C)
  output : AtMostOne "output" es (DS env C)
  safe : Given "safe" es Flag
  idempotent : Given "idempotent" es Flag
  synchronous : AtMostOne "synchronous" es Flag
  other : Extra C.action Names.action es

/-- An event. -/
structure Event (es : Members) : Prop where
  interaction : Interaction env C Names.event es
  subscription : AtMostOne "subscription" es (DS env C)
  data : AtMostOne "data" es (DS env C)
  dataResponse : AtMostOne "data_response" es (DS env C)
  cancellation : AtMostOne "cancellation" es (DS env C)
  other : Extra C.event Names.event es

/-! ### Things -/

/-- Version information: an object, or an array of the two values. -/
def Version (v : Json) : Prop :=
  (∃ es, v = .obj es ∧ HasOne "instance" es IsText ∧ AtMostOne "model" es IsText) ∨
  ∃ a b, v = .arr [a, b] ∧ IsText a ∧ OrNull IsText b

/-- A Thing. -/
structure Thing (es : Members) : Prop where
  context : Given "@context" es Any
  id : AtMostOne "id" es IsText
  attype : AtMostOne "@type" es IsTexts
  title : HasOne "title" es IsText
  titles : AtMostOne "titles" es (Translations env)
  description : AtMostOne "description" es IsText
  descriptions : AtMostOne "descriptions" es (Translations env)
  version : AtMostOne "version" es Version
  created : AtMostOne "created" es (Instant env)
  modified : AtMostOne "modified" es (Instant env)
  support : AtMostOne "support" es IsText
  base : AtMostOne "base" es IsText
  properties : AtMostOne "properties" es (MapOf (Object (Property env C)))
  actions : AtMostOne "actions" es (MapOf (Object (Action env C)))
  events : AtMostOne "events" es (MapOf (Object (Event env C)))
  links : AtMostOne "links" es (ArrayOf (Link env))
  forms : AtMostOne "forms" es (ArrayOf (Object (Form C)))
  security : HasOne "security" es IsTexts
  securityDefinitions : HasOne "securityDefinitions" es (MapOf (Object (Security env)))
  uriVariables : AtMostOne "uriVariables" es (MapOf (DS env C))
  profile : AtMostOne "profile" es IsTexts
  schemaDefinitions : AtMostOne "schemaDefinitions" es (MapOf (DS env C))
  other : Extra C.thing Names.thing es

end Doc
end Wot
