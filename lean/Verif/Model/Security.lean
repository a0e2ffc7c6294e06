import Verif.Model.SchemaBuilder
/-
Security schemes (`src/thing.rs:1106–1430`) and their builder (`src/builder.rs:1852–2577`,
`2949–2985`).
-/
namespace Wot

/-- `SecurityAuthenticationLocation` (`src/thing.rs:1236–1256`). -/
inductive SecLocation
  | header | query | body | cookie | uri
  deriving DecidableEq

/-- `QualityOfProtection` (`src/thing.rs:1295–1302`). -/
inductive QoP
  | auth | authInt
  deriving DecidableEq

/-- `ComboSecurityScheme` (`src/thing.rs:1202–1210`). -/
inductive ComboScheme
  | oneOf (names : List String)
  | allOf (names : List String)
  deriving DecidableEq

/-- `BasicSecurityScheme` with its `Default` (`src/thing.rs:1215–1231`). -/
structure BasicScheme where
  location : SecLocation := .header
  name : Option String := none
  deriving DecidableEq

/-- `DigestSecurityScheme` with its `Default` (`src/thing.rs:1270–1290`). -/
structure DigestScheme where
  qop : QoP := .auth
  location : SecLocation := .header
  name : Option String := none
  deriving DecidableEq

/-- `ApiKeySecurityScheme` with its `Default` (`src/thing.rs:1307–1323`). -/
structure ApiKeyScheme where
  location : SecLocation := .query
  name : Option String := none
  deriving DecidableEq

/-- `BearerSecurityScheme` with its `Default` (`src/thing.rs:1328–1369`). -/
structure BearerScheme where
  authorization : Option String := none
  alg : String := "ES256"
  format : String := "jwt"
  location : SecLocation := .header
  name : Option String := none
  deriving DecidableEq

/-- `PskSecurityScheme` (`src/thing.rs:1374–1377`). -/
structure PskScheme where
  identity : Option String := none
  deriving DecidableEq

/-- `OAuth2SecurityScheme` (`src/thing.rs:1386–1412`); `OAuth2Scheme.mk flow` defaults are
`OAuth2SecurityScheme::new` (`src/thing.rs:1416–1425`). -/
structure OAuth2Scheme where
  authorization : Option String := none
  token : Option String := none
  refresh : Option String := none
  scopes : Option (List String) := none
  flow : String
  deriving DecidableEq

/-- `KnownSecuritySchemeSubtype` (`src/thing.rs:1135–1168`). -/
inductive KnownScheme
  | noSec
  | auto
  | combo (c : ComboScheme)
  | basic (s : BasicScheme)
  | digest (s : DigestScheme)
  | bearer (s : BearerScheme)
  | psk (s : PskScheme)
  | oauth2 (s : OAuth2Scheme)
  | apiKey (s : ApiKeyScheme)
  deriving DecidableEq

/-- `SecuritySchemeSubtype` and `UnknownSecuritySchemeSubtype` (`src/thing.rs:1172–1190`). -/
inductive SchemeSubtype
  | known (k : KnownScheme)
  | unknown (scheme : String) (data : Json)
  deriving DecidableEq

/-- `SecurityScheme` (`src/thing.rs:1110–1130`) for `L = MultiLanguage`, `UncheckedSecurityScheme`
(`src/builder.rs:2949–2955`) for `L = MultiLanguageBuilder`. -/
structure SecuritySchemeF (L : Type) where
  attype : Option (List String)
  description : Option String
  descriptions : Option L
  proxy : Option String
  subtype : SchemeSubtype
  deriving DecidableEq

abbrev SecurityScheme := SecuritySchemeF MultiLanguage
abbrev UncheckedSecurityScheme := SecuritySchemeF MultiLanguageBuilder

/-- `TryFrom<UncheckedSecurityScheme> for SecurityScheme` (`src/builder.rs:2957–2985`). -/
def UncheckedSecurityScheme.tryInto (env : Env) (s : UncheckedSecurityScheme) :
    Except Error SecurityScheme := do
  let descriptions ← buildLang env s.descriptions
  pure { attype := s.attype, description := s.description, descriptions, proxy := s.proxy,
         subtype := s.subtype }

/-- The default name of a security definition (`src/builder.rs:1359–1373`). -/
def SchemeSubtype.defaultName : SchemeSubtype → String
  | .known .noSec => "nosec"
  | .known .auto => "auto"
  | .known (.combo _) => "combo"
  | .known (.basic _) => "basic"
  | .known (.digest _) => "digest"
  | .known (.bearer _) => "bearer"
  | .known (.psk _) => "psk"
  | .known (.oauth2 _) => "oauth2"
  | .known (.apiKey _) => "apikey"
  | .unknown scheme _ => scheme

/-- The names listed by a combo scheme (`src/builder.rs:807–816`). -/
def SchemeSubtype.comboNames : SchemeSubtype → List String
  | .known (.combo (.oneOf names)) => names
  | .known (.combo (.allOf names)) => names
  | _ => []

/-- The type parameter `S` of `SecuritySchemeBuilder<S>` (`src/builder.rs:1870–1901`), as data. -/
inductive SecTag
  | unset
  | noSec
  | auto
  | emptyCombo
  | allOf (names : List String)
  | oneOf (names : List String)
  | basic (s : BasicScheme)
  | digest (s : DigestScheme)
  | bearer (s : BearerScheme)
  | psk (s : PskScheme)
  | oauth2 (s : OAuth2Scheme)
  | apiKey (s : ApiKeyScheme)
  | custom (scheme : String) (data : Json)
  deriving DecidableEq

/-- `SecuritySchemeBuilder<S>` (`src/builder.rs:1870–1878`). -/
structure SecuritySchemeBuilder (S : Type) where
  attype : Option (List String) := none
  description : Option String := none
  descriptions : Option MultiLanguageBuilder := none
  proxy : Option String := none
  name : Option String := none
  subtype : S
  required : Bool := false

/-- The calls on a security scheme builder (`src/builder.rs:1908–2574`). -/
inductive SecOp
  | noSec | auto | combo | basic | digest | bearer | psk
  | oauth2 (flow : String) | apiKey | custom (scheme : String)
  | attype (v : String) | description (v : String) | descriptions (calls : List (String × String))
  | proxy (v : String) | withKey (v : String) | required
  | name (v : String) | location (v : SecLocation)
  | allOf (l : List String) | oneOf (l : List String) | extend (l : List String) | push (v : String)
  | qop (v : QoP) | authorization (v : String) | alg (v : String) | format (v : String)
  | token (v : String) | refresh (v : String) | scope (v : String) | data (v : Json)

/-- The calls that only change the type parameter (`src/builder.rs:1908–2160, 2340–2420,
2452–2574`); `none` if the call does not type check. Combo `name` is in `SecOp.apply`. -/
def SecTag.apply : SecTag → SecOp → Option SecTag
  | .unset, .noSec => some .noSec
  | .unset, .auto => some .auto
  | .unset, .combo => some .emptyCombo
  | .unset, .basic => some (.basic {})
  | .unset, .digest => some (.digest {})
  | .unset, .bearer => some (.bearer {})
  | .unset, .psk => some (.psk {})
  | .unset, .oauth2 flow => some (.oauth2 { flow })
  | .unset, .apiKey => some (.apiKey {})
  | .unset, .custom scheme => some (.custom scheme .null)
  | .emptyCombo, .allOf l => some (.allOf l)
  | .emptyCombo, .oneOf l => some (.oneOf l)
  | .allOf l, .extend l' => some (.allOf (l ++ l'))
  | .oneOf l, .extend l' => some (.oneOf (l ++ l'))
  | .allOf l, .push v => some (.allOf (l ++ [v]))
  | .oneOf l, .push v => some (.oneOf (l ++ [v]))
  | .basic s, .name v => some (.basic { s with name := some v })
  | .basic s, .location v => some (.basic { s with location := v })
  | .digest s, .name v => some (.digest { s with name := some v })
  | .digest s, .location v => some (.digest { s with location := v })
  | .digest s, .qop v => some (.digest { s with qop := v })
  | .apiKey s, .name v => some (.apiKey { s with name := some v })
  | .apiKey s, .location v => some (.apiKey { s with location := v })
  | .bearer s, .name v => some (.bearer { s with name := some v })
  | .bearer s, .location v => some (.bearer { s with location := v })
  | .bearer s, .authorization v => some (.bearer { s with authorization := some v })
  | .bearer s, .alg v => some (.bearer { s with alg := v })
  | .bearer s, .format v => some (.bearer { s with format := v })
  | .oauth2 s, .authorization v => some (.oauth2 { s with authorization := some v })
  | .oauth2 s, .token v => some (.oauth2 { s with token := some v })
  | .oauth2 s, .refresh v => some (.oauth2 { s with refresh := some v })
  | .oauth2 s, .scope v => some (.oauth2 { s with scopes := optPush s.scopes v })
  | .custom scheme _, .data v => some (.custom scheme v)
  | _, _ => none

/-- The tags of combo builders, whose `name` sets the definition name
(`src/builder.rs:2481–2485, 2508–2512`). -/
def SecTag.isCombo : SecTag → Bool
  | .emptyCombo => true
  | .allOf _ => true
  | .oneOf _ => true
  | _ => false

/-- A call on a security scheme builder (`src/builder.rs:1908–2574`); `none` if it does not type
check. -/
def SecuritySchemeBuilder.apply (b : SecuritySchemeBuilder SecTag) :
    SecOp → Option (SecuritySchemeBuilder SecTag)
  | .attype v => some { b with attype := optPush b.attype v }
  | .description v => some { b with description := some v }
  | .descriptions c => some { b with descriptions := some (.ofCalls c) }
  | .proxy v => some { b with proxy := some v }
  | .withKey v => some { b with name := some v }
  | .required => some { b with required := true }
  | .name v =>
    if b.subtype.isCombo then some { b with name := some v }
    else (b.subtype.apply (.name v)).map fun t => { b with subtype := t }
  | op => (b.subtype.apply op).map fun t => { b with subtype := t }

/-- `BuildableSecuritySchemeSubtype::build` (`src/builder.rs:2206–2270`); `none` where the trait is
not implemented. -/
def SecTag.build : SecTag → Option SchemeSubtype
  | .unset => none
  | .noSec => some (.known .noSec)
  | .auto => some (.known .auto)
  | .emptyCombo => none
  | .allOf l => some (.known (.combo (.allOf l)))
  | .oneOf l => some (.known (.combo (.oneOf l)))
  | .basic s => some (.known (.basic s))
  | .digest s => some (.known (.digest s))
  | .bearer s => some (.known (.bearer s))
  | .psk s => some (.known (.psk s))
  | .oauth2 s => some (.known (.oauth2 s))
  | .apiKey s => some (.known (.apiKey s))
  | .custom scheme data => some (.unknown scheme data)

/-- Running the closure given to `ThingBuilder::security` on the initial builder
(`src/builder.rs:1331–1349`), given by the calls it makes; `none` if it does not type check. -/
def SecuritySchemeBuilder.ofCalls (calls : List SecOp) : Option (SecuritySchemeBuilder SchemeSubtype) := do
  let b ← calls.foldlM SecuritySchemeBuilder.apply { subtype := .unset }
  let s ← b.subtype.build
  pure { attype := b.attype, description := b.description, descriptions := b.descriptions,
         proxy := b.proxy, name := b.name, subtype := s, required := b.required }

/-- The name under which `ThingBuilder::security` registers the scheme (`src/builder.rs:1359–1373`). -/
def SecuritySchemeBuilder.defName (b : SecuritySchemeBuilder SchemeSubtype) : String :=
  b.name.getD b.subtype.defaultName

/-- The scheme `ThingBuilder::security` registers (`src/builder.rs:1350–1357`). -/
def SecuritySchemeBuilder.scheme (b : SecuritySchemeBuilder SchemeSubtype) :
    UncheckedSecurityScheme :=
  { attype := b.attype, description := b.description, descriptions := b.descriptions,
    proxy := b.proxy, subtype := b.subtype }

end Wot
