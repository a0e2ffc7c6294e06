import Verif.Spec.Valid
import Verif.Spec.SchemaShape
import Verif.Spec.Stored
/-
Which Things can be made with a builder, said of the Thing alone.
-/
namespace Wot

variable {X : ExtTypes} {L D A O : Type}

/-- `tag` is what some text is parsed to. -/
def IsTag (env : Env) (tag : String) : Prop := ∃ k, env.langParse k = some tag

/-- The keys of the translations are language tags. (A model map is sorted; this is no condition on
Rust values, see `HMap`.) -/
structure MultiLanguage.Made (env : Env) (m : MultiLanguage) : Prop where
  sorted : HMap.Sorted m.map
  tags : ∀ tag ∈ HMap.keys m.map, IsTag env tag

/-- A map that is there is not empty. (And sorted, see `HMap`.) -/
def MapMade {V : Type} (o : Option (HMap V)) : Prop := ∀ m, o = some m → m ≠ [] ∧ HMap.Sorted m

/-- `c` is directly nested in `s`. -/
inductive Child (c s : Schema L D A O) : Prop
  | oneOf {l : List (Schema L D A O)} : s.oneOf = some l → c ∈ l → Child c s
  | item {a : ArrayF A (Schema L D A O)} :
      s.subtype = some (.array a) → a.items = some (.elem c) → Child c s
  | items {a : ArrayF A (Schema L D A O)} {l : List (Schema L D A O)} :
      s.subtype = some (.array a) → a.items = some (.vec l) → c ∈ l → Child c s
  | property {o : ObjectF O (Schema L D A O)} {m : List (String × Schema L D A O)} {k : String} :
      s.subtype = some (.object o) → o.properties = some m → (k, c) ∈ m → Child c s

/-- A data schema says nothing about the values: no type, `oneOf`, `enum` or `const`. -/
def Schema.Open (x : Schema L D A O) : Prop :=
  x.subtype = none ∧ x.oneOf = none ∧ x.head.enumeration = none ∧ x.head.constant = none

/-- The members of one data schema, not looking at the nested ones, are such as builders make them. -/
structure SchemaMade (env : Env) (x : DataSchema D A O) : Prop extends SchemaShape x where
  attype : x.head.attype ≠ some []
  titles : ∀ m, x.head.titles = some m → m.Made env
  descriptions : ∀ m, x.head.descriptions = some m → m.Made env
  /-- model maps are sorted -/
  sorted : ∀ o m, x.subtype = some (.object o) → o.properties = some m → HMap.Sorted m
  /-- a schema that says nothing about the values has no other members either -/
  unspecified : x.Open → x.head.default = none ∧ x.head.unit = none ∧ x.head.format = none ∧
    x.head.readOnly = false ∧ x.head.writeOnly = false

/-- A schema that says nothing about the values has no human readable information. -/
def Uninformed (x : DataSchema D A O) : Prop :=
  x.Open → x.head.attype = none ∧ x.head.title = none ∧ x.head.titles = none ∧
    x.head.description = none ∧ x.head.descriptions = none

/-- The lists of a form that are there are not empty. -/
structure FormMade (f : Form X) : Prop where
  op : f.op ≠ .custom []
  security : f.security ≠ some []
  scopes : f.scopes ≠ some []
  additionalResponses : f.additionalResponses ≠ some []

/-- Pre-shared key schemes have no identity, and scopes that are there are not empty. -/
structure SchemeMade (s : SecurityScheme) : Prop where
  attype : s.attype ≠ some []
  psk : ∀ k, s.subtype = .known (.psk k) → k.identity = none
  scopes : ∀ o, s.subtype = .known (.oauth2 o) → o.scopes ≠ some []

/-- The links: sizes only for icons, languages are tags. -/
structure LinkMade (env : Env) (l : Link) : Prop where
  sizes : l.sizes ≠ none → l.rel = some "icon"
  hreflang : l.hreflang ≠ some []
  tags : ∀ ts, l.hreflang = some ts → ∀ tag ∈ ts, IsTag env tag

/-- One of the entries after the first of a context. -/
def ContextEntry (j : Json) : Prop :=
  (∃ s, s ≠ tdContext11 ∧ j = .str s) ∨
  (∃ m : HMap String, HMap.Sorted m ∧ j = .obj (HMap.mapVals Json.str m))

/-- The Things that can be made with a builder. -/
structure Buildable (env : Env) (t : Thing X) : Prop where
  /-- the context is the TD 1.1 context, possibly followed by others -/
  context : t.context = .str tdContext11 ∨
    ∃ l, l ≠ [] ∧ t.context = .arr (.str tdContext11 :: l) ∧ ∀ j ∈ l, ContextEntry j
  /-- lists and maps that are there are not empty -/
  attype : t.attype ≠ some []
  profile : t.profile ≠ some []
  links : t.links ≠ some []
  forms : t.forms ≠ some []
  properties : MapMade t.properties
  actions : MapMade t.actions
  events : MapMade t.events
  uriVariables : MapMade t.uriVariables
  schemaDefinitions : MapMade t.schemaDefinitions
  interactions : ∀ i, t.HasInteraction i → i.attype ≠ some [] ∧ MapMade i.uriVariables
  /-- a map, see `HMap` -/
  securityDefinitions : HMap.Sorted t.securityDefinitions
  /-- language keys are language tags -/
  translations : ∀ m, t.HasTranslations m → m.Made env
  /-- the rules for links -/
  eachLink : ∀ ls, t.links = some ls → ∀ l ∈ ls, LinkMade env l
  /-- the rules for forms -/
  eachForm : ∀ ctx f, t.HasForm ctx f → FormMade f ∧
    (∀ ops, f.op = .custom ops → ∀ o ∈ ops, o ∈ operationsOf ctx) ∧
    (∀ ns, f.security = some ns → ∀ n ∈ ns, t.Defines n)
  thingForms : ∀ f, t.HasForm .thing f → f.op ≠ .default ∧
    ∀ rs, f.additionalResponses = some rs → ∀ r ∈ rs, ∀ n, r.schema = some n → t.Declares n
  /-- the rules for security -/
  security : t.security.Nodup ∧ ∀ n ∈ t.security, t.Defines n
  eachScheme : ∀ n s, (n, s) ∈ t.securityDefinitions →
    SchemeMade s ∧ ∀ m, s.subtype.References m → t.Defines m
  /-- the rules for data schemas -/
  eachSchema : ∀ p s x, t.HasSchema p s → Within x s → SchemaMade env x
  uninformed : ∀ p s, t.HasSchema p s → (p ≠ .property → Uninformed s) ∧
    ∀ c x, Child c s → Within x c → Uninformed x
  ranges : ∀ p s, p.Checked → t.HasSchema p s → AllRules s
  uriVariableTypes : ∀ s, t.HasSchema .uriVariable s → ¬ s.ArrayOrObject
  /-- the rules for properties: both parts agree, and the data schema has no string constraints -/
  eachProperty : ∀ m, t.properties = some m → ∀ kv ∈ m, kv.2.Agrees ∧
    ∀ st, kv.2.dataSchema.subtype = some (.string st) → st = {}

/-- There is no data schema with the constant `null` anywhere. -/
def Thing.NoNullConst (t : Thing X) : Prop :=
  ∀ p s x, t.HasSchema p s → Within x s → x.head.constant ≠ some .null

/-- Two Things that differ only in the members that are not restricted. -/
structure Thing.SameRestricted (t t' : Thing X) : Prop where
  context : t'.context = t.context
  attype : t'.attype = t.attype
  titles : t'.titles = t.titles
  descriptions : t'.descriptions = t.descriptions
  properties : t'.properties = t.properties
  actions : t'.actions = t.actions
  events : t'.events = t.events
  links : t'.links = t.links
  forms : t'.forms = t.forms
  uriVariables : t'.uriVariables = t.uriVariables
  security : t'.security = t.security
  securityDefinitions : t'.securityDefinitions = t.securityDefinitions
  profile : t'.profile = t.profile
  schemaDefinitions : t'.schemaDefinitions = t.schemaDefinitions

end Wot
