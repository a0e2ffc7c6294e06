/-
Common vocabulary of the model: finite maps (std `HashMap`), fallible iteration
(`Iterator::try_for_each`, `collect::<Result<_,_>>`), builder errors and the environment
that stands for everything external (hash iteration order, language-tag parser).
-/
namespace Wot

/-- `std::collections::HashMap<String, V>` (used throughout `src/thing.rs`, `src/builder.rs`).
A map is represented by its strictly key-sorted list of entries, so maps with the same
content are equal; the order in which Rust iterates is *not* this order but `Env.iter`. -/
abbrev HMap (V : Type) := List (String × V)

namespace HMap
variable {V W : Type}

/-- `HashMap::insert` (e.g. `src/builder.rs:1555`, `1673`): replaces the value of an existing key. -/
def insert (k : String) (v : V) : HMap V → HMap V
  | [] => [(k, v)]
  | (k', v') :: m =>
    if k < k' then (k, v) :: (k', v') :: m
    else if k = k' then (k, v) :: m
    else (k', v') :: insert k v m

/-- `HashMap::get`. -/
def get? (m : HMap V) (k : String) : Option V :=
  match m with
  | [] => none
  | (k', v) :: m => if k = k' then some v else get? m k

/-- `HashMap::contains_key` (e.g. `src/builder.rs:819`). -/
def contains (m : HMap V) (k : String) : Bool := (m.get? k).isSome

/-- `iter.collect::<HashMap<_,_>>()`: insert one after the other, later entries win. -/
def collect (l : List (String × V)) : HMap V :=
  l.foldl (fun m kv => insert kv.1 kv.2 m) []

/-- The representation invariant: keys strictly increasing. -/
def Sorted (m : HMap V) : Prop := m.Pairwise (fun a b => a.1 < b.1)

/-- The keys of a map. -/
def keys (m : HMap V) : List String := m.map (·.1)

/-- The values of a map. -/
def values (m : HMap V) : List V := m.map (·.2)

/-- Apply a function to all values. -/
def mapVals (f : V → W) (m : HMap V) : HMap W := m.map (fun kv => (kv.1, f kv.2))

end HMap

/-- Everything external to the crate that `build` depends on.
* `iter`: the iteration order of hash maps, an arbitrary permutation of the entries.
* `langParse`: `oxilangtag`'s `str::parse::<LanguageTag<String>>` (`src/builder.rs:1789`, `3014`);
  `some t` gives the text of the parsed tag, `none` is a parse error. Nothing else is assumed. -/
structure Env where
  iter : {V : Type} → HMap V → List (String × V)
  iter_perm : ∀ {V : Type} (m : HMap V), (iter m).Perm m
  langParse : String → Option String

/-- `iter.map(f).collect::<Result<Vec<_>, _>>()`: stops at the first error. -/
def tryMap {α β ε : Type} (f : α → Except ε β) : List α → Except ε (List β)
  | [] => .ok []
  | a :: l =>
    match f a with
    | .error e => .error e
    | .ok b =>
      match tryMap f l with
      | .error e => .error e
      | .ok bs => .ok (b :: bs)

/-- `iter.try_for_each(f)`: stops at the first error. -/
def tryForEach {α ε : Type} (f : α → Except ε Unit) : List α → Except ε Unit
  | [] => .ok ()
  | a :: l =>
    match f a with
    | .error e => .error e
    | .ok () => tryForEach f l

/-- `option.map(f).transpose()`. -/
def tryOpt {α β ε : Type} (f : α → Except ε β) : Option α → Except ε (Option β)
  | none => .ok none
  | some a =>
    match f a with
    | .error e => .error e
    | .ok b => .ok (some b)

/-- `v.is_empty().not().then_some(v)` (e.g. `src/builder.rs:828`, `845`). -/
def nonEmpty {α : Type} (l : List α) : Option (List α) :=
  if l.isEmpty then none else some l

/-- `opt.get_or_insert_with(Default::default).push(x)` (e.g. `src/builder.rs:1134`). -/
def optPush {α : Type} (o : Option (List α)) (x : α) : Option (List α) :=
  some (o.getD [] ++ [x])

/-- `FormOperation` (`src/thing.rs:1553–1614`). -/
inductive FormOperation
  | readProperty | writeProperty | observeProperty | unobserveProperty
  | invokeAction | queryAction | cancelAction
  | subscribeEvent | unsubscribeEvent
  | readAllProperties | writeAllProperties
  | readMultipleProperties | writeMultipleProperties
  | observeAllProperties | unobserveAllProperties
  | subscribeAllEvents | unsubscribeAllEvents
  | queryAllActions
  deriving DecidableEq, Repr

/-- `FormContext` (`src/builder.rs:372–384`). -/
inductive FormContext
  | thing | property | action | event
  deriving DecidableEq, Repr

/-- `AffordanceType` (`src/builder.rs:411–421`). -/
inductive AffordanceType
  | property | action | event
  deriving DecidableEq, Repr

/-- `impl From<AffordanceType> for FormContext` (`src/builder.rs:399–407`). -/
def AffordanceType.toContext : AffordanceType → FormContext
  | .property => .property
  | .action => .action
  | .event => .event

/-- `builder::Error` (`src/builder.rs:305–366`). -/
inductive Error
  | duplicatedSecurityDefinition (name : String)
  | missingOpInForm
  | invalidOpInForm (context : FormContext) (operation : FormOperation)
  | undefinedSecurity (name : String)
  | invalidMinMax
  | nanMinMax
  | duplicatedAffordance (ty : AffordanceType) (name : String)
  | invalidMultipleOf
  | missingSchemaDefinition (name : String)
  | invalidUriVariables
  | invalidLanguageTag (tag : String)
  | sizesWithRelNotIcon
  deriving DecidableEq, Repr

/-- `MultiLanguageBuilder<String>` (`src/builder.rs:1768–1772`). -/
structure MultiLanguageBuilder where
  values : HMap String
  deriving DecidableEq, Repr

/-- `MultiLanguage = HashMap<LanguageTag<String>, String>` (`src/thing.rs:30`); a language tag is
represented by its text. -/
structure MultiLanguage where
  map : HMap String
  deriving DecidableEq, Repr

/-- `MultiLanguageBuilder::default()`. -/
def MultiLanguageBuilder.empty : MultiLanguageBuilder := ⟨[]⟩

/-- `MultiLanguageBuilder::add` (`src/builder.rs:1777–1780`). -/
def MultiLanguageBuilder.add (b : MultiLanguageBuilder) (language value : String) :
    MultiLanguageBuilder := ⟨b.values.insert language value⟩

/-- The closure of `MultiLanguageBuilder::build` (`src/builder.rs:1785–1791`). -/
def parseLang (env : Env) (kv : String × String) : Except Error (String × String) :=
  match env.langParse kv.1 with
  | some t => .ok (t, kv.2)
  | none => .error (.invalidLanguageTag kv.1)

/-- `MultiLanguageBuilder::build` (`src/builder.rs:1782–1793`). -/
def MultiLanguageBuilder.build (env : Env) (b : MultiLanguageBuilder) :
    Except Error MultiLanguage :=
  match tryMap (parseLang env) (env.iter b.values) with
  | .error e => .error e
  | .ok l => .ok ⟨HMap.collect l⟩

end Wot
