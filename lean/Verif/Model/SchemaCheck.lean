import Verif.Model.Schema
/-
Validation and conversion of unchecked data schemas
(`src/builder/data_schema.rs:3801–4052`).
-/
namespace Wot

variable {L DS AS OS S S' : Type}

/-- `u32::partial_cmp`. -/
instance : PCmp U32 := ⟨fun a b => some (compare a.val b.val)⟩

/-- The bounds test shared by the three branches: both present and
`matches!(min.partial_cmp(&max), None | Some(Greater))`
(`src/builder/data_schema.rs:3832–3838`, `3852–3856`, `3868–3872`). -/
def badRange {A B : Type} (cmp : A → B → Option Ordering) : Option A → Option B → Bool
  | some min, some max => noneOrGreater (cmp min max)
  | _, _ => false

/-- The part of one round of `check_data_schema_subtype` that looks at the current subtype only
(`src/builder/data_schema.rs:3828–3879`, without the pushes). -/
def checkLocal : Option (SubtypeF AS OS S) → Except Error Unit
  | none => .ok ()
  | some (.array a) =>
    if badRange PCmp.pcmp a.minItems a.maxItems then .error .invalidMinMax else .ok ()
  | some (.number n) =>
    if (n.minimum.map Minimum.isNan).getD false then .error .nanMinMax
    else if (n.maximum.map Maximum.isNan).getD false then .error .nanMinMax
    else if badRange Minimum.cmpMax n.minimum n.maximum then .error .invalidMinMax
    else if (n.multipleOf.map F64.leZero).getD false then .error .invalidMultipleOf
    else .ok ()
  | some (.integer n) =>
    if badRange Minimum.cmpMax n.minimum n.maximum then .error .invalidMinMax else .ok ()
  | some (.object _) => .ok ()
  | some (.string _) => .ok ()
  | some .boolean => .ok ()
  | some .null => .ok ()

/-- The schemas one round of `check_data_schema_subtype` pushes for the current subtype, in push
order (`src/builder/data_schema.rs:3841–3846`, `3874–3877`). -/
def pushed (env : Env) : Option (SubtypeF AS OS S) → List S
  | some (.array a) =>
    match a.items with
    | none => []
    | some (.elem x) => [x]
    | some (.vec l) => l
  | some (.object o) =>
    match o.properties with
    | none => []
    | some m => (env.iter m).map (·.2)
  | _ => []

/-- Number of schema nodes, used only as termination measure. -/
def Schema.size : Schema L DS AS OS → Nat :=
  Schema.fold (fun _ o s => 1 + (o.getD []).sum + ((s.map SubtypeF.children).getD []).sum)

/-- Total number of nodes on a stack. -/
def stackSize (l : List (Schema L DS AS OS)) : Nat := (l.map Schema.size).sum

theorem SubtypeF.children_map (f : S → S') (s : SubtypeF AS OS S) :
    (s.map f).children = s.children.map f := by
  rcases s with ⟨_ | (_ | _), _, _, _⟩ | _ | _ | _ | ⟨_ | _, _, _⟩ | _ | _ <;>
    simp [SubtypeF.map, SubtypeF.children, ElemOrVec.map, ElemOrVec.toList, HMap.mapVals,
      HMap.values]

theorem Schema.size_mk (h : SchemaHead L DS) (o : Option (List (Schema L DS AS OS)))
    (s : Option (SubtypeF AS OS (Schema L DS AS OS))) :
    (Schema.mk h o s).size = 1 + stackSize (o.getD [])
      + stackSize ((s.map SubtypeF.children).getD []) := by
  rw [Schema.size, Schema.fold_mk]
  congr 1
  · cases o <;> simp [stackSize, Schema.size]
  · cases s <;> simp [stackSize, Schema.size, SubtypeF.children_map]

theorem Schema.size_eq (x : Schema L DS AS OS) :
    x.size = 1 + stackSize (x.oneOf.getD [])
      + stackSize ((x.subtype.map SubtypeF.children).getD []) := by
  obtain ⟨h, o, s⟩ := x
  exact Schema.size_mk h o s

theorem pushed_perm (env : Env) (s : Option (SubtypeF AS OS S)) :
    (pushed env s).Perm ((s.map SubtypeF.children).getD []) := by
  rcases s with _ | (⟨_ | (_ | _), _, _, _⟩ | _ | _ | _ | ⟨_ | _, _, _⟩ | _ | _) <;>
    simp [pushed, SubtypeF.children, ElemOrVec.toList]
  exact (env.iter_perm _).map _

theorem stackSize_perm {l₁ l₂ : List (Schema L DS AS OS)} (h : l₁.Perm l₂) :
    stackSize l₁ = stackSize l₂ := (h.map _).sum_nat

theorem stackSize_append (l₁ l₂ : List (Schema L DS AS OS)) :
    stackSize (l₁ ++ l₂) = stackSize l₁ + stackSize l₂ := by simp [stackSize]

theorem stackSize_reverse (l : List (Schema L DS AS OS)) :
    stackSize l.reverse = stackSize l := stackSize_perm l.reverse_perm

/-- The `loop` of `check_data_schema_subtype` (`src/builder/data_schema.rs:3828–3893`). The stack is
a list whose head is the top, so `stack.extend(xs)` prepends `xs.reverse`. -/
def checkLoop (env : Env) (subtype : Option (SubtypeF AS OS (Schema L DS AS OS)))
    (stack : List (Schema L DS AS OS)) : Except Error Unit :=
  match checkLocal subtype with
  | .error e => .error e
  | .ok () =>
    match _h : (pushed env subtype).reverse ++ stack with
    | [] => .ok ()
    | s :: rest => checkLoop env s.subtype ((s.oneOf.getD []).reverse ++ rest)
termination_by stackSize ((subtype.map SubtypeF.children).getD []) + stackSize stack
decreasing_by
  have h1 := congrArg stackSize _h
  rw [stackSize_append, stackSize_reverse, stackSize_perm (pushed_perm env subtype)] at h1
  have h2 : stackSize (s :: rest) = s.size + stackSize rest := by simp [stackSize]
  rw [h2, Schema.size_eq] at h1
  rw [stackSize_append, stackSize_reverse]
  omega

/-- `check_data_schema_subtype` (`src/builder/data_schema.rs:3821–3894`). -/
def checkSubtype (env : Env) (subtype : Option (SubtypeF AS OS (Schema L DS AS OS))) :
    Except Error Unit := checkLoop env subtype []

mutual
/-- `UncheckedDataSchema::check` (`src/builder/data_schema.rs:3805–3811`). -/
def Schema.check (env : Env) : Schema L DS AS OS → Except Error Unit
  | .mk _ o s =>
    match checkSubtype env s with
    | .error e => .error e
    | .ok () => checkOneOf env o
termination_by structural x => x
/-- `check_one_of_schema` (`src/builder/data_schema.rs:3896–3903`). -/
def checkOneOf (env : Env) : Option (List (Schema L DS AS OS)) → Except Error Unit
  | none => .ok ()
  | some l => checkAll env l
termination_by structural x => x
/-- The `try_for_each` of `check_one_of_schema` (`src/builder/data_schema.rs:3901`). -/
def checkAll (env : Env) : List (Schema L DS AS OS) → Except Error Unit
  | [] => .ok ()
  | x :: l =>
    match x.check env with
    | .error e => .error e
    | .ok () => checkAll env l
termination_by structural x => x
end

/-- `PartialDataSchema` (`src/builder/data_schema.rs:241–254`): an unchecked data schema without the
human readable information. -/
structure PartialDataSchema (DS AS OS : Type) where
  constant : Option Json
  default : Option Json
  unit : Option String
  oneOf : Option (List (UncheckedDataSchema DS AS OS))
  enumeration : Option (List Json)
  readOnly : Bool
  writeOnly : Bool
  format : Option String
  subtype : Option (SubtypeF AS OS (UncheckedDataSchema DS AS OS))
  other : DS

/-- `PartialDataSchema::check` (`src/builder/data_schema.rs:3813–3819`). -/
def PartialDataSchema.check (env : Env) (p : PartialDataSchema DS AS OS) : Except Error Unit := do
  checkSubtype env p.subtype
  checkOneOf env p.oneOf

/-- `titles.map(|titles| titles.build()).transpose()`. -/
def buildLang (env : Env) : Option MultiLanguageBuilder → Except Error (Option MultiLanguage) :=
  tryOpt (MultiLanguageBuilder.build env)

/-- The conversion of a `HashMap` of fallible values: `.into_iter().map(|(k, v)| v.try_into().map(|v|
(k, v))).collect::<Result<HashMap<_, _>, _>>()` (`src/builder/data_schema.rs:4037–4042`,
`src/builder.rs:823–826`, `878–882`; `src/builder/affordance.rs:2580–2585`, `2650–2655`). -/
def tryMapVals {V W : Type} (env : Env) (f : V → Except Error W) (m : HMap V) :
    Except Error (HMap W) := do
  let l ← tryMap (fun kv => do let w ← f kv.2; pure (kv.1, w)) (env.iter m)
  pure (HMap.collect l)

/-- `TryFrom<UncheckedArraySchema> for ArraySchema` (`src/builder/data_schema.rs:3995–4025`), given
the conversion results of the items. -/
def tryIntoArray (a : ArrayF AS (Except Error S)) : Except Error (ArrayF AS S) := do
  let items ← tryOpt (fun
    | .elem x => do let y ← x; pure (ElemOrVec.elem y)
    | .vec l => do let l' ← tryMap id l; pure (ElemOrVec.vec l')) a.items
  pure ⟨items, a.minItems, a.maxItems, a.other⟩

/-- `TryFrom<UncheckedObjectSchema> for ObjectSchema` (`src/builder/data_schema.rs:4027–4052`), given
the conversion results of the properties. -/
def tryIntoObject (env : Env) (o : ObjectF OS (Except Error S)) : Except Error (ObjectF OS S) := do
  let properties ← tryOpt (tryMapVals env id) o.properties
  pure ⟨properties, o.required, o.other⟩

/-- `TryFrom<UncheckedDataSchemaSubtype> for DataSchemaSubtype`
(`src/builder/data_schema.rs:3975–3993`), given the conversion results of nested schemas. -/
def tryIntoSub (env : Env) : SubtypeF AS OS (Except Error S) → Except Error (SubtypeF AS OS S)
  | .array a => do let a' ← tryIntoArray a; pure (.array a')
  | .boolean => .ok .boolean
  | .number n => .ok (.number n)
  | .integer n => .ok (.integer n)
  | .object o => do let o' ← tryIntoObject env o; pure (.object o')
  | .string s => .ok (.string s)
  | .null => .ok .null

/-- `TryFrom<UncheckedDataSchema> for DataSchema` (`src/builder/data_schema.rs:3905–3959`), given the
conversion results of nested schemas. -/
def tryIntoAlg (env : Env) :
    SchemaAlg MultiLanguageBuilder DS AS OS (Except Error (DataSchema DS AS OS)) :=
  fun h o s => do
    let titles ← buildLang env h.titles
    let descriptions ← buildLang env h.descriptions
    let oneOf ← tryOpt (tryMap id) o
    let subtype ← tryOpt (tryIntoSub env) s
    pure (.mk
      { attype := h.attype, title := h.title, titles, description := h.description, descriptions,
        constant := h.constant, default := h.default, unit := h.unit, enumeration := h.enumeration,
        readOnly := h.readOnly, writeOnly := h.writeOnly, format := h.format, other := h.other }
      oneOf subtype)

/-- `TryFrom<UncheckedDataSchema> for DataSchema` (`src/builder/data_schema.rs:3905–4052`). -/
def Schema.tryInto (env : Env) : UncheckedDataSchema DS AS OS → Except Error (DataSchema DS AS OS) :=
  Schema.fold (tryIntoAlg env)

/-- The conversion of a nested subtype (`TryInto::try_into` of `src/builder/affordance.rs:2660`). -/
def subtypeTryInto (env : Env) (s : SubtypeF AS OS (UncheckedDataSchema DS AS OS)) :
    Except Error (SubtypeF AS OS (DataSchema DS AS OS)) :=
  tryIntoSub env (s.map (Schema.tryInto env))

/-- The `matches!` of `uri_variables_contains_arrays_objects`
(`src/builder/data_schema.rs:3967–3971`). -/
def isArrayOrObject : Option (SubtypeF AS OS S) → Bool
  | some (.object _) => true
  | some (.array _) => true
  | _ => false

/-- `uri_variables_contains_arrays_objects` (`src/builder/data_schema.rs:3961–3973`). -/
def uriVarsContainArraysObjects (env : Env) (m : HMap (UncheckedDataSchema DS AS OS)) : Bool :=
  (env.iter m).any (fun kv => isArrayOrObject kv.2.subtype)

end Wot
