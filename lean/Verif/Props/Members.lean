import Verif.Lemmas.Members
import Verif.Props.Demo
/-
C20 Nothing supplied to the builder is lost or altered
C21 Context construction
C40 Independent builder calls commute
C41 Extending keeps what was set

`History.ids h`, `History.links h`, … (Spec/History) are the arguments of the corresponding calls of
`h`, in call order; `lastOf` is the last one; `someList` is the list itself, absent if empty.
-/
namespace Wot

variable {X Y : ExtTypes} {title : String} {h h' : List (ThingOp X)} {b b' : ThingBuilder X} {env : Env}
  {t : Thing X}

theorem Reachable.built_eq (hr : Reachable X title h b) (hb : b.build env = .ok t) :
    t = (History.supplied title h b.other).result env := by
  rw [((hr.ok_iff env t).1 hb).2]
  exact congrArg _ hr.supplied

/-! ### C20 -/

/-- Members with one value hold the last one supplied. -/
theorem C20_scalars (hr : Reachable X title h b) (hb : b.build env = .ok t) :
    t.title = title ∧ t.id = lastOf (History.ids h) ∧
    t.description = lastOf (History.descriptionTexts h) ∧ t.version = lastOf (History.versions h) ∧
    t.created = lastOf (History.createds h) ∧ t.modified = lastOf (History.modifieds h) ∧
    t.support = lastOf (History.supports h) ∧ t.base = lastOf (History.bases h) := by
  rw [hr.built_eq hb]
  exact ⟨rfl, rfl, rfl, rfl, rfl, rfl, rfl, rfl⟩

/-- Members that are lists hold everything supplied, in call order. The names in `security` are those
of the schemes marked as required. -/
theorem C20_lists (hr : Reachable X title h b) (hb : b.build env = .ok t) :
    t.attype = someList (History.attypes h) ∧ t.profile = someList (History.profiles h) ∧
    t.security = ((History.securities h).filter (·.required)).map securityName ∧
    t.links = (someList (History.links h)).map (List.map (linkResult env)) ∧
    t.forms = (someList (History.forms h)).map (List.map FormBuilder.result) := by
  rw [hr.built_eq hb]
  exact ⟨rfl, rfl, rfl, rfl, rfl⟩

/-- The translations are those of the last `titles` and `descriptions` call. -/
theorem C20_translations (hr : Reachable X title h b) (hb : b.build env = .ok t) :
    t.titles = (lastOf (History.titles h)).map (fun c => langResult env (.ofCalls c)) ∧
    t.descriptions = (lastOf (History.descriptions h)).map (fun c => langResult env (.ofCalls c)) := by
  rw [((hr.ok_iff env t).1 hb).2]
  constructor
  · show b.titles.map _ = _
    rw [hr.titles, Option.map_map]; rfl
  · show b.descriptions.map _ = _
    rw [hr.descriptions, Option.map_map]; rfl

/-- Maps hold the last schema supplied under each name, with the translations converted, and are absent
if there was no call. -/
theorem C20_schemas (hr : Reachable X title h b) (hb : b.build env = .ok t) :
    (∀ n s, (∃ m, t.uriVariables = some m ∧ (n, s) ∈ m) ↔
      ∃ u, lastOf (History.named n (History.uriVariables h)) = some u ∧
        s = u.mapLang (langResult env)) ∧
    (t.uriVariables = none ↔ History.uriVariables h = []) ∧
    (∀ n s, (∃ m, t.schemaDefinitions = some m ∧ (n, s) ∈ m) ↔
      ∃ u, lastOf (History.named n (History.schemaDefinitions h)) = some u ∧
        s = u.mapLang (langResult env)) ∧
    (t.schemaDefinitions = none ↔ History.schemaDefinitions h = []) := by
  rw [hr.built_eq hb]
  refine ⟨fun n s => ?_, ?_, fun n s => ?_, ?_⟩
  · show (∃ m, ((someList (History.uriVariables h)).map HMap.collect).map _ = some m ∧ _) ↔ _
    simp only [← mem_collect_iff]
    by_cases hu : History.uriVariables h = []
    · simp [hu, someList, HMap.collect]
    · simp [hu, someList, mem_mapVals]
  · show ((someList (History.uriVariables h)).map HMap.collect).map _ = none ↔ _
    unfold someList
    by_cases hu : History.uriVariables h = [] <;> simp [hu]
  · show (∃ m, (if HMap.collect (History.schemaDefinitions h) = [] then none else _) = some m ∧ _) ↔ _
    simp only [← mem_collect_iff]
    by_cases hu : HMap.collect (History.schemaDefinitions h) = []
    · simp [hu]
    · rw [if_neg hu]
      simp only [Option.some.injEq, exists_eq_left', mem_mapVals]
      exact Iff.rfl
  · show (if HMap.collect (History.schemaDefinitions h) = [] then none else _) = none ↔ _
    by_cases hu : HMap.collect (History.schemaDefinitions h) = []
    · rw [if_pos hu]; exact iff_of_true rfl (collect_eq_nil.1 hu)
    · rw [if_neg hu]; exact iff_of_false nofun fun e => hu (collect_eq_nil.2 e)

/-- The affordances are those supplied, each with the fields of its builder. -/
theorem C20_affordances (hr : Reachable X title h b) (hb : b.build env = .ok t) (n : String) :
    (∀ p, (∃ m, t.properties = some m ∧ (n, p) ∈ m) ↔
      ∃ q, .property n q ∈ h ∧ p = PropertyBuilder.result env q) ∧
    (∀ a, (∃ m, t.actions = some m ∧ (n, a) ∈ m) ↔
      ∃ q, .action n q ∈ h ∧ a = ActionBuilder.result env q) ∧
    (∀ e, (∃ m, t.events = some m ∧ (n, e) ∈ m) ↔
      ∃ q, .event n q ∈ h ∧ e = EventBuilder.result env q) :=
  ⟨fun _ => hr.hasProperty hb, fun _ => hr.hasAction hb, fun _ => hr.hasEvent hb⟩

/-- The security definitions are those supplied, each under its name. -/
theorem C20_securities (hr : Reachable X title h b) (hb : b.build env = .ok t) (n : String)
    (s : SecurityScheme) : (n, s) ∈ t.securityDefinitions ↔
      ∃ q ∈ History.securities h, securityName q = n ∧ s = schemeResult env q.scheme := hr.hasScheme hb

/-- The extension value is the one of the builder. -/
theorem C20_extension (hr : Reachable X title h b) (hb : b.build env = .ok t) : t.other = b.other := by
  rw [hr.built_eq hb]; rfl

/-! ### C21 -/

/-- A context as a JSON value. -/
def Context.json : Context → Json
  | .simple s => .str s
  | .map m => .obj (HMap.mapVals Json.str m)

/-- The context is the plain TD 1.1 string if nothing else was added, otherwise an array with this
string followed by what was added, in call order. (`History.contexts` leaves out the calls that add
the TD 1.1 context itself.) -/
theorem C21_context (hr : Reachable X title h b) (hb : b.build env = .ok t) :
    t.context = if History.contexts h = [] then .str tdContext11
      else .arr (.str tdContext11 :: (History.contexts h).map Context.json) := by
  rw [hr.built_eq hb]
  show contextResult (.simple tdContext11 :: History.contexts h) = _
  cases hc : History.contexts h with
  | nil => rfl
  | cons c l =>
    rw [if_neg (by exact nofun)]
    show Json.arr (List.map _ (Context.simple tdContext11 :: c :: l)) = _
    rw [List.map_cons]
    congr 2

/-- Adding the TD 1.1 context anywhere is a no-op. -/
theorem C21_noop {h0 : List CommonOp} {b0 : ThingBuilder X} (_ : ExtPhase X title h0 b0)
    (pre post : List (ThingOp X)) :
    b0.finishExtend.run (pre ++ .common (.context tdContext11) :: post) =
      b0.finishExtend.run (pre ++ post) := by
  unfold ThingBuilder.run
  rw [List.foldl_append, List.foldl_append, List.foldl_cons]
  rfl

/-! ### C40 -/

/-- If two histories have the same calls for each member in the same order, however they are
interleaved, `build` returns the same. -/
theorem C40_members (hr : Reachable X title h b) (hr' : Reachable X title h' b')
    (ho : b.other = b'.other) (hs : SameCalls h h') (env : Env) : b.build env = b'.build env := by
  rw [hr.supplied, hr'.supplied, ho, hs.supplied]

/-- Two successive calls for different members can be swapped anywhere. -/
theorem C40_swap {h0 : List CommonOp} {b0 : ThingBuilder X} (hx : ExtPhase X title h0 b0)
    (hb0 : ∀ op ∈ h0, op.Built) {pre post : List (ThingOp X)} {a c : ThingOp X}
    (hops : ∀ op ∈ pre ++ a :: c :: post, op.Built) (hne : a.member ≠ c.member) (env : Env) :
    (b0.finishExtend.run (pre ++ a :: c :: post)).build env =
      (b0.finishExtend.run (pre ++ c :: a :: post)).build env := by
  have hs : SameCalls (pre ++ a :: c :: post) (pre ++ c :: a :: post) :=
    sameCalls_append (fun _ => rfl) (sameCalls_append (p := [a, c]) (p' := [c, a]) (sameCalls_swap hne)
      fun _ => rfl)
  have hbuilt : ∀ ops : List (ThingOp X), (∀ op ∈ ops, op.Built) →
      ∀ op ∈ h0.map ThingOp.common ++ ops, op.Built := by
    intro ops ho op hop
    rcases List.mem_append.1 hop with hop | hop
    · obtain ⟨o, h1, rfl⟩ := List.mem_map.1 hop; exact hb0 o h1
    · exact ho op hop
  refine C40_members ⟨.extended _ hx, hbuilt _ hops⟩ ⟨.extended _ hx, hbuilt _ ?_⟩
    (hs.named.other _) (sameCalls_append (fun _ => rfl) hs) env
  intro op hop
  refine hops op ?_
  simp only [List.mem_append, List.mem_cons] at hop ⊢
  rcases hop with h | h | h | h <;> simp [h]

/-- If calls that add entries with different names to the same member are reordered as well, `build`
returns the same Thing, or fails in both cases. -/
theorem C40_names (hr : Reachable X title h b) (hr' : Reachable X title h' b')
    (ho : b.other = b'.other) (hs : SameNamedCalls h h') (env : Env) (t : Thing X) :
    b.build env = .ok t ↔ b'.build env = .ok t := by
  have key : ∀ {h h' : List (ThingOp X)} {b b' : ThingBuilder X}, Reachable X title h b →
      Reachable X title h' b' → b.other = b'.other → SameNamedCalls h h' →
      b.build env = .ok t → b'.build env = .ok t := by
    intro h h' b b' hr hr' ho hs hb
    rw [hr'.build_of_valid (hs.valid (hr.valid_of_build hb)), hr.built_eq hb, hs.result, ho]
    exact congrArg (fun b => Except.ok (ThingBuilder.result env b)) hr'.supplied
  exact ⟨key hr hr' ho hs, key hr' hr ho.symm hs.symm⟩

/-- Two successive calls that add entries with different names can be swapped anywhere. -/
theorem C40_swap_names {h0 : List CommonOp} {b0 : ThingBuilder X} (hx : ExtPhase X title h0 b0)
    (hb0 : ∀ op ∈ h0, op.Built) {pre post : List (ThingOp X)} {a c : ThingOp X}
    (hops : ∀ op ∈ pre ++ a :: c :: post, op.Built)
    (hne : a.member ≠ c.member ∨ a.entryName ≠ c.entryName) (env : Env) (t : Thing X) :
    (b0.finishExtend.run (pre ++ a :: c :: post)).build env = .ok t ↔
      (b0.finishExtend.run (pre ++ c :: a :: post)).build env = .ok t := by
  have hs : SameNamedCalls (pre ++ a :: c :: post) (pre ++ c :: a :: post) :=
    sameNamed_append (fun _ _ => rfl)
      (sameNamed_append (p := [a, c]) (p' := [c, a]) (sameNamed_swap hne) fun _ _ => rfl)
  have hbuilt : ∀ ops : List (ThingOp X), (∀ op ∈ ops, op.Built) →
      ∀ op ∈ h0.map ThingOp.common ++ ops, op.Built := by
    intro ops ho op hop
    rcases List.mem_append.1 hop with hop | hop
    · obtain ⟨o, h1, rfl⟩ := List.mem_map.1 hop; exact hb0 o h1
    · exact ho op hop
  refine C40_names ⟨.extended _ hx, hbuilt _ hops⟩ ⟨.extended _ hx, hbuilt _ ?_⟩
    (hs.other _) (sameNamed_append (fun _ _ => rfl) hs) env t
  intro op hop
  refine hops op ?_
  simp only [List.mem_append, List.mem_cons] at hop ⊢
  rcases hop with h | h | h | h <;> simp [h]

/-! ### C41 -/

/-- The members of Things with different extensions agree; affordances, forms, URI variables and
schema definitions, whose types depend on the extension, are absent in both. -/
structure SameMembers (t : Thing X) (t' : Thing Y) : Prop where
  context : t'.context = t.context
  id : t'.id = t.id
  attype : t'.attype = t.attype
  title : t'.title = t.title
  titles : t'.titles = t.titles
  description : t'.description = t.description
  descriptions : t'.descriptions = t.descriptions
  version : t'.version = t.version
  created : t'.created = t.created
  modified : t'.modified = t.modified
  support : t'.support = t.support
  base : t'.base = t.base
  links : t'.links = t.links
  security : t'.security = t.security
  securityDefinitions : t'.securityDefinitions = t.securityDefinitions
  profile : t'.profile = t.profile
  properties : t.properties = none ∧ t'.properties = none
  actions : t.actions = none ∧ t'.actions = none
  events : t.events = none ∧ t'.events = none
  forms : t.forms = none ∧ t'.forms = none
  uriVariables : t.uriVariables = none ∧ t'.uriVariables = none
  schemaDefinitions : t.schemaDefinitions = none ∧ t'.schemaDefinitions = none

/-- The part of `build` that does not depend on the extension. -/
private def commonParts (env : Env) (secs : List (String × UncheckedSecurityScheme)) (ctx : List Context)
    (links : Option (List UncheckedLink)) (titles descriptions : Option MultiLanguageBuilder) :
    Except Failure (HMap SecurityScheme × Json × Option (List Link) × Option MultiLanguage ×
      Option MultiLanguage) := do
  let sec ← orFail (buildSecDefs env [] secs)
  orFail (checkCombos env sec)
  let context ← buildContext env ctx
  let links ← orFail (tryOpt (tryMap (UncheckedLink.tryInto env)) links)
  let titles ← orFail (buildLang env titles)
  let descriptions ← orFail (buildLang env descriptions)
  pure (sec, context, links, titles, descriptions)

private theorem build_common {X : ExtTypes} (env : Env) (b : ThingBuilder X) (h1 : b.properties = [])
    (h2 : b.actions = []) (h3 : b.events = []) (h4 : b.forms = none) (h5 : b.uriVariables = none)
    (h6 : b.schemaDefinitions = []) :
    b.build env =
      (commonParts env b.securityDefinitions b.context b.links b.titles b.descriptions).map fun p =>
        { context := p.2.1, id := b.id, attype := b.attype, title := b.title, titles := p.2.2.2.1,
          description := b.description, descriptions := p.2.2.2.2, version := b.version,
          created := b.created, modified := b.modified, support := b.support, base := b.base,
          properties := none, actions := none, events := none, links := p.2.2.1, forms := none,
          security := b.security, securityDefinitions := p.1, uriVariables := none,
          profile := nonEmpty b.profile, schemaDefinitions := none, other := b.other } := by
  have hi : env.iter ([] : HMap (UDS X)) = [] := List.Perm.eq_nil (env.iter_perm [])
  have h0 : tryMapVals env (Schema.tryInto env) ([] : HMap (UDS X)) = .ok [] := by
    simp only [tryMapVals, hi]; rfl
  unfold ThingBuilder.build commonParts
  rw [h1, h2, h3, h4, h5, h6, h0]
  cases orFail (buildSecDefs env [] b.securityDefinitions) with
  | error e => rfl
  | ok sec =>
    show (do orFail (checkCombos env sec); _) = Except.map _ (do orFail (checkCombos env sec); _)
    cases orFail (checkCombos env sec) with
    | error e => rfl
    | ok _ =>
      show (do let context ← buildContext env b.context; _) =
        Except.map _ (do let context ← buildContext env b.context; _)
      cases buildContext env b.context with
      | error e => rfl
      | ok _ =>
        show (do let l ← orFail (tryOpt (tryMap (UncheckedLink.tryInto env)) b.links); _) =
          Except.map _ (do let l ← orFail (tryOpt (tryMap (UncheckedLink.tryInto env)) b.links); _)
        cases orFail (tryOpt (tryMap (UncheckedLink.tryInto env)) b.links) with
        | error e => rfl
        | ok _ =>
          show (do let l ← orFail (buildLang env b.titles); _) =
            Except.map _ (do let l ← orFail (buildLang env b.titles); _)
          cases orFail (buildLang env b.titles) with
          | error e => rfl
          | ok _ =>
            show (do let l ← orFail (buildLang env b.descriptions); _) =
              Except.map _ (do let l ← orFail (buildLang env b.descriptions); _)
            cases orFail (buildLang env b.descriptions) <;> rfl

/-- Adding an extension to a Thing builder changes nothing but the extension value: `build` fails in
the same way or returns a Thing with the same members. -/
theorem C41_thing {h : List CommonOp} {b : ThingBuilder X} (hx : ExtPhase X title h b)
    (f : X.thing → Y.thing) (env : Env) :
    (∀ t, b.build env = .ok t →
      ∃ t', (b.ext f).build env = .ok t' ∧ SameMembers t t' ∧ t'.other = f t.other) ∧
    (∀ e, b.build env = .error e → (b.ext f).build env = .error e) := by
  obtain ⟨h1, h2, h3, h4, h5, h6⟩ := hx.noExtDependent
  obtain ⟨g1, g2, g3, g4, g5, g6⟩ := (ExtPhase.ext f hx).noExtDependent
  rw [build_common env b h1 h2 h3 h4 h5 h6, build_common env (b.ext f) g1 g2 g3 g4 g5 g6]
  show (∀ t, _ → ∃ t', Except.map _ (commonParts env b.securityDefinitions b.context b.links b.titles
    b.descriptions) = _ ∧ _) ∧ (∀ e, _ → Except.map _ (commonParts env b.securityDefinitions b.context
    b.links b.titles b.descriptions) = _)
  cases commonParts env b.securityDefinitions b.context b.links b.titles b.descriptions with
  | error e => exact ⟨fun t ht => (by cases ht), fun e' he => (by cases he; rfl)⟩
  | ok p =>
    refine ⟨fun t ht => ?_, fun e he => (by cases he)⟩
    cases ht
    exact ⟨_, rfl, ⟨rfl, rfl, rfl, rfl, rfl, rfl, rfl, rfl, rfl, rfl, rfl, rfl, rfl, rfl, rfl, rfl,
      ⟨rfl, rfl⟩, ⟨rfl, rfl⟩, ⟨rfl, rfl⟩, ⟨rfl, rfl⟩, ⟨rfl, rfl⟩, ⟨rfl, rfl⟩⟩, rfl⟩

/-- Finishing the extension phase changes nothing. -/
theorem C41_finish (b : ThingBuilder X) (env : Env) : b.finishExtend.build env = b.build env := rfl

/-- What was supplied before an extension counts in the same way as what is supplied afterwards: the
extended builder is one whose history has the calls before and after the extension, and its extension
value is the extended one unless it is assigned later. -/
theorem C41_history {h : List CommonOp} {b : ThingBuilder X} (hx : ExtPhase X title h b)
    (hb : ∀ op ∈ h, op.Built) (f : X.thing → Y.thing) {ops : List (ThingOp Y)}
    (ho : ∀ op ∈ ops, op.Built) :
    Reachable Y title (h.map .common ++ ops) ((b.ext f).finishExtend.run ops) ∧
    ((b.ext f).finishExtend.run ops).other = (lastOf (History.extensions ops)).getD (f b.other) := by
  refine ⟨⟨.extended ops (.ext f hx), ?_⟩, run_other _ _⟩
  intro op hop
  rcases List.mem_append.1 hop with hop | hop
  · obtain ⟨o, h1, rfl⟩ := List.mem_map.1 hop; exact hb o h1
  · exact ho op hop

/-- Adding an extension to a form builder, at any time, changes nothing but the extension value of the
form. -/
theorem C41_form {F : Type} (b : FormBuilderF X String F) (f : F → X.form) :
    FormBuilder.toForm (b.ext f) =
      { op := b.op, href := b.href, contentType := b.contentType, contentCoding := b.contentCoding,
        subprotocol := b.subprotocol, security := b.security, scopes := b.scopes,
        response := b.response,
        additionalResponses := if b.additionalResponses = [] then none else some b.additionalResponses,
        other := f b.other } := by
  obtain ⟨_, _, _, _, _, _, _, _, r, _⟩ := b
  cases r <;> rfl

/-- Calls on form and affordance builders before and after adding an extension have the same
effect. -/
theorem C41_form_calls {H F F' : Type} (b : FormBuilderF X H F) (f : F → F') (ops : List (FormOp X)) :
    (ops.foldl FormBuilderF.apply b).ext f = ops.foldl FormBuilderF.apply (b.ext f) := by
  induction ops generalizing b with
  | nil => rfl
  | cons op ops ih =>
    rw [List.foldl_cons, List.foldl_cons, ih]
    congr 1
    cases op <;> rfl

theorem C41_property_calls {D I I' O O' : Type} (b : PropertyBuilderF X D I O) (f : I → I')
    (g : O → O') (ops : List (PropertyOp X)) :
    (ops.foldl PropertyBuilderF.apply b).ext f g = ops.foldl PropertyBuilderF.apply (b.ext f g) := by
  induction ops generalizing b with
  | nil => rfl
  | cons op ops ih =>
    rw [List.foldl_cons, List.foldl_cons, ih]
    congr 1
    rcases op with (_ | _) | _ | _ <;> rfl

theorem C41_action_calls {I I' O O' : Type} (b : ActionBuilderF X I O) (f : I → I') (g : O → O')
    (ops : List (ActionOp X)) :
    (ops.foldl ActionBuilderF.apply b).ext f g = ops.foldl ActionBuilderF.apply (b.ext f g) := by
  induction ops generalizing b with
  | nil => rfl
  | cons op ops ih =>
    rw [List.foldl_cons, List.foldl_cons, ih]
    congr 1
    rcases op with (_ | _) | _ | _ | _ | _ | _ | _ <;> rfl

theorem C41_event_calls {I I' O O' : Type} (b : EventBuilderF X I O) (f : I → I') (g : O → O')
    (ops : List (EventOp X)) :
    (ops.foldl EventBuilderF.apply b).ext f g = ops.foldl EventBuilderF.apply (b.ext f g) := by
  induction ops generalizing b with
  | nil => rfl
  | cons op ops ih =>
    rw [List.foldl_cons, List.foldl_cons, ih]
    congr 1
    rcases op with (_ | _) | _ | _ | _ | _ | _ <;> rfl

/-- Adding an extension to a data schema builder keeps what was set. (Alternatives of `oneOf` cannot
have been added before the end of the extension phase.) -/
theorem C41_schema {D D' A O : Type} {b : DataSchemaBuilder D A O} (hr : PlainReach D b) (f : D → D') :
    (b.ext f).info = b.info ∧ (b.ext f).part.constant = b.part.constant ∧
    (b.ext f).part.default = b.part.default ∧ (b.ext f).part.unit = b.part.unit ∧
    (b.ext f).part.oneOf = [] ∧ b.part.oneOf = [] ∧
    (b.ext f).part.enumeration = b.part.enumeration ∧
    (b.ext f).part.readOnly = b.part.readOnly ∧ (b.ext f).part.writeOnly = b.part.writeOnly ∧
    (b.ext f).part.format = b.part.format ∧ (b.ext f).part.other = f b.part.other := by
  refine ⟨rfl, rfl, rfl, rfl, rfl, ?_, rfl, rfl, rfl, rfl, rfl⟩
  clear f
  induction hr with
  | empty => rfl
  | ext f _ _ => rfl
  | finishExtend _ ih => exact ih
  | unit _ _ ih => exact ih
  | format _ _ ih => exact ih
  | default _ _ ih => exact ih
  | info _ _ ih => exact ih
  | other _ _ ih => exact ih

end Wot

/-! ### Concrete cases -/

namespace Wot.Demo

/-- An extension of Things and forms with a number. -/
abbrev XN : ExtTypes := { ExtTypes.nil with thing := Nat, form := Nat }

def early : List CommonOp := [.id "urn:lamp", .context "https://example.org", .security basic]

def earlyBuilder : ThingBuilder X := early.foldl ThingBuilder.applyCommon (.new "Lamp" ())

theorem early_phase : ExtPhase X "Lamp" early earlyBuilder :=
  .call (h := [_, _]) (.security basic) (.call (h := [_]) (.context "https://example.org")
    (.call (h := []) (.id "urn:lamp") (.new (X := X) "Lamp" ())))

theorem early_built : ∀ op ∈ early, op.Built := by
  intro op h
  simp only [early, List.mem_cons, List.not_mem_nil, or_false] at h
  rcases h with rfl | rfl | rfl
  · trivial
  · trivial
  · exact ⟨[.basic, .required, .descriptions [("en", "user and password")]], rfl⟩

end Wot.Demo

namespace Wot

example : ∃ t, Demo.earlyBuilder.build Demo.env = .ok t ∧ t.id = some "urn:lamp" ∧
    t.security = ["basic"] := ⟨_, rfl, rfl, rfl⟩

example : ∃ t, (Demo.earlyBuilder.ext (Y := Demo.XN) fun _ => 5).build Demo.env = .ok t ∧
    t.id = some "urn:lamp" ∧ t.other = 5 := ⟨_, rfl, rfl, rfl⟩

example : Demo.thing.context =
    .arr [.str "https://www.w3.org/2022/wot/td/v1.1", .str "https://example.org"] := rfl

example : Demo.thing.id = some "urn:lamp" ∧ Demo.thing.profile = some ["p"] ∧
    Demo.thing.security = ["basic", "psk"] := ⟨rfl, rfl, rfl⟩

/-- Calls of the example that can be swapped: a link and a property; two URI variables. -/
example : (ThingOp.common (X := Demo.X) Demo.link).member ≠ (ThingOp.property "p" Demo.property).member :=
  nofun

example : (ThingOp.uriVariable (X := Demo.X) "a" Demo.stringSchema).entryName ≠
    (ThingOp.uriVariable (X := Demo.X) "b" Demo.stringSchema).entryName := by decide

/-- The reversed history of the example has the same calls for each name but not for each member. -/
example : SameNamedCalls (X := Demo.X)
    [.property "a" Demo.property, .form Demo.thingForm, .property "b" Demo.property]
    [.property "b" Demo.property, .property "a" Demo.property, .form Demo.thingForm] := by
  intro m n
  simp only [List.filter_cons, ThingOp.member, ThingOp.entryName, List.filter_nil]
  cases m <;> simp
  rcases n with _ | n
  · simp
  · by_cases ha : "a" = n
    · subst ha; simp
    · simp [ha]

end Wot
