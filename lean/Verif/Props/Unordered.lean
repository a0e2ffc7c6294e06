import Verif.Lemmas.Unordered
import Verif.Props.Reread
/-
C49: what is written does not depend on the order in which hash maps are iterated.
-/
namespace Wot

variable {X : ExtTypes} {C : ExtCodecs X} {env env' : SerdeEnv} {t : Thing X}

/-- Two processes, which format instants the same way but may iterate every hash map in orders of their own,
write the same JSON value for a Thing, or both fail. -/
theorem C49_value (ht : env.timeFormat = env'.timeFormat) (h : t.Maps) :
    toValue C env t = toValue C env' t :=
  serThing_alike ht h

/-- Their texts can differ in the order of members only: they have the same value. -/
theorem C49_text (ht : env.timeFormat = env'.timeFormat) (h : t.Maps) :
    (toText C env t = none ∧ toText C env' t = none) ∨
    ∃ j j', toText C env t = some j ∧ toText C env' t = some j' ∧ j.norm = j'.norm := by
  have := serThing_alike (C := C) ht h
  unfold toText
  cases h1 : serThing C env t with
  | none =>
    cases h2 : serThing C env' t with
    | none => exact .inl ⟨rfl, rfl⟩
    | some j' => rw [h1, h2] at this; cases this
  | some j =>
    cases h2 : serThing C env' t with
    | none => rw [h1, h2] at this; cases this
    | some j' => rw [h1, h2] at this; exact .inr ⟨j, j', rfl, rfl, Option.some.inj this⟩

/-- The condition on the maps holds of all Things that have been built … -/
theorem C49_built {title : String} {h : List (ThingOp X)} {b : ThingBuilder X} {e : Env}
    (hr : Reachable X title h b) (hb : b.build e = .ok t) : t.Maps :=
  hr.maps hb

/-- … and of all Things that have been read. -/
theorem C49_read (hs : env.Stable) {d : Json} (h : fromText C env d = some t) : t.Maps :=
  have hP : Hereditary fun _ => True := ⟨fun _ _ => trivial, fun _ _ => trivial, fun _ _ => trivial⟩
  (thing_from hs hP trivial h).maps hP hs

/-- Reading does not iterate hash maps at all. -/
theorem C49_reading (h1 : env.langRead = env'.langRead) (h2 : env.timeParse = env'.timeParse) (d : Json) : fromText C env d = fromText C env' d := by
  obtain ⟨e, a, b, c⟩ := env
  obtain ⟨e', a', b', c'⟩ := env'
  cases h1; cases h2
  cases d with
  | obj es =>
    unfold fromText deThing deDS
    rw [deSchema_unordered (e' := e') (b' := b'), deProperty_unordered (e' := e') (b' := b'),
      deAction_unordered (e' := e') (b' := b'), deEvent_unordered (e' := e') (b' := b')]
    rfl
  | _ => rfl

/-! ### Examples -/

/-- The environment of the examples, with all maps iterated backwards. -/
def Demo.backwards : SerdeEnv :=
  { Demo.senv with iter := fun m => (Demo.senv.iter m).reverse
                   iter_perm := fun m => (List.reverse_perm _).trans (Demo.senv.iter_perm m) }

/-- A document with two definitions. -/
def Demo.pairDocument : Members :=
  [("title", .str "Lamp"), ("security", .str "a"),
   ("securityDefinitions", .obj [("a", .obj [("scheme", .str "nosec")]), ("b", .obj [("scheme", .str "auto")])])]

/-- The texts of its Thing differ, the values do not. -/
example : ∃ t j j' v, fromText .nil Demo.senv (.obj Demo.pairDocument) = some t ∧ t.Maps ∧
    toText .nil Demo.senv t = some j ∧ toText .nil Demo.backwards t = some j' ∧ j ≠ j' ∧
    toValue .nil Demo.senv t = some v ∧ toValue .nil Demo.backwards t = some v := by
  refine ⟨_, _, _, _, rfl, C49_read (C := .nil) (d := .obj Demo.pairDocument) Demo.stable rfl, rfl, rfl, ?_, rfl, rfl⟩
  decide

end Wot
