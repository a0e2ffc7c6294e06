import Verif.Lemmas.Meaning
import Verif.Props.RoundTrip
/-
C58: what is read from a document is what the document says.
-/
namespace Wot

variable {X : ExtTypes} {C : ExtCodecs X} {env : SerdeEnv} {d : Json} {t : Thing X}

/-- Reading a document gives the Thing that the document describes, and fails if it describes none. -/
theorem C58_read (hd : d.NumbersInRange) : fromText C env d = some t ↔ Doc.IsThing env C d t := Reads.thing d hd t

/-- No document describes two Things. -/
theorem C58_unique (hd : d.NumbersInRange) {t' : Thing X} (h : Doc.IsThing env C d t) (h' : Doc.IsThing env C d t') :
    t = t' :=
  Option.some.inj (((C58_read hd).2 h).symm.trans ((C58_read hd).2 h'))

/-- The documents that describe a Thing are those of the grammar. -/
theorem C58_grammar (hd : d.NumbersInRange) : (∃ t, Doc.IsThing env C d t) ↔ Doc.Object (Doc.Thing env C) d := by
  rw [← Acc.thing d]
  exact exists_congr fun t => (C58_read hd).symm

/-- The same for a data schema alone, with everything nested in it. -/
theorem C58_schema (hd : d.NumbersInRange) {s : DS X} : deDS C env d = some s ↔ Doc.IsDS env C d s :=
  Reads.schema d hd s

/-- If a name is given to several properties, the last one is read. -/
theorem C58_last_property {es : Members} (hd : (Json.obj es).NumbersInRange)
    (h : fromText C env (.obj es) = some t) {ps : Members} (hp : ("properties", .obj ps) ∈ es) :
    ∃ m, t.properties = some m ∧ ∀ k p, m.get? k = some p ↔
      ∃ w, lastOf (occ k ps) = some w ∧ Doc.IsObject (Doc.IsProperty env C) w p := by
  obtain ⟨ht⟩ := (C58_read hd).1 h
  have hp := mem_occ.2 hp
  generalize ht.properties = hprop
  generalize t.properties = o at hprop
  cases hprop with
  | absent h0 => rw [h0] at hp; cases hp
  | given h1 h2 =>
    rw [h1, List.mem_singleton] at hp
    subst hp
    cases h2 with
    | value _ hm =>
      obtain ⟨_, _, hr⟩ := hm
      refine ⟨_, rfl, fun k p => ?_⟩
      have hread : ∀ w, lastOf (occ k ps) = some w → w.NumbersInRange := by
        intro w hw
        have h3 : ("properties", Json.obj ps) ∈ es := mem_occ.1 (h1 ▸ List.mem_singleton.2 rfl)
        exact number_mem (number_mem hd h3) (mem_occ.1 (lastOf_mem hw))
      have hk := hr k
      generalize HMap.get? _ k = g at hk
      generalize lastOf (occ k ps) = l at hk hread
      cases hk with
      | none => simp
      | some hk =>
        rename_i w q
        constructor
        · intro e; cases e; exact ⟨w, rfl, hk⟩
        · rintro ⟨_, e, h'⟩
          cases e
          have := (Reads.property w (hread w rfl) q).2 hk
          rw [(Reads.property w (hread w rfl) p).2 h'] at this
          rw [Option.some.inj this]

/-- The value that is written for a storable Thing describes this Thing. -/
theorem C58_written (sep : C.Separate) (hst : Storable env C t) {v : Json} (hv : toValue C env t = some v)
    (hn : v.NumbersInRange) : Doc.IsThing env C v t :=
  (C58_read hn).1 (C28_value_round_trip sep hst hv)

/-! ### Examples -/

namespace Demo

/-- A document that uses the less common spellings. -/
def meantMembers : Members :=
  [("title", .str "Lamp"), ("@context", .obj [("b", .num (.pos 1)), ("a", .null), ("b", .num (.pos 2))]),
   ("security", .str "none"), ("created", .str "2024-01-01T00:00:00Z"), ("version", .arr [.str "1", .null]),
   ("securityDefinitions", .obj [("none", .obj [("scheme", .num (.pos 0))]),
     ("other", .obj [("scheme", .str "digest"), ("x", .bool true)])]),
   ("links", .arr [.arr [.str "/a", .null, .str "up", .null, .null]]),
   ("forms", .arr [.obj [("href", .str "/"), ("op", .obj [("readallproperties", .null)])]]),
   ("properties", .obj [
     ("on", .obj [("forms", .arr []), ("type", .str "string")]),
     ("on", .obj [("forms", .arr []), ("type", .str "integer"), ("minimum", .num (.pos 1)), ("title", .str "On")])])]

theorem meant_range : (Json.obj meantMembers).NumbersInRange := numbersInRange_of (by decide)

/-- It describes a Thing with one property, which is the second one. -/
theorem meant_read : ∃ t, fromText .nil tenv (.obj meantMembers) = some t ∧
    t.context = .obj [("a", .null), ("b", .num (.pos 2))] ∧
    t.version = some { instance_ := "1", model := none } ∧
    t.links = some [{ href := "/a", ty := none, rel := some "up", anchor := none, sizes := none, hreflang := none }] ∧
    (t.properties.map fun m => m.map fun kv => (kv.1, kv.2.dataSchema.head.title)) = some [("on", some "On")] ∧
    (t.securityDefinitions.map fun kv => (kv.1, kv.2.subtype)) =
      [("none", .known .noSec), ("other", .unknown "digest" (.obj [("x", .bool true)]))] :=
  ⟨_, rfl, rfl, rfl, rfl, rfl, rfl⟩

example : ∃ t, Doc.IsThing tenv .nil (.obj meantMembers) t := by
  obtain ⟨t, h, _⟩ := meant_read
  exact ⟨t, (C58_read meant_range).1 h⟩

/-- Without a title, it describes nothing. -/
example : ¬ ∃ t, Doc.IsThing tenv .nil (.obj (meantMembers.drop 1)) t := by
  rintro ⟨t, h⟩
  have := (C58_read (numbersInRange_of (by decide))).2 h
  cases this

end Demo

end Wot
