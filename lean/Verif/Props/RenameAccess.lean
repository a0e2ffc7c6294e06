import Verif.Lemmas.RenameAccess
import Verif.Props.Rename
import Verif.Props.Access
/-
C88: what clients can do with a Thing does not depend on the names in it.

`r.place` and `r.demand` put new names for those of affordances and security definitions (Spec/RenameAccess). The Things of
`C88_forms` to `C88_offers` are any with sorted maps: those that have been built (C49_built) or read (C49_read).
-/
namespace Wot

variable {X : ExtTypes} {r : Renaming} {t : Thing X} {p : Place}

/-- The renamed Thing has the renamed forms in the renamed places, -/
theorem C88_forms (hf : r.Faithful) (hm : t.Maps) (p : Place) :
    (r.thing t).formAt (r.place p) = (t.formAt p).map r.form :=
  Renamed.formAt_eq hf hm.properties hm.actions hm.events p

/-- and no others. -/
theorem C88_places {q : Place} {f : Form X} (hq : (r.thing t).formAt q = some f) : ∃ p, q = r.place p := Renamed.place_of hq

/-- A client with the credentials for some security definitions can use the same forms as one with those for the renamed
definitions. Custom schemes must not have the name of the scheme for combinations, because their members are not understood and
so not renamed. -/
theorem C88_opens (hf : r.Faithful) (hm : t.Maps)
    (hc : ∀ kv ∈ t.securityDefinitions, ∀ data, kv.2.subtype ≠ .unknown "combo" data) {has has' : String → Prop}
    (hh : ∀ n, has' (r.security n) ↔ has n) (p : Place) : (r.thing t).Opens has' (r.place p) ↔ t.Opens has p := by
  unfold Thing.Opens
  rw [C88_forms hf hm]
  have H : ∀ f : Form X, (∀ n ∈ (r.form f).security.getD (r.thing t).security, Met (r.thing t).Demands has' n) ↔
      ∀ n ∈ f.security.getD t.security, Met t.Demands has n := fun f => by
    have e : (r.form f).security.getD (r.thing t).security = (f.security.getD t.security).map r.security := by
      show (f.security.map _).getD _ = _
      cases f.security <;> rfl
    rw [e]
    constructor
    · exact fun h n hn => (Renamed.met_eq hf hm.securityDefinitions hc hh).1 (h _ (List.mem_map_of_mem hn))
    · intro h n hn
      obtain ⟨m, hm', rfl⟩ := List.mem_map.1 hn
      exact (Renamed.met_eq hf hm.securityDefinitions hc hh).2 (h m hm')
  constructor
  · rintro ⟨f, h1, h2⟩
    obtain ⟨g, hg, rfl⟩ := Option.map_eq_some_iff.1 h1
    exact ⟨g, hg, (H g).1 h2⟩
  · rintro ⟨f, h1, h2⟩
    exact ⟨_, congrArg (Option.map _) h1, (H f).2 h2⟩

/-- The forms offer the same operations. -/
theorem C88_offers (hf : r.Faithful) (hm : t.Maps) (p : Place) (o : FormOperation) :
    (r.thing t).Offers (r.place p) o ↔ t.Offers p o := by
  have e : (r.place p).Default ((r.thing t).readOnlyAt (r.place p)) ((r.thing t).writeOnlyAt (r.place p)) o =
      p.Default (t.readOnlyAt p) (t.writeOnlyAt p) o := by
    cases p with
    | property n i =>
      unfold Thing.readOnlyAt Thing.writeOnlyAt
      show Place.Default (.property _ _) (((r.thing t).properties.bind (HMap.get? · (r.affordance .property n))).any _)
        (((r.thing t).properties.bind (HMap.get? · (r.affordance .property n))).any _) o =
        Place.Default (.property n i) ((t.properties.bind (HMap.get? · n)).any _) ((t.properties.bind (HMap.get? · n)).any _) o
      rw [Renamed.property_at hf hm.properties]
      cases t.properties.bind (HMap.get? · n) <;> rfl
    | _ => rfl
  unfold Thing.Offers
  rw [C88_forms hf hm, e]
  constructor
  · rintro ⟨f, h1, h2⟩
    obtain ⟨g, hg, rfl⟩ := Option.map_eq_some_iff.1 h1
    exact ⟨g, hg, h2⟩
  · rintro ⟨f, h1, h2⟩
    exact ⟨_, congrArg (Option.map _) h1, h2⟩

/-- So the clients of a program that uses other names can do the same with the Thing it builds. -/
theorem C88_program {env : Env} {title : String} {h : List (ThingOp X)} {b b' : ThingBuilder X} (hf : r.Faithful)
    (hr : Reachable X title h b) (hr' : Reachable X title (r.calls h) b') (ho : b'.other = b.other) {t' : Thing X}
    (hb : b.build env = .ok t) (hb' : b'.build env = .ok t')
    (hc : ∀ kv ∈ t.securityDefinitions, ∀ data, kv.2.subtype ≠ .unknown "combo" data) {has has' : String → Prop}
    (hh : ∀ n, has' (r.security n) ↔ has n) (p : Place) :
    (t'.Opens has' (r.place p) ↔ t.Opens has p) ∧ ∀ o, t'.Offers (r.place p) o ↔ t.Offers p o := by
  rw [C87_thing hf hr hr' ho hb] at hb'
  cases hb'
  have hm := C49_built hr hb
  exact ⟨C88_opens hf hm hc hh p, C88_offers hf hm p⟩

/-! ### Examples -/

namespace Demo

/-- In the example Thing with prefixed names the client with credentials for `s-basic` can use the form of the property, the one
with credentials for `s-psk` cannot. -/
example : (prefixed.thing thing).Opens (· = "s-basic") (.property "p-temperature" 0) ∧
    ¬ (prefixed.thing thing).Opens (· = "s-psk") (.property "p-temperature" 0) := by
  have hc : ∀ kv ∈ thing.securityDefinitions, ∀ data, kv.2.subtype ≠ .unknown "combo" data := by
    rintro ⟨n, s⟩ hs data hd
    rcases securities_eq hs with e | e | e <;> rw [e] at hd <;> cases hd
  have hm : thing.Maps := C49_built reachable built
  have hh : ∀ k n, prefixed.security n = "s-" ++ k ↔ n = k := fun k n => String.append_right_inj _
  exact ⟨(C88_opens prefixed_faithful hm hc (hh "basic") (.property "temperature" 0)).2 temperature_opens.1,
    fun h => temperature_opens.2 ((C88_opens prefixed_faithful hm hc (hh "psk") (.property "temperature" 0)).1 h)⟩

example (o : FormOperation) : (prefixed.thing thing).Offers (.property "p-temperature" 0) o ↔
    thing.Offers (.property "temperature" 0) o :=
  C88_offers prefixed_faithful (C49_built reachable built) (.property "temperature" 0) o

/-- A custom scheme that combines the scheme `basic`. -/
def posing : List (ThingOp Demo.X) :=
  [secure (.unknown "combo" (.obj [("oneOf", .str "basic")])), .common (.security { subtype := .known (.basic {}) }),
    .action "a" (act [])]

theorem posing_reachable : Reachable Demo.X "Lamp" posing (run posing) :=
  run_reachable _ fun op ho => by
    simp only [posing, List.mem_cons, List.not_mem_nil, or_false] at ho
    rcases ho with rfl | rfl | rfl
    · exact ⟨[.custom "combo", .data (.obj [("oneOf", .str "basic")]), .required], rfl⟩
    · exact ⟨[.basic], rfl⟩
    · exact act_built (fun op ho => absurd ho List.not_mem_nil)

end Demo

/-- The members of a custom scheme are not understood: if it has the name of the scheme for combinations, what it combines keeps
the old names, and clients are locked out. -/
theorem C88_custom : ∃ t, (Demo.run Demo.posing).build Demo.env = .ok t ∧ t.Opens (· = "basic") (.action "a" 0) ∧
    ¬ (Demo.prefixed.thing t).Opens (· = "s-basic") (Demo.prefixed.place (.action "a" 0)) := by
  refine ⟨_, rfl, ?_, fun ho => ?_⟩
  · refine ⟨_, rfl, fun n hn => ?_⟩
    cases List.mem_singleton.1 hn
    refine .any (m := "basic") (l := ["basic"]) ⟨_, rfl, .custom (.any rfl rfl .one)⟩ (List.mem_singleton.2 rfl) ?_
    exact .credentials ⟨_, rfl, .credentials (by nofun) (by nofun)⟩ rfl
  · obtain ⟨f, hf, ho⟩ := C79_locked.1 ho
    cases hf
    refine ho "s-combo" (List.mem_singleton.2 rfl) (fun n => n = "s-combo" ∨ n = "basic") ?_ (.inl rfl)
    rintro n (rfl | rfl) d ⟨s, hs, ha⟩
    · cases hs
      have ha : SchemeSubtype.Asks (.unknown "combo" (.obj [("oneOf", .str "basic")])) d := ha
      cases ha with
      | custom ha =>
        cases ha with
        | nothing e => exact absurd e (by decide)
        | any _ e hl =>
          cases e
          cases hl
          exact fun m hm => .inr (List.mem_singleton.1 hm)
        | all _ e _ => cases e
        | credentials _ e => exact absurd rfl e
    · cases hs

end Wot
