import Verif.Lemmas.Access
import Verif.Props.ConformKept
/-
C79: who can use the forms of a Thing.

`Json.Opens` and `Thing.Opens` (Spec/Access) say which clients can use the form in a place, according to a document and
according to a Thing. They agree. That a form of a built Thing can be used by somebody is false: `build` checks that
combinations are of schemes that are defined, but not that they do not contain themselves.
-/
namespace Wot

variable {X : ExtTypes} {C : ExtCodecs X} {env : SerdeEnv} {F : Conform.Formats} {d v : Json} {t : Thing X}
  {title : String} {h : List (ThingOp X)} {b : ThingBuilder X} {e : Env} {has : String → Prop} {p : Place}

/-! ### Documents -/

/-- The document that is written for a Thing opens its forms to the same clients as the Thing. -/
theorem C79_written (hs : C.Separate) (ho : C.Own) (hm : t.Maps) (hn : ∀ kv ∈ t.securityDefinitions, kv.2.subtype.OwnNames)
    (hv : toValue C env t = some v) : v.Opens has p ↔ t.Opens has p :=
  opens_shown (C52_value hs ho hm hn hv)

/-- A Thing that has been read from a document that conforms to the Recommendation opens its forms to the same clients as
the document. -/
theorem C79_read (hd : d.NoDup) (hr : d.NumbersInRange) (hc : Conform.Thing F d) (h : fromText C env d = some t) :
    t.Opens has p ↔ d.Opens has p :=
  (Conform.opens_read ((C58_read hr).1 h) hc ⟨hd, hr⟩).symm

/-- So reading a document and writing it again does not open or close anything, also if there are schemes that are not
understood. -/
theorem C79_rewritten (hs : C.Separate) (ho : C.Own) (he : env.Stable) (hd : d.NoDup) (hr : d.NumbersInRange)
    (hc : Conform.Thing F d) (h : fromText C env d = some t) (hv : toValue C env t = some v) :
    v.Opens has p ↔ d.Opens has p :=
  (opens_shown (C52_read hs ho he h hv)).trans (C79_read hd hr hc h)

/-! ### Things -/

/-- Exactly when a client can use a form: no name given for it is in a set of definitions that lock each other. -/
theorem C79_locked : t.Opens has p ↔ ∃ f, t.formAt p = some f ∧
    ∀ n ∈ f.security.getD t.security, ∀ S, t.Locked has S → ¬ S n := by
  unfold Thing.Opens
  simp only [met_locked]

/-- Every form of a built Thing can be used by a client that has all credentials, if the combinations do not contain
themselves, have at least one alternative, and are not made as custom schemes. The full statement would do without these
conditions; it is false, see below. -/
theorem C79_open_partial (hr : Reachable X title h b) (hb : b.build e = .ok t) {level : String → Nat}
    (ht : History.Tiered h level) {f : Form X} (hp : t.formAt p = some f) : t.Opens (fun _ => True) p := by
  have hdef := C01_security_definitions hr hb
  have hm := C49_built hr hb
  have key : ∀ k n, level n < k → t.Defines n → Met t.Demands (fun _ => True) n := by
    intro k
    induction k with
    | zero => exact fun n hn => absurd hn (Nat.not_lt_zero _)
    | succ k ih =>
      intro n hn hd
      obtain ⟨s, hg⟩ := Conform.mem_keys_iff.1 hd
      obtain ⟨c, hc, rfl, rfl⟩ := (hdef.2.2 n s).1 (HMap.mem_of_get? hg)
      have hbelow := ht.below c hc
      have href : ∀ m, c.subtype.References m → Met t.Demands (fun _ => True) m := fun m hm =>
        ih m (Nat.lt_of_lt_of_le (hbelow m hm) (Nat.le_of_lt_succ hn))
          ((hr.defines hb).2 ((hr.valid_of_build hb).comboReferences c hc m hm))
      have hask : ∀ d, c.subtype.Asks d → t.Demands (securityName c) d := fun d hd => ⟨_, hg, hd⟩
      have hchoice := ht.choice c hc
      have hcustom := ht.custom c hc
      unfold SchemeSubtype.References at href
      generalize c.subtype = st at hask hchoice hcustom href
      cases st with
      | known k =>
        cases k with
        | noSec => exact .nothing (hask _ .nosec)
        | combo co =>
          cases co with
          | oneOf l =>
            cases l with
            | nil => exact absurd rfl hchoice
            | cons m l => exact .any (hask _ .oneOf) List.mem_cons_self (href m ⟨_, .inl rfl, List.mem_cons_self⟩)
          | allOf l => exact .all (hask _ .allOf) fun m hm => href m ⟨_, .inr rfl, hm⟩
        | _ => exact .credentials (hask _ (.credentials (by nofun) (by nofun))) trivial
      | unknown name data =>
        by_cases h1 : name = "nosec"
        · exact .nothing (hask _ (.custom (.nothing h1)))
        · have h2 : name ≠ "combo" := fun e => hcustom data (by rw [e])
          exact .credentials (hask _ (.custom (.credentials h1 h2))) trivial
  refine ⟨f, hp, fun n hn => key _ n (Nat.lt_succ_self _) ?_⟩
  have hf := hasForm_of_formAt hp
  cases hs : f.security with
  | none =>
    rw [hs] at hn
    exact (C02_thing_security hr hb).2 n hn
  | some l =>
    rw [hs] at hn
    exact C03_form_security hr hb hf hs hn

/-! ### Examples -/

namespace Demo

/-- A client with credentials for `basic` can use the form of the property, one with credentials for `psk` only cannot. -/
theorem temperature_opens : thing.Opens (· = "basic") (.property "temperature" 0) ∧
    ¬ thing.Opens (· = "psk") (.property "temperature" 0) := by
  have hb : ∀ d, thing.Demands "basic" d ↔ d = .credentials := by
    intro d
    constructor
    · rintro ⟨s, hs, ha⟩
      cases hs
      have ha : SchemeSubtype.Asks (.known (.basic {})) d := ha
      cases ha
      rfl
    · rintro rfl
      exact ⟨_, rfl, .credentials (by nofun) (by nofun)⟩
  constructor
  · refine ⟨_, rfl, fun n hn => ?_⟩
    cases List.mem_singleton.1 hn
    exact .credentials ((hb _).2 rfl) rfl
  · intro ho
    obtain ⟨f, hf, ho⟩ := C79_locked.1 ho
    cases hf
    refine ho "basic" (List.mem_singleton.2 rfl) (· = "basic") ?_ rfl
    rintro n rfl d hd
    cases (hb d).1 hd
    exact fun h => absurd h (by decide)

end Demo

/-- The same holds of the document of this Thing. -/
example : ∃ v, toValue .nil Demo.senv Demo.thing = some v ∧ v.Opens (· = "basic") (.property "temperature" 0) ∧
    ¬ v.Opens (· = "psk") (.property "temperature" 0) := by
  have hn : ∀ kv ∈ Demo.thing.securityDefinitions, kv.2.subtype.OwnNames := by
    rintro ⟨n, s⟩ hs scheme m hm
    rcases Demo.securities_eq hs with e | e | e <;> rw [e] at hm <;> cases hm
  have hm : Demo.thing.Maps := C49_built Demo.reachable Demo.built
  obtain ⟨v, hv⟩ : ∃ v, toValue .nil Demo.senv Demo.thing = some v := ⟨_, rfl⟩
  exact ⟨v, hv, (C79_written Demo.nil_separate Demo.nil_own hm hn hv).2 Demo.temperature_opens.1,
    fun h => Demo.temperature_opens.2 ((C79_written Demo.nil_separate Demo.nil_own hm hn hv).1 h)⟩

/-- The combination in this Thing does not contain itself: a client with all credentials can use all forms. -/
example : Demo.thing.Opens (fun _ => True) (.thing 0) ∧ Demo.thing.Opens (fun _ => True) (.event "overheat" 0) := by
  have ht : History.Tiered Demo.history fun n => if n = "both" then 1 else 0 := by
    have hc : ∀ c ∈ History.securities Demo.history, c = Demo.combo ∨ c = Demo.basic ∨ c = Demo.psk := by
      intro c hc
      simpa [History.securities, Demo.history, Demo.link] using hc
    refine ⟨fun c h m hm => ?_, fun c h => ?_, fun c h data => ?_⟩
    · rcases hc c h with rfl | rfl | rfl
      · obtain ⟨l, hl, hm⟩ := hm
        rcases hl with hl | hl
        · cases hl
        · cases hl
          have : m = "basic" ∨ m = "psk" := by simpa using hm
          rcases this with rfl | rfl <;> decide
      · obtain ⟨l, hl | hl, -⟩ := hm <;> cases hl
      · obtain ⟨l, hl | hl, -⟩ := hm <;> cases hl
    · rcases hc c h with rfl | rfl | rfl <;> nofun
    · rcases hc c h with rfl | rfl | rfl <;> nofun
  exact ⟨C79_open_partial Demo.reachable Demo.built ht rfl, C79_open_partial Demo.reachable Demo.built ht rfl⟩

/-- A document that conforms and whose form is open to everybody is read and written again as such a document. -/
example : ∃ d t v, Conform.Thing Demo.readable d ∧ fromText .nil Demo.senv d = some t ∧ toValue .nil Demo.senv t = some v ∧
    d.Opens (fun _ => False) (.event "hot" 0) ∧ v.Opens (fun _ => False) (.event "hot" 0) := by
  have hc := Demo.eventDocument_conform (Demo.opEvent_conform (ops := .arr [.str "subscribeevent"])
    (.inr ⟨_, rfl, fun w hw => by cases List.mem_singleton.1 hw; exact ⟨_, rfl, by decide⟩⟩)) Demo.nosec_conform
  have hd := Demo.eventDocument_noDup (e := Demo.opEvent (.arr [.str "subscribeevent"])) (sec := Demo.definition "nosec" [])
    (by simp [Json.NoDup, Json.NoDupMembers, Json.NoDupList, Demo.opEvent])
    (by simp [Json.NoDup, Json.NoDupMembers, Demo.definition])
  have ho : (Demo.eventDocument (Demo.opEvent (.arr [.str "subscribeevent"])) (Demo.definition "nosec" [])).Opens
      (fun _ => False) (.event "hot" 0) := by
    refine ⟨_, ["s"], rfl, .thing rfl rfl .one, fun n hn => ?_⟩
    cases List.mem_singleton.1 hn
    exact .nothing ⟨_, _, "nosec", rfl, rfl, rfl, .nothing rfl⟩
  exact ⟨_, _, _, hc, rfl, rfl, ho, (C79_rewritten (C := .nil) Demo.nil_separate Demo.nil_own Demo.stable hd
    (numbersInRange_of (by decide)) hc rfl rfl).2 ho⟩

/-! ### Things with forms that nobody can use -/

/-- These calls are possible and `build` succeeds, but there is a form that no client can use. -/
def Demo.Closed (h : List (ThingOp Demo.X)) : Prop :=
  ∃ b t p f, Reachable Demo.X "Lamp" h b ∧ b.build Demo.env = .ok t ∧ t.formAt p = some f ∧ ∀ has, ¬ t.Opens has p

/-- A combination that contains itself. -/
theorem C79_itself : Demo.Closed [Demo.secure (.known (.combo (.allOf ["combo"]))), .action "a" (Demo.act [])] := by
  refine ⟨_, _, .action "a" 0, _, Demo.run_reachable _ ?_, rfl, rfl, fun has ho => ?_⟩
  · intro op ho
    simp only [List.mem_cons, List.not_mem_nil, or_false] at ho
    rcases ho with rfl | rfl
    · exact ⟨[.combo, .allOf ["combo"], .required], rfl⟩
    · exact Demo.act_built (fun op ho => absurd ho List.not_mem_nil)
  · obtain ⟨f, hf, ho⟩ := C79_locked.1 ho
    cases hf
    refine ho "combo" (List.mem_singleton.2 rfl) (· = "combo") ?_ rfl
    rintro n rfl d ⟨s, hs, ha⟩
    cases hs
    have ha : SchemeSubtype.Asks (.known (.combo (.allOf ["combo"]))) d := ha
    cases ha with
    | allOf => exact ⟨"combo", List.mem_singleton.2 rfl, rfl⟩
    | credentials _ h => exact absurd rfl (h _)

/-- Two combinations that contain each other. -/
theorem C79_each_other : Demo.Closed [Demo.secure (.known (.combo (.oneOf ["b"]))),
    .common (.security { name := some "b", subtype := .known (.combo (.oneOf ["combo"])) }), .action "a" (Demo.act [])] := by
  refine ⟨_, _, .action "a" 0, _, Demo.run_reachable _ ?_, rfl, rfl, fun has ho => ?_⟩
  · intro op ho
    simp only [List.mem_cons, List.not_mem_nil, or_false] at ho
    rcases ho with rfl | rfl | rfl
    · exact ⟨[.combo, .oneOf ["b"], .required], rfl⟩
    · exact ⟨[.combo, .oneOf ["combo"], .withKey "b"], rfl⟩
    · exact Demo.act_built (fun op ho => absurd ho List.not_mem_nil)
  · obtain ⟨f, hf, ho⟩ := C79_locked.1 ho
    cases hf
    refine ho "combo" (List.mem_singleton.2 rfl) (fun n => n = "combo" ∨ n = "b") ?_ (.inl rfl)
    rintro n (rfl | rfl) d ⟨s, hs, ha⟩
    · cases hs
      have ha : SchemeSubtype.Asks (.known (.combo (.oneOf ["b"]))) d := ha
      cases ha with
      | oneOf => exact fun m hm => .inr (List.mem_singleton.1 hm)
      | credentials _ h => exact absurd rfl (h _)
    · cases hs
      have ha : SchemeSubtype.Asks (.known (.combo (.oneOf ["combo"]))) d := ha
      cases ha with
      | oneOf => exact fun m hm => .inl (List.mem_singleton.1 hm)
      | credentials _ h => exact absurd rfl (h _)

/-- A combination without alternatives. -/
theorem C79_no_choice : Demo.Closed [Demo.secure (.known (.combo (.oneOf []))), .action "a" (Demo.act [])] := by
  refine ⟨_, _, .action "a" 0, _, Demo.run_reachable _ ?_, rfl, rfl, fun has ho => ?_⟩
  · intro op ho
    simp only [List.mem_cons, List.not_mem_nil, or_false] at ho
    rcases ho with rfl | rfl
    · exact ⟨[.combo, .oneOf [], .required], rfl⟩
    · exact Demo.act_built (fun op ho => absurd ho List.not_mem_nil)
  · obtain ⟨f, hf, ho⟩ := C79_locked.1 ho
    cases hf
    refine ho "combo" (List.mem_singleton.2 rfl) (· = "combo") ?_ rfl
    rintro n rfl d ⟨s, hs, ha⟩
    cases hs
    have ha : SchemeSubtype.Asks (.known (.combo (.oneOf []))) d := ha
    cases ha with
    | oneOf => exact fun m hm => absurd hm List.not_mem_nil
    | credentials _ h => exact absurd rfl (h _)

/-- A combination that is made as a custom scheme, of a scheme that is not defined. -/
theorem C79_custom : Demo.Closed [Demo.secure (.unknown "combo" (.obj [("oneOf", .str "gone")])), .action "a" (Demo.act [])] := by
  refine ⟨_, _, .action "a" 0, _, Demo.run_reachable _ ?_, rfl, rfl, fun has ho => ?_⟩
  · intro op ho
    simp only [List.mem_cons, List.not_mem_nil, or_false] at ho
    rcases ho with rfl | rfl
    · exact ⟨[.custom "combo", .data (.obj [("oneOf", .str "gone")]), .required], rfl⟩
    · exact Demo.act_built (fun op ho => absurd ho List.not_mem_nil)
  · obtain ⟨f, hf, ho⟩ := C79_locked.1 ho
    cases hf
    refine ho "combo" (List.mem_singleton.2 rfl) (fun n => n = "combo" ∨ n = "gone") ?_ (.inl rfl)
    rintro n (rfl | rfl) d ⟨s, hs, ha⟩
    · cases hs
      have ha : SchemeSubtype.Asks (.unknown "combo" (.obj [("oneOf", .str "gone")])) d := ha
      cases ha with
      | custom ha =>
        cases ha with
        | nothing e => exact absurd e (by decide)
        | any _ e hl =>
          cases e
          cases hl
          exact fun m hm => .inr (List.mem_singleton.1 hm)
        | all _ e _ => cases e
        | credentials _ e => exact absurd rfl e
    · cases hs

end Wot
