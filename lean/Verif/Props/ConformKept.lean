import Verif.Lemmas.ConformKept
import Verif.Props.Conform
import Verif.Props.ConformRead
import Verif.Props.Meaning
/-
C78: a Thing Description as the W3C Recommendation defines it is still one after it has been read and written.

`Conform.Thing` (Spec/Conform) says when a JSON value is a Thing Description. The claim is false for versions without a
model and for empty lists of operations, which are written as `null`. It holds of all other documents.
-/
namespace Wot

variable {X : ExtTypes} {C : ExtCodecs X} {env : SerdeEnv} {F : Conform.Formats} {d v : Json} {t : Thing X}

/-- What is written for a Thing that has been read from a document that conforms to the Recommendation conforms as well
if and only if the version in the document has a model, if there is a version, and no form has an empty list of
operations. The full statement would do without these conditions; it is false, see below. -/
theorem C78_rewritten_partial (hs : C.Separate) (ho : C.Own) (hk : C.Foreign) (he : env.Stable) (hF : F.KeptBy env)
    (hd : d.NoDup) (hr : d.NumbersInRange) (hc : Conform.Thing F d) (h : fromText C env d = some t)
    (hv : toValue C env t = some v) :
    Conform.Thing F v ↔ (∀ w, d.member "version" = some w → w.member "model" ≠ none) ∧
      ∀ f, Conform.FormIn d f → f.member "op" ≠ some (.arr []) := by
  have hi := (C58_read hr).1 h
  have hP : Hereditary fun _ => True := ⟨fun _ _ => trivial, fun _ _ => trivial, fun _ _ => trivial⟩
  have ha : ∀ m, t.properties = some m → ∀ kv ∈ m, kv.2.Agrees := fun m hm kv hkv =>
    let ⟨_, _, hr⟩ := ((thing_from he hP trivial h).properties m hm).2 kv hkv
    property_agrees hr
  rw [Conform.thing_iff hk (C49_read he h) ha (C52_read hs ho he h hv), ← Conform.version_model hi hc ⟨hd, hr⟩,
    ← Conform.forms_empty hi hc ⟨hd, hr⟩]
  exact ⟨fun hp => ⟨hp.version, fun ctx f hf e => ((hp.forms ctx f hf).ops [] e).1 rfl⟩,
    fun ⟨h1, h2⟩ => Conform.thing_kept hF hi hc ⟨hd, hr⟩ h1 h2⟩

/-! ### Examples -/

namespace Demo

theorem readable_kept : readable.KeptBy senv := ⟨fun _ _ _ _ => trivial, fun _ _ _ h => h.elim⟩

/-- An event with one form, which has the operations `ops`. -/
def opEvent (ops : Json) : Json := .obj [("forms", .arr [.obj [("href", .str "/hot"), ("op", ops)]])]

theorem opEvent_conform {D S : String → Prop} {ops : Json}
    (h : Conform.OneOrMany (Conform.Str (· ∈ Conform.operations .event)) ops) : Conform.Event readable D S (opEvent ops) := by
  refine ⟨⟨⟨_, rfl⟩, ⟨may_absent rfl, may_absent rfl, may_absent rfl, may_absent rfl, may_absent rfl⟩, ?_,
    may_absent rfl⟩, may_absent rfl, may_absent rfl, may_absent rfl, may_absent rfl⟩
  refine ⟨_, rfl, _, rfl, Nat.le_refl 1, fun w hw => ?_⟩
  cases List.mem_singleton.1 hw
  constructor
  case object => exact ⟨_, rfl⟩
  case href => exact ⟨_, rfl, _, rfl, trivial⟩
  case opGiven => nofun
  case op =>
    intro w hw
    cases hw
    exact h
  all_goals exact may_absent rfl

/-- A Thing Description with a version and one security definition. -/
def versionDocument (version : Json) : Json :=
  .obj [("@context", .str "https://www.w3.org/2022/wot/td/v1.1"), ("title", .str "Lamp"), ("version", version),
    ("security", .str "s"), ("securityDefinitions", .obj [("s", definition "nosec" [])])]

theorem versionDocument_conform {version : Json} (h : Conform.Version version) :
    Conform.Thing readable (versionDocument version) := by
  have hD : Conform.Defined "securityDefinitions" (versionDocument version) "s" := ⟨_, rfl, nofun⟩
  constructor
  case object => exact ⟨_, rfl⟩
  case context => exact ⟨_, rfl, .single⟩
  case title => exact ⟨_, rfl, _, rfl, trivial⟩
  case info =>
    refine ⟨may_absent rfl, ?_, may_absent rfl, may_absent rfl, may_absent rfl⟩
    intro w h
    cases h
    exact ⟨_, rfl, trivial⟩
  case version =>
    intro w hw
    cases hw
    exact h
  case security => exact ⟨_, rfl, .inl ⟨_, rfl, hD⟩⟩
  case securityDefinitions =>
    refine ⟨_, rfl, ⟨_, rfl⟩, fun k x hx => ?_⟩
    simp only [Json.member, HMap.get?_cons] at hx
    split at hx
    · cases hx; exact nosec_conform
    · cases hx
  all_goals exact may_absent rfl

end Demo

/-- A document that conforms, with operations, is read and written again as one that conforms. -/
example : ∃ d t v, Conform.Thing Demo.readable d ∧ fromText .nil Demo.senv d = some t ∧ toValue .nil Demo.senv t = some v ∧
    Conform.Thing Demo.readable v := by
  have hc := Demo.eventDocument_conform (Demo.opEvent_conform (ops := .arr [.str "subscribeevent"])
    (.inr ⟨_, rfl, fun w hw => by cases List.mem_singleton.1 hw; exact ⟨_, rfl, by decide⟩⟩)) Demo.nosec_conform
  refine ⟨_, _, _, hc, rfl, rfl, (C78_rewritten_partial (C := .nil) Demo.nil_separate Demo.nil_own Demo.nil_foreign
    Demo.stable Demo.readable_kept (Demo.eventDocument_noDup
      (by simp [Json.NoDup, Json.NoDupMembers, Json.NoDupList, Demo.opEvent])
      (by simp [Json.NoDup, Json.NoDupMembers, Demo.definition])) (numbersInRange_of (by decide)) hc rfl rfl).2 ⟨nofun, ?_⟩⟩
  intro f hf
  cases hf with
  | thing h => obtain ⟨_, h, -⟩ := h; cases h
  | property h => obtain ⟨_, _, h, -⟩ := h; cases h
  | action h => obtain ⟨_, _, h, -⟩ := h; cases h
  | event h h' =>
    obtain ⟨_, n, h, hn⟩ := h
    cases h
    simp only [Json.member, HMap.get?_cons] at hn
    split at hn
    · cases hn
      obtain ⟨_, h, hl⟩ := h'
      cases h
      cases List.mem_singleton.1 hl
      nofun
    · cases hn

/-- A document that conforms, is read, and is written as one that does not: its version has no model. -/
theorem C78_version : ∃ d t v, d.NoDup ∧ d.NumbersInRange ∧ Conform.Thing Demo.readable d ∧
    fromText .nil Demo.senv d = some t ∧ toValue .nil Demo.senv t = some v ∧ ¬ Conform.Thing Demo.readable v := by
  have hc := Demo.versionDocument_conform (version := .obj [("instance", .str "1")])
    ⟨⟨_, rfl⟩, ⟨_, rfl, _, rfl, trivial⟩, Demo.may_absent rfl⟩
  have hd : (Demo.versionDocument (.obj [("instance", .str "1")])).NoDup := by
    simp [Json.NoDup, Json.NoDupMembers, Demo.versionDocument, Demo.definition]
  have hr : (Demo.versionDocument (.obj [("instance", .str "1")])).NumbersInRange := numbersInRange_of (by decide)
  exact ⟨_, _, _, hd, hr, hc, rfl, rfl, fun h => ((C78_rewritten_partial (C := .nil) Demo.nil_separate Demo.nil_own
    Demo.nil_foreign Demo.stable Demo.readable_kept hd hr hc rfl rfl).1 h).1 _ rfl rfl⟩

/-- Another one: a form has an empty list of operations. -/
theorem C78_operations : ∃ d t v, d.NoDup ∧ d.NumbersInRange ∧ Conform.Thing Demo.readable d ∧
    fromText .nil Demo.senv d = some t ∧ toValue .nil Demo.senv t = some v ∧ ¬ Conform.Thing Demo.readable v := by
  have hc := Demo.eventDocument_conform (Demo.opEvent_conform (ops := .arr []) (.inr ⟨_, rfl, nofun⟩)) Demo.nosec_conform
  have hd := Demo.eventDocument_noDup (e := Demo.opEvent (.arr [])) (sec := Demo.definition "nosec" [])
    (by simp [Json.NoDup, Json.NoDupMembers, Json.NoDupList, Demo.opEvent])
    (by simp [Json.NoDup, Json.NoDupMembers, Demo.definition])
  have hr : (Demo.eventDocument (Demo.opEvent (.arr [])) (Demo.definition "nosec" [])).NumbersInRange :=
    numbersInRange_of (by decide)
  exact ⟨_, _, _, hd, hr, hc, rfl, rfl, fun h => ((C78_rewritten_partial (C := .nil) Demo.nil_separate Demo.nil_own
    Demo.nil_foreign Demo.stable Demo.readable_kept hd hr hc rfl rfl).1 h).2 _
      (.event ⟨_, "hot", rfl, rfl⟩ ⟨_, rfl, List.mem_singleton.2 rfl⟩) rfl⟩

end Wot
