import Verif.Lemmas.Shortest
import Verif.Props.JsonText
/-
C67: what the strings of Things look like.
-/
namespace Wot

section
variable {X : ExtTypes} {C : ExtCodecs X} {env : SerdeEnv} {fl : FloatText} {t : Thing X} {s p : String}

/-- C67: either both strings of a Thing can be written or neither. -/
theorem C67_both : (t.toString C env fl).isSome = (t.toStringPretty C env fl).isSome := by
  simp [Thing.toString, Thing.toStringPretty]

/-- C67: the string with line breaks is the compact one, laid out. -/
theorem C67_laid_out (hn : t.NumbersKept fl C) (hs : t.toString C env fl = some s)
    (hp : t.toStringPretty C env fl = some p) : p.toList = laidOut false 0 s.toList := by
  obtain ⟨j, hj, rfl⟩ := Option.map_eq_some_iff.1 hs
  obtain ⟨j', hj', rfl⟩ := Option.map_eq_some_iff.1 hp
  cases hj.symm.trans hj'
  have := laidOut_compact j 0 [] (nums_thing hn hj)
  simpa [laidOut] using this.symm

/-- C67: the compact string is a single line without control characters, whatever the strings in the Thing contain. -/
theorem C67_one_line (hn : t.NumbersKept fl C) (hs : t.toString C env fl = some s) : ∀ c ∈ s.toList, 32 ≤ c.toNat := by
  obtain ⟨j, hj, rfl⟩ := Option.map_eq_some_iff.1 hs
  simpa [Visible] using visible_compact j (nums_thing hn hj)

/-- C67: no other text of the same value is shorter than the compact string, if no text of a float in it is shorter than the
one that is written. -/
theorem C67_shortest {j : Json} {text : String} (hn : t.NumbersKept fl C) (hs : t.toString C env fl = some s)
    (hj : JsonText fl j s) (hf : j.FloatsShortest fl) (ht : JsonText fl j text) : s.length ≤ text.length := by
  obtain ⟨j', hj', rfl⟩ := Option.map_eq_some_iff.1 hs
  cases C65_unambiguous hj (C65_written (nums_thing hn hj')).1
  obtain ⟨v, cs, w, -, h, -, e⟩ := ht
  have := value_shortest h hf
  have e' := congrArg List.length e
  simp only [List.length_append, String.length_toList] at e'
  rw [← String.length_toList, String.toList_ofList]
  omega

end

/-! ### Examples -/

namespace Demo

/-- The text of the Thing of C66 with line breaks. -/
def quietPretty : String :=
  "{\n  \"@context\": \"https://www.w3.org/2022/wot/td/v1.1\",\n  \"title\": \"Lamp\",\n  \"properties\": {\n" ++
  "    \"temperature\": {\n      \"forms\": [\n        {\n          \"op\": [\n            \"readproperty\",\n" ++
  "            \"observeproperty\"\n          ],\n          \"href\": \"/temp\"\n        }\n      ],\n" ++
  "      \"readOnly\": true,\n      \"writeOnly\": false,\n      \"type\": \"number\",\n      \"maximum\": 100.0,\n" ++
  "      \"minimum\": 0.0,\n      \"observable\": true\n    }\n  },\n  \"security\": [],\n  \"securityDefinitions\": {}\n}"

/-- Another text of the value of a Thing. -/
def spacedText : String :=
  " {\"@context\": \"https:\\/\\/www.w3.org/2022/wot/td/v1.1\", \"title\": \"L\\u0061mp\",\n" ++
  "\"security\":[ ],\"securityDefinitions\":{}} "

end Demo

/-- It is the text without line breaks, laid out. -/
example : Demo.quietThing.toStringPretty .nil Demo.senv Demo.floats = some Demo.quietPretty ∧
    Demo.quietPretty.toList = laidOut false 0 Demo.quietText.toList ∧ ∀ c ∈ Demo.quietText.toList, 32 ≤ c.toNat := by
  have h1 : Demo.quietThing.toString .nil Demo.senv Demo.floats = some Demo.quietText := by decide +kernel
  have h2 : Demo.quietThing.toStringPretty .nil Demo.senv Demo.floats = some Demo.quietPretty := by decide +kernel
  have hn := Demo.quiet_numbers Demo.keeps_f0 Demo.keeps_f100
  exact ⟨h2, C67_laid_out hn h1 h2, C67_one_line hn h1⟩

/-- A string with brackets, quotation marks and a line break is not touched by the layout, and written in one line. -/
example : String.ofList ((Json.arr [.str "[,\"\n:", .arr []]).compact Demo.floats) = "[\"[,\\\"\\n:\",[]]" ∧
    String.ofList (laidOut false 0 "[\"[,\\\"\\n:\",[]]".toList) = "[\n  \"[,\\\"\\n:\",\n  []\n]" := by decide +kernel

/-- The text of a Thing without floats, compared with another text of the same value. -/
example : ∃ (t : Thing Demo.X) (s : String), t.toString .nil Demo.senv Demo.allFloats = some s ∧
    t.NumbersKept Demo.allFloats .nil ∧ s.length = 104 ∧ Demo.spacedText.length = 118 ∧
    ∃ j, JsonText Demo.allFloats j s ∧ j.FloatsShortest Demo.allFloats ∧ JsonText Demo.allFloats j Demo.spacedText := by
  let text := "{\"@context\":\"https://www.w3.org/2022/wot/td/v1.1\",\"title\":\"Lamp\",\"security\":[],\"securityDefinitions\":{}}"
  let d : Json := .obj [("title", .str "Lamp"), ("security", .arr []), ("securityDefinitions", .obj []),
    ("@context", .str "https://www.w3.org/2022/wot/td/v1.1")]
  let d' : Json := .obj [("@context", .str "https://www.w3.org/2022/wot/td/v1.1"), ("title", .str "Lamp"),
    ("security", .arr []), ("securityDefinitions", .obj [])]
  obtain ⟨t, h2, h3, h4, h5, h6, h7, h8, h9, hw⟩ : ∃ t : Thing Demo.X,
      t.properties = none ∧ t.actions = none ∧ t.events = none ∧ t.forms = none ∧
      t.uriVariables = none ∧ t.schemaDefinitions = none ∧ t.securityDefinitions = [] ∧ t.context = .str tdContext11 ∧
      t.toString .nil Demo.senv Demo.allFloats = some text :=
    ⟨((fromStr (X := Demo.X) .nil Demo.senv d).get rfl), rfl, rfl, rfl, rfl, rfl, rfl, rfl, rfl, by decide +kernel⟩
  have hs : ∀ {p s}, ¬ t.HasSchema p s := by intro p s h; cases h <;> simp_all
  refine ⟨t, _, hw, ?_, by decide +kernel, by decide +kernel, d', C65_read.1 (by decide +kernel), ?_,
    C65_read.1 (by decide +kernel)⟩
  · exact {
      floats := fun p s x n f h => (hs h).elim
      values := fun p s x h => (hs h).elim
      forms := fun _ _ _ => ⟨fun es h => by cases h; nofun, fun _ _ es h => by cases h; nofun⟩
      interactions := fun _ _ es h => by cases h; nofun
      properties := fun _ _ _ _ es h => by cases h; nofun
      actions := fun _ _ _ _ es h => by cases h; nofun
      events := fun _ _ _ _ es h => by cases h; nofun
      security := by rw [h8]; intro n s _ _ h; cases h
      context := by rw [h9]; intro n h; cases h
      other := fun es h => by cases h; nofun }
  · intro f hn
    simp only [d'] at hn
    cases hn with
    | member hm hn =>
      simp only [List.mem_cons, List.not_mem_nil, or_false, Prod.mk.injEq] at hm
      rcases hm with ⟨-, rfl⟩ | ⟨-, rfl⟩ | ⟨-, rfl⟩ | ⟨-, rfl⟩ <;> cases hn <;> contradiction

end Wot
