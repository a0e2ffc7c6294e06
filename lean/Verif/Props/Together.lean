import Verif.Lemmas.Together
import Verif.Props.Affordances
import Verif.Props.Build
import Verif.Props.Members
import Verif.Props.Conform
/-
C81: Things can be put together.
-/
namespace Wot

variable {X : ExtTypes} {title title₂ : String} {h h₁ h₂ : List (ThingOp X)} {b b₁ b₂ : ThingBuilder X}
  {env : Env} {t t₁ t₂ : Thing X}

/-- The calls that led to one builder can be made on another one (with its extension finished). -/
theorem C81_calls (hr₁ : Reachable X title h₁ b₁) (hr₂ : Reachable X title₂ h₂ b₂) :
    Reachable X title (h₁ ++ h₂) (b₁.run h₂) := hr₁.run hr₂.built

section
variable (hr₁ : Reachable X title h₁ b₁) (hr₂ : Reachable X title₂ h₂ b₂) (hb₁ : b₁.build env = .ok t₁)
  (hb₂ : b₂.build env = .ok t₂)
include hr₁ hr₂ hb₁ hb₂

theorem affordance_shared (ty : AffordanceType) (n : String) :
    Twice (History.affordanceNames (h₁ ++ h₂) ty) n ↔ n ∈ t₁.affordanceNames ty ∧ n ∈ t₂.affordanceNames ty := by
  obtain ⟨d1, p1⟩ := C06_affordance_names hr₁ hb₁ ty
  obtain ⟨d2, p2⟩ := C06_affordance_names hr₂ hb₂ ty
  rw [p1.mem_iff, p2.mem_iff, affordanceNames_append]
  exact twice_append d1 d2 n

theorem security_shared (n : String) :
    Twice ((History.securities (h₁ ++ h₂)).map securityName) n ↔ t₁.Defines n ∧ t₂.Defines n := by
  rw [hr₁.defines hb₁, hr₂.defines hb₂, securities_append, List.map_append,
    twice_append (hr₁.valid_of_build hb₁).securityNames (hr₂.valid_of_build hb₂).securityNames,
    List.mem_map, List.mem_map]
  exact .rfl

theorem apart_iff : t₁.Apart t₂ ↔ ((History.securities (h₁ ++ h₂)).map securityName).Nodup ∧
    ∀ ty, (History.affordanceNames (h₁ ++ h₂) ty).Nodup := by
  simp only [← not_twice_iff, security_shared hr₁ hr₂ hb₁ hb₂, affordance_shared hr₁ hr₂ hb₁ hb₂]
  exact ⟨fun ⟨h1, h2⟩ => ⟨fun n ⟨a, b⟩ => h1 n a b, fun ty n ⟨a, b⟩ => h2 ty n a b⟩,
    fun ⟨h1, h2⟩ => ⟨fun n a b => h1 n ⟨a, b⟩, fun ty n a b => h2 ty n ⟨a, b⟩⟩⟩

/-- C81: if two sequences of calls each give a Thing, then one after the other they give a Thing exactly if the two Things have no name
of a security definition, property, action or event in common. -/
theorem C81_together (hr : Reachable X title (h₁ ++ h₂) b) : (∃ t, b.build env = .ok t) ↔ t₁.Apart t₂ := by
  rw [C17_exact hr env, apart_iff hr₁ hr₂ hb₁ hb₂]
  constructor
  · intro hv
    refine ⟨hv.securityNames, fun ty => ?_⟩
    cases ty
    · exact hv.propertyNames
    · exact hv.actionNames
    · exact hv.eventNames
  · rintro ⟨hs, ha⟩
    exact (covered_append h₁ h₂).valid (hr₁.valid_of_build hb₁) (hr₂.valid_of_build hb₂) hs (ha .property)
      (ha .action) (ha .event)

/-- C81: otherwise the error names something they have in common. -/
theorem C81_clash (hr : Reachable X title (h₁ ++ h₂) b) {e : Error} (he : b.build env = .error (.err e)) :
    e.Shared t₁ t₂ := by
  have hv := C18_truthful hr he
  rcases (covered_append h₁ h₂).violates hv with ⟨n, rfl⟩ | ⟨ty, n, rfl⟩ | hv | hv
  · exact (security_shared hr₁ hr₂ hb₁ hb₂ n).1 hv
  · refine (affordance_shared hr₁ hr₂ hb₁ hb₂ ty n).1 ?_
    cases ty <;> exact hv
  · exact absurd hv ((C18_complete hr₁ env).1 (hr₁.valid_of_build hb₁) e)
  · exact absurd hv ((C18_complete hr₂ env).1 (hr₂.valid_of_build hb₂) e)

/-- C81: the Thing has everything of both. -/
theorem C81_contents (hr : Reachable X title (h₁ ++ h₂) b) (hb : b.build env = .ok t) : t₁.Together t₂ t := by
  obtain ⟨a1, a2, a3, a4, a5, a6, a7, a8⟩ := C20_scalars hr hb
  obtain ⟨b1, b2, b3, b4, b5, b6, b7, b8⟩ := C20_scalars hr₁ hb₁
  obtain ⟨-, c2, c3, c4, c5, c6, c7, c8⟩ := C20_scalars hr₂ hb₂
  obtain ⟨l1, l2, l3, l4, l5⟩ := C20_lists hr hb
  obtain ⟨m1, m2, m3, m4, m5⟩ := C20_lists hr₁ hb₁
  obtain ⟨n1, n2, n3, n4, n5⟩ := C20_lists hr₂ hb₂
  obtain ⟨x1, x2⟩ := C20_translations hr hb
  obtain ⟨y1, y2⟩ := C20_translations hr₁ hb₁
  obtain ⟨z1, z2⟩ := C20_translations hr₂ hb₂
  obtain ⟨u1, -, u3, -⟩ := C20_schemas hr hb
  obtain ⟨v1, -, v3, -⟩ := C20_schemas hr₁ hb₁
  obtain ⟨w1, -, w3, -⟩ := C20_schemas hr₂ hb₂
  have happ {β : Type} (f : ThingOp X → Option β) : (h₁ ++ h₂).filterMap f = h₁.filterMap f ++ h₂.filterMap f :=
    List.filterMap_append ..
  have hor {α β : Type} (f : α → β) (o o' : Option α) : (o.or o').map f = (o.map f).or (o'.map f) := by
    cases o <;> rfl
  have hctx : ∀ {title : String} {h : List (ThingOp X)} {b : ThingBuilder X} {t : Thing X}, Reachable X title h b →
      b.build env = .ok t →
      t.context.contexts = .str tdContext11 :: (History.contexts h).map Context.json := by
    intro title h b t hr hb
    rw [C21_context hr hb]
    split
    · next e => rw [e]; rfl
    · rfl
  exact {
    title := by rw [a1, b1]
    context := by
      rw [hctx hr hb, hctx hr₁ hb₁, hctx hr₂ hb₂, History.contexts, happ, List.map_append]; rfl
    id := by rw [a2, b2, c2, History.ids, happ, lastOf_append_list]; rfl
    titles := by rw [x1, y1, z1, History.titles, happ, lastOf_append_list, hor]; rfl
    description := by rw [a3, b3, c3, History.descriptionTexts, happ, lastOf_append_list]; rfl
    descriptions := by rw [x2, y2, z2, History.descriptions, happ, lastOf_append_list, hor]; rfl
    version := by rw [a4, b4, c4, History.versions, happ, lastOf_append_list]; rfl
    created := by rw [a5, b5, c5, History.createds, happ, lastOf_append_list]; rfl
    modified := by rw [a6, b6, c6, History.modifieds, happ, lastOf_append_list]; rfl
    support := by rw [a7, b7, c7, History.supports, happ, lastOf_append_list]; rfl
    base := by rw [a8, b8, c8, History.bases, happ, lastOf_append_list]; rfl
    attype := by rw [l1, m1, n1, getD_someList, getD_someList, getD_someList]; exact happ _
    profile := by rw [l2, m2, n2, getD_someList, getD_someList, getD_someList]; exact happ _
    security := by rw [l3, m3, n3, securities_append, List.filter_append, List.map_append]
    links := by
      rw [l4, m4, n4, getD_map_someList, getD_map_someList, getD_map_someList, ← List.map_append]
      exact congrArg _ (happ _)
    forms := by
      rw [l5, m5, n5, getD_map_someList, getD_map_someList, getD_map_someList, ← List.map_append]
      exact congrArg _ (happ _)
    securityDefinitions := fun n s => by
      rw [C20_securities hr hb, C20_securities hr₁ hb₁, C20_securities hr₂ hb₂]
      simp only [securities_append, List.mem_append, or_and_right, exists_or]
    properties := fun n p => by
      unfold EntryOf
      rw [(C20_affordances hr hb n).1, (C20_affordances hr₁ hb₁ n).1, (C20_affordances hr₂ hb₂ n).1]
      simp only [List.mem_append, or_and_right, exists_or]
    actions := fun n p => by
      unfold EntryOf
      rw [(C20_affordances hr hb n).2.1, (C20_affordances hr₁ hb₁ n).2.1, (C20_affordances hr₂ hb₂ n).2.1]
      simp only [List.mem_append, or_and_right, exists_or]
    events := fun n p => by
      unfold EntryOf
      rw [(C20_affordances hr hb n).2.2, (C20_affordances hr₁ hb₁ n).2.2, (C20_affordances hr₂ hb₂ n).2.2]
      simp only [List.mem_append, or_and_right, exists_or]
    uriVariables := fun n s => by
      unfold EntryOf
      simp only [u1, v1, w1]
      unfold History.uriVariables
      rw [happ, named_append, lastOf_append_list]
      exact or_eq_some_map
    schemaDefinitions := fun n s => by
      unfold EntryOf
      simp only [u3, v3, w3]
      unfold History.schemaDefinitions
      rw [happ, named_append, lastOf_append_list]
      exact or_eq_some_map }

end

/-- C81: what can be put together in one order can be put together in the other. -/
theorem C81_order {b' : ThingBuilder X} (hr₁ : Reachable X title h₁ b₁) (hr₂ : Reachable X title₂ h₂ b₂)
    (hb₁ : b₁.build env = .ok t₁) (hb₂ : b₂.build env = .ok t₂) (hr : Reachable X title (h₁ ++ h₂) b)
    (hr' : Reachable X title₂ (h₂ ++ h₁) b') :
    (∃ t, b.build env = .ok t) ↔ ∃ t, b'.build env = .ok t := by
  rw [C81_together hr₁ hr₂ hb₁ hb₂ hr, C81_together hr₂ hr₁ hb₂ hb₁ hr']
  exact ⟨fun ⟨a, c⟩ => ⟨fun n x y => a n y x, fun ty n x y => c ty n y x⟩,
    fun ⟨a, c⟩ => ⟨fun n x y => a n y x, fun ty n x y => c ty n y x⟩⟩

/-- C81: affordances, forms and links can be left out. -/
theorem C81_without {b' : ThingBuilder X} {h' : List (ThingOp X)} (hr : Reachable X title h b)
    (hr' : Reachable X title h' b') (hb : b.build env = .ok t) (hw : History.Without h' h) :
    ∃ t', b'.build env = .ok t' :=
  (C17_exact hr' env).2 (hw.valid (hr.valid_of_build hb))

/-- C81: other calls cannot always be left out: a call can take back what an earlier one did. -/
theorem C81_needed : ∃ (h h' : List (ThingOp Demo.X)) (b b' : ThingBuilder Demo.X) (t : Thing Demo.X),
    Reachable Demo.X "Lamp" h b ∧ Reachable Demo.X "Lamp" h' b' ∧ h'.Sublist h ∧ b.build Demo.env = .ok t ∧
    b'.build Demo.env = .error (.err .invalidUriVariables) := by
  have hbuilt : ∀ op ∈ ([.uriVariable "q" Demo.vecSchema, .uriVariable "q" Demo.stringSchema] : List (ThingOp Demo.X)),
      op.Built := by
    intro op ho
    simp only [List.mem_cons, List.not_mem_nil, or_false] at ho
    rcases ho with rfl | rfl
    · exact Demo.vecSchema_built
    · exact Demo.stringSchema_built
  exact ⟨_, [.uriVariable "q" Demo.vecSchema], _, _, _, Demo.run_reachable _ hbuilt,
    Demo.run_reachable _ fun op ho => hbuilt op (by cases List.mem_singleton.1 ho; exact List.mem_cons_self),
    .cons_cons _ (.cons _ .slnil), rfl, rfl⟩

/-! ### Examples -/

namespace Demo

/-- Another sequence of calls. -/
def more : List (ThingOp Demo.X) :=
  [.common (.id "urn:more"), .common (.context "https://example.com"), secure (.known .noSec), .uriVariable "r" stringSchema,
    .action "blink" (act [])]

theorem more_built : ∀ op ∈ more, op.Built := by
  intro op ho
  simp only [more, List.mem_cons, List.not_mem_nil, or_false] at ho
  rcases ho with rfl | rfl | rfl | rfl | rfl
  · trivial
  · trivial
  · exact ⟨[.noSec, .required], rfl⟩
  · exact stringSchema_built
  · exact act_built (by simp)

end Demo

/-- The lamp together with these calls. -/
example : ∃ t₂ t, (Demo.run Demo.more).build Demo.env = .ok t₂ ∧ Demo.thing.Apart t₂ ∧
    (Demo.builder.run Demo.more).build Demo.env = .ok t ∧ Demo.thing.Together t₂ t ∧
    t.id = some "urn:more" ∧ t.affordanceNames .action = ["blink", "set"] ∧ t.security = ["basic", "psk", "nosec"] := by
  have hr₂ := Demo.run_reachable Demo.more Demo.more_built
  obtain ⟨t₂, hb₂⟩ : ∃ t₂, (Demo.run Demo.more).build Demo.env = .ok t₂ := ⟨_, rfl⟩
  have hr := C81_calls Demo.reachable hr₂
  have ha : Demo.thing.Apart t₂ := by
    rw [apart_iff Demo.reachable hr₂ Demo.built hb₂]
    exact ⟨by decide, fun ty => by cases ty <;> decide⟩
  obtain ⟨t, hb⟩ := (C81_together Demo.reachable hr₂ Demo.built hb₂ hr).2 ha
  refine ⟨t₂, t, hb₂, ha, hb, C81_contents Demo.reachable hr₂ Demo.built hb₂ hr hb, ?_⟩
  rw [hr.built_eq hb]
  exact ⟨rfl, rfl, rfl⟩

/-- The lamp twice. -/
example : ∃ e, (Demo.builder.run Demo.history).build Demo.env = .error (.err e) ∧ e.Shared Demo.thing Demo.thing := by
  have hr := C81_calls Demo.reachable Demo.reachable
  have hn : ¬ Demo.thing.Apart Demo.thing := fun ha => ha.affordances .action "set" (by decide) (by decide)
  rw [← C81_together Demo.reachable Demo.reachable Demo.built Demo.built hr, C17_exact hr, ← C17_fails hr] at hn
  obtain ⟨e, he⟩ := hn
  exact ⟨e, he, C81_clash Demo.reachable Demo.reachable Demo.built Demo.built hr he⟩

/-- The lamp without its affordances, forms and links. -/
example : ∃ t, (Demo.run (Demo.history.take 6 ++ [.common (.profile "p"), .schemaDefinition "err" Demo.objectSchema,
    .uriVariable "q" Demo.stringSchema])).build Demo.env = .ok t := by
  have hw : History.Without (Demo.history.take 6 ++ [.common (.profile "p"), .schemaDefinition "err" Demo.objectSchema,
      .uriVariable "q" Demo.stringSchema]) Demo.history :=
    .keep _ (.keep _ (.keep _ (.keep _ (.keep _ (.keep _ (.drop trivial (.drop trivial (.keep _ (.drop trivial
      (.keep _ (.keep _ (.drop trivial (.drop trivial (.drop trivial .nil))))))))))))))
  exact C81_without Demo.reachable (Demo.run_reachable _ fun op ho => Demo.history_built op (hw.sublist.subset ho))
    Demo.built hw

end Wot
