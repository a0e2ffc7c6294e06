import Verif.Lemmas.Less
import Verif.Props.Readers
/-
C84: what a program without some extensions passes on.
-/
namespace Wot

variable {X Y : ExtTypes} {C : ExtCodecs X} {D : ExtCodecs Y} {f : ExtMap X Y} {K : List String} {env : SerdeEnv}
  {t : Thing X} {v w : Json}

/-- If a Thing can be written with extensions, it can be written with others that write the same but for some members.
The JSON value is the same but for these members. -/
theorem C84_written (h : t.Maps) (own : C.Own) (sep : C.Separate) (hf : f.Each (WritesLess K) C D)
    (hv : toValue C env t = some v) : ∃ v', toValue D env (t.withExt f) = some v' ∧ Json.Less K v' v :=
  Fewer.two_less hf own sep h v hv

/-- Without extensions, only their members are missing. -/
theorem C84_plain (h : t.Maps) (own : C.Own) (sep : C.Separate) (hv : toValue C env t = some v) :
    ∃ v', toValue .nil env t.plain = some v' ∧ Json.Less C.names v' v :=
  C84_written h own sep (Fewer.each_plain own) hv

/-- Without the extension that was added last, only its members are missing, -/
theorem C84_earlier {t : Thing (.cons X Y)} (h : t.Maps) (hc : C.Own) (hd : D.Own) (sep : (ExtCodecs.cons C D).Separate)
    (hv : toValue (.cons C D) env t = some v) :
    ∃ v', toValue D env (t.withExt .tail) = some v' ∧ Json.Less C.names v' v :=
  C84_written h (Fewer.owns_cons hc hd) sep (Fewer.each_tail hc) hv

/-- and with only that one, those of the others, if they have none in common. -/
theorem C84_last {t : Thing (.cons X Y)} (h : t.Maps) (hc : C.Own) (hd : D.Own) (ha : C.NamesApart D)
    (sep : (ExtCodecs.cons C D).Separate) (hv : toValue (.cons C D) env t = some v) :
    ∃ v', toValue C env (t.withExt .head) = some v' ∧ Json.Less D.names v' v :=
  C84_written h (Fewer.owns_cons hc hd) sep (Fewer.each_head hc hd ha) hv

/-- A document is passed on by a program with fewer extensions as it would be by one with all of them, but for the members
of the others: both read it, and what the one writes then is what the other writes, but for these members. -/
theorem C84_passed_on (he : env.Stable) (own : C.Own) (sep : C.Separate) (hk : Kept env C t) (hr : f.Each Follows C D)
    (ho : f.Each Onto C D) (hf : f.Each (WritesLess K) C D) (hv : toValue C env t = some v) {u : Thing X}
    (hu : fromValue C env v = some u) (hw : toValue C env u = some w) :
    ∃ u' w', fromValue D env v = some u' ∧ toValue D env u' = some w' ∧ Json.Less K w' w := by
  have h1 := C83_written sep hk hr ho hv
  have h2 := C28_what_comes_back sep hk hv
  cases h2.symm.trans hu
  obtain ⟨w', h3, h4⟩ := C84_written (C49_read he hu) own sep hf hw
  exact ⟨_, w', h1, h3, h4⟩

/-- What holds of two steps holds of both together, so that any of several extensions can be left out. -/
theorem C84_steps {Z : ExtTypes} {E : ExtCodecs Z} {g : ExtMap Y Z} {K' : List String} (h : f.Each (WritesLess K) C D)
    (h' : g.Each (WritesLess K') D E) : (g.comp f).Each (WritesLess (K' ++ K)) C E :=
  Fewer.each_comp h h'

/-- The same of JSON values. -/
theorem C84_less_steps {u : Json} {K' : List String} (h : Json.Less K u v) (h' : Json.Less K' v w) : Json.Less (K ++ K') u w :=
  Fewer.less_trans h h'

open Binding in
/-- In particular, a program without one of the protocol bindings leaves out only the members of that binding. -/
theorem C84_without_binding {b : Binding} {l : List Binding} (hn : (b :: l).Nodup) {t : Thing (stackTypes (b :: l))}
    (h : t.Maps) (hv : toValue (stack (b :: l)) env t = some v) :
    ∃ v', toValue (stack l) env (t.withExt .tail) = some v' ∧ Json.Less b.codecs.names v' v :=
  C84_earlier h b.tidy.own (stack_tidy (List.nodup_cons.1 hn).2).own (stack_separate (b :: l)) hv

/-! ### What the relation says -/

/-- A member that is not one of those that may be missing is there, and is the same up to them. -/
theorem C84_member (h : Json.Less K v w) {k : String} (hk : k ∉ K) {b : Json} (hb : w.member k = some b) :
    ∃ a, v.member k = some a ∧ Json.Less K a b := by
  cases h with
  | same => exact ⟨b, hb, .same b⟩
  | arr => cases hb
  | obj h1 h2 h3 =>
    cases ha : Json.member _ k with
    | none => exact absurd (h3 k b hb ha) hk
    | some a => exact ⟨a, rfl, h2 k a b ha hb⟩

/-- Nothing is there that was not there. -/
theorem C84_nothing_new (h : Json.Less K v w) {k : String} {a : Json} (ha : v.member k = some a) :
    ∃ b, w.member k = some b ∧ Json.Less K a b := by
  cases h with
  | same => exact ⟨a, ha, .same a⟩
  | arr => cases ha
  | obj h1 h2 h3 =>
    cases hb : Json.member _ k with
    | none => rw [h1 k hb] at ha; cases ha
    | some b => exact ⟨b, rfl, h2 k a b ha hb⟩

/-- Lists are as long as they were, with the same elements up to the members that may be missing. -/
theorem C84_elements {l' : List Json} (h : Json.Less K v (.arr l')) : ∃ l, v = .arr l ∧ l.length = l'.length ∧
    ∀ (i : Nat) a b, l[i]? = some a → l'[i]? = some b → Json.Less K a b := by
  cases h with
  | same => exact ⟨l', rfl, rfl, fun i a b ha hb => by rw [ha] at hb; cases hb; exact .same a⟩
  | arr h1 h2 => exact ⟨_, rfl, h1, h2⟩

/-- If no member may be missing, the JSON values are the same. -/
theorem C84_nothing_missing (h : Json.Less [] v w) (hv : v.IsValue) (hw : w.IsValue) : v = w :=
  Fewer.less_nothing h hv hw

/-- Texts, numbers, `true`, `false` and `null` are the same. -/
theorem C84_scalar (h : Json.Less K v w) (ho : ∀ m, w ≠ .obj m) (ha : ∀ l, w ≠ .arr l) : v = w := by
  cases h with
  | same => rfl
  | arr => exact absurd rfl (ha _)
  | obj => exact absurd rfl (ho _)

/-! ### Names of their own -/

namespace Demo

/-- An extension of Things that writes a member of the Thing itself. -/
def titleExt : ExtCodecs ThingExt := { ExtCodecs.nil with thing := { oneMember "title" with de := fun _ => some "second" } }

end Demo

/-- With an extension that writes a member of the Thing itself, the program without it writes another value for that
member, so that names of their own are needed. -/
theorem C84_separate_needed : ¬ ∀ (X : ExtTypes) (C : ExtCodecs X) (env : SerdeEnv) (t : Thing X) (v v' : Json) (K : List String),
    t.Maps → C.Own → toValue C env t = some v → toValue .nil env t.plain = some v' → Json.Less K v' v := by
  intro h
  have own : Demo.titleExt.Own := by
    constructor
    case thing => rintro a m ⟨⟩ kv hkv; cases List.mem_singleton.1 hkv; exact List.mem_singleton.2 rfl
    all_goals rintro a m ⟨⟩ kv hkv; exact absurd hkv List.not_mem_nil
  obtain ⟨t, v, v', ht, h1, h2, h3, h4⟩ : ∃ t v v', fromText Demo.titleExt Demo.senv Demo.thingDoc = some t ∧
      toValue Demo.titleExt Demo.senv t = some v ∧ toValue .nil Demo.senv t.plain = some v' ∧
      v.member "title" = some (.str "second") ∧ v'.member "title" = some (.str "T") := ⟨_, _, _, rfl, rfl, rfl, rfl, rfl⟩
  obtain ⟨b, hb, hl⟩ := C84_nothing_new (h _ _ _ t v v' [] (C49_read Demo.stable ht) own h1 h2) h4
  cases h3.symm.trans hb
  have := C84_scalar hl nofun nofun
  simp at this

/-! ### Examples -/

open Binding in
/-- The Thing with HTTP and CoAP, as written by a program with HTTP only, lacks the member for CoAP. -/
example : ∃ v v', toValue (stack [.coap, .http]) Demo.senv (Demo.webThing [{ fieldName := some "Age" }]) = some v ∧
    toValue (stack [.http]) Demo.senv ((Demo.webThing [{ fieldName := some "Age" }]).withExt .tail) = some v' ∧
    Json.Less Coap.codecs.names v' v ∧ v' ≠ v := by
  obtain ⟨v', h1, h2⟩ := C84_without_binding (b := .coap) (l := [.http]) (env := Demo.senv) (by decide)
    (C49_built (Demo.web_reachable [{ fieldName := some "Age" }]) (Demo.web_ok _)) rfl
  refine ⟨_, v', rfl, h1, h2, ?_⟩
  rintro rfl
  revert h1
  decide +kernel

open Binding in
/-- It is passed on by a program without bindings. -/
example : ∃ v u w u' w', toValue (stack Demo.web) Demo.senv (Demo.webThing [{ fieldName := some "Age" }]) = some v ∧
    fromValue (stack Demo.web) Demo.senv v = some u ∧ toValue (stack Demo.web) Demo.senv u = some w ∧
    fromValue .nil Demo.senv v = some u' ∧ toValue .nil Demo.senv u' = some w' ∧
    Json.Less (stack Demo.web).names w' w ∧ w' ≠ w := by
  have hn : Demo.web.Nodup := by decide
  have hr := Demo.web_reachable [{ fieldName := some "Age" }]
  have hk := hr.kept (Demo.web_ok _) Demo.tagsStable (valuesKept hn (Demo.web_plain _) (Demo.web_headers.2 nofun))
  obtain ⟨v, hv⟩ : ∃ v, toValue (stack Demo.web) Demo.senv (Demo.webThing [{ fieldName := some "Age" }]) = some v := ⟨_, rfl⟩
  have hu := C28_what_comes_back (stack_separate Demo.web) hk hv
  obtain ⟨w, hw⟩ : ∃ w, toValue (stack Demo.web) Demo.senv (Demo.webThing [{ fieldName := some "Age" }]).stored = some w :=
    ⟨_, rfl⟩
  obtain ⟨u', w', h1, h2, h3⟩ := C84_passed_on Demo.stable (stack_tidy hn).own (stack_separate Demo.web) hk
    Reader.follows_plain (Reader.onto_plain (.cons Coap.defaults (.cons Http.defaults .nil)))
    (Fewer.each_plain (stack_tidy hn).own) hv hu hw
  refine ⟨v, _, w, u', w', hv, hu, hw, h1, h2, h3, ?_⟩
  rintro rfl
  have e := C83_plain (.cons Coap.defaults (.cons Http.defaults .nil)) (stack_separate Demo.web) hk hv
  cases h1.symm.trans e
  rw [← hw] at h2
  revert h2
  decide +kernel

/-- What else differs is noticed. -/
example : ¬ Json.Less ["a"] (.obj []) (.obj [("b", .null)]) := by
  intro h
  obtain ⟨_, h, -⟩ := C84_member (k := "b") h (by decide) rfl
  cases h

example : ¬ Json.Less ["a"] (.obj [("a", .null)]) (.obj []) := by
  intro h
  obtain ⟨_, h, -⟩ := C84_nothing_new (k := "a") h rfl
  cases h

end Wot
