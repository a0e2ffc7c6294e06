import Verif.Lemmas.Readers
import Verif.Lemmas.Writers
import Verif.Lemmas.WrittenProtocol
import Verif.Props.Unordered
import Verif.Props.RoundTrip
import Verif.Props.Protocol
import Verif.Props.Documents
import Verif.Props.HList
/-
C83: the same documents in programs with different extensions.
-/
namespace Wot

variable {X Y Z : ExtTypes} {C : ExtCodecs X} {D : ExtCodecs Y} {E : ExtCodecs Z} {f : ExtMap X Y} {env : SerdeEnv}
  {t : Thing X} {v j : Json}

/-! ### Documents that were written by one of the programs -/

/-- A Thing is read from its JSON value by every program whose extensions make something of what the first program's
extensions read: it gets the same Thing, with its own extension values. -/
theorem C83_written (sep : C.Separate) (hk : Kept env C t) (hf : f.Each Follows C D) (ho : f.Each Onto C D)
    (hv : toValue C env t = some v) : fromValue D env v = some (t.stored.withExt f) := by
  obtain ⟨g, hg⟩ := Reader.exists_blends hf ho
  have h := C28_what_comes_back (C := Reader.blends C D g) (Reader.separate_blends sep) (Reader.kept_blends hk) hv
  rw [fromValue] at h ⊢
  rw [Reader.thing_map hg, h]; rfl

/-- And from its text, if the first program can read it. -/
theorem C83_written_text (sep : C.Separate) (once : C.WriteOnce) (hk : Kept env C t)
    (hi : ∀ m, t.properties = some m → ∀ kv ∈ m, ¬ kv.2.RepeatsInfo) (hf : f.Each Follows C D)
    (ho : f.Each Onto C D) (hj : toText C env t = some j) : fromText D env j = some (t.stored.withExt f) := by
  obtain ⟨g, hg⟩ := Reader.exists_blends hf ho
  have h := C29_text_round_trip_partial (C := Reader.blends C D g) (Reader.separate_blends sep)
    (Reader.once_blends once) (Reader.kept_blends hk) hi hj
  rw [fromText] at h ⊢
  rw [Reader.thing_map hg, h]; rfl

/-- A program without extensions gets the Thing without extensions. -/
theorem C83_plain (d : ExtDefaults X) (sep : C.Separate) (hk : Kept env C t) (hv : toValue C env t = some v) :
    fromValue .nil env v = some t.stored.plain :=
  C83_written sep hk Reader.follows_plain (Reader.onto_plain d) hv

/-- Of two extensions, a program may have only the one that was added last, -/
theorem C83_last {t : Thing (.cons X Y)} (d : ExtDefaults Y) (sep : (ExtCodecs.cons C D).Separate)
    (hk : Kept env (.cons C D) t) (hv : toValue (.cons C D) env t = some v) :
    fromValue C env v = some (t.stored.withExt .head) :=
  C83_written sep hk Reader.each_head (Reader.onto_head d) hv

/-- or only those that were added before it, if they do not look at its members. -/
theorem C83_earlier {t : Thing (.cons X Y)} (d : ExtDefaults X) (hi : D.Ignores C)
    (sep : (ExtCodecs.cons C D).Separate) (hk : Kept env (.cons C D) t) (hv : toValue (.cons C D) env t = some v) :
    fromValue D env v = some (t.stored.withExt .tail) :=
  C83_written sep hk (Reader.each_tail hi) (Reader.onto_tail d) hv

/-- What holds of two steps holds of both together, so that any of several extensions can be left out. -/
theorem C83_steps {g : ExtMap Y Z} :
    (f.Each Follows C D → g.Each Follows D E → (g.comp f).Each Follows C E) ∧
    (f.Each Onto C D → g.Each Onto D E → (g.comp f).Each Onto C E) :=
  ⟨Reader.each_comp, Reader.each_comp_onto⟩

/-! ### All documents -/

/-- If, moreover, the extensions of the two programs accept the same members, the programs read the same documents, and
get the same from them up to the extensions. -/
theorem C83_agree (hf : f.Each FollowsExactly C D) (v : Json) :
    fromValue D env v = (fromValue C env v).map (Thing.withExt f) ∧
    fromText D env v = (fromText C env v).map (Thing.withExt f) :=
  ⟨Reader.thing_map hf v, Reader.thing_map hf v⟩

/-- The order in which extensions were added does not matter, if they do not look at each other's members. -/
theorem C83_order (h : D.Ignores C) (h' : C.Ignores D) (v : Json) :
    fromValue (.cons D C) env v = (fromValue (.cons C D) env v).map (Thing.withExt .swap) :=
  (C83_agree (Reader.each_swap h h') v).1

/-- The same with other extensions before them. -/
theorem C83_order_of_several (h1 : D.Ignores C) (h2 : C.Ignores D) (h3 : E.Ignores C) (h4 : E.Ignores D) (v : Json) :
    fromValue (.cons D (.cons C E)) env v = (fromValue (.cons C (.cons D E)) env v).map (Thing.withExt .over) :=
  (C83_agree (Reader.each_over h1 h2 h3 h4) v).1

/-- A program reads every document that can be read by one whose extensions accept less. -/
theorem C83_accepts (hf : f.Each Follows C D) (h : ∃ t, fromValue C env v = some t) :
    ∃ t, fromValue D env v = some t := by
  rw [fromValue] at *
  exact (C51_thing v).2 (Reader.obj_mono (Reader.gthing_mono hf) v ((C51_thing v).1 h))

/-- In particular, whatever can be read with extensions can be read without. -/
theorem C83_accepts_plain (h : ∃ t, fromValue C env v = some t) : ∃ t, fromValue .nil env v = some t :=
  C83_accepts Reader.follows_plain h

/-! ### Writing -/

/-- A program whose extensions write for their values what those of another program write for theirs writes the same
JSON value for the Thing, or both fail. -/
theorem C83_same_value (h : t.Maps) (hf : f.Each WritesAlike C D) :
    toValue D env (t.withExt f) = toValue C env t :=
  Reader.thing_write hf h

/-- So the order in which extensions were added does not matter to writers either, if each writes members of its own. -/
theorem C83_order_written {t : Thing (.cons X Y)} (h : t.Maps) (hc : C.Own) (hd : D.Own) (ha : C.NamesApart D) :
    toValue (.cons D C) env (t.withExt .swap) = toValue (.cons C D) env t :=
  C83_same_value h (Reader.each_swap_writes hc hd ha)

/-- The same with other extensions before them. These may write anything. -/
theorem C83_order_written_of_several {t : Thing (.cons X (.cons Y Z))} (h : t.Maps) (hc : C.Own) (hd : D.Own)
    (ha : C.NamesApart D) :
    toValue (.cons D (.cons C E)) env (t.withExt .over) = toValue (.cons C (.cons D E)) env t :=
  C83_same_value h (Reader.each_over_writes hc hd ha)

/-! ### Where programs differ -/

namespace Demo

/-- An extension of array schemas, with a member that must be there. -/
abbrev ArrayExt : ExtTypes := { ExtTypes.nil with arraySchema := String }

def arrayExt : ExtCodecs ArrayExt := { ExtCodecs.nil with arraySchema := oneMember "a" }

/-- A Thing with an array schema, without this member. -/
def arrayDoc : Json := .obj [("title", .str "T"), ("security", .str "s"), ("securityDefinitions", .obj []),
  ("schemaDefinitions", .obj [("n", .obj [("type", .str "array")])])]

/-- The data schemas that are arrays, by their names. -/
def arrays {X : ExtTypes} (t : Thing X) : List String :=
  (t.schemaDefinitions.getD []).filterMap fun kv => match kv.2.subtype with
    | some (.array _) => some kv.1
    | _ => none

end Demo

/-- The full statement for documents from elsewhere: what a program reads is what every program reads whose extensions
make something of what those of the first read. -/
def ReadAlike : Prop :=
  ∀ {X Y : ExtTypes} (C : ExtCodecs X) (D : ExtCodecs Y) (f : ExtMap X Y) (env : SerdeEnv) (v : Json) (t : Thing X),
    f.Each Follows C D → fromValue C env v = some t → fromValue D env v = some (t.withExt f)

/-- It is false: a data schema of which an extension cannot read the part that belongs to its type loses its type, where
a program without the extension sees it. -/
theorem C83_read_alike_false : ¬ ReadAlike := by
  intro h
  obtain ⟨t, ht, ha⟩ : ∃ t, fromValue Demo.arrayExt Demo.senv Demo.arrayDoc = some t ∧ Demo.arrays t.plain = [] :=
    ⟨_, rfl, rfl⟩
  obtain ⟨t', ht', ha'⟩ : ∃ t', fromValue .nil Demo.senv Demo.arrayDoc = some t' ∧ Demo.arrays t' = ["n"] :=
    ⟨_, rfl, rfl⟩
  have e : some t' = some t.plain := ht'.symm.trans (h _ _ .plain _ _ _ Reader.follows_plain ht)
  cases e
  rw [ha] at ha'
  cases ha'

namespace Demo

/-- Two extensions of Things with the same member. The second one does not read it. -/
abbrev ThingExt : ExtTypes := { ExtTypes.nil with thing := String }

def thingExt : ExtCodecs ThingExt := { ExtCodecs.nil with thing := oneMember "a" }

def thingExt' : ExtCodecs ThingExt := { ExtCodecs.nil with thing := { oneMember "a" with de := fun _ => some "second" } }

def thingDoc : Json := .obj [("title", .str "T"), ("security", .str "s"), ("securityDefinitions", .obj []),
  ("a", .str "first")]

end Demo

/-- With a member in common, the order matters: the extension that was added first wins. -/
theorem C83_order_written_false : ¬ ∀ (X Y : ExtTypes) (C : ExtCodecs X) (D : ExtCodecs Y) (env : SerdeEnv)
    (t : Thing (.cons X Y)), t.Maps → C.Own → D.Own →
      toValue (.cons D C) env (t.withExt .swap) = toValue (.cons C D) env t := by
  intro h
  have own : Demo.thingExt.Own ∧ Demo.thingExt'.Own := by
    constructor <;> constructor
    case left.thing => rintro a m ⟨⟩ kv hkv; cases List.mem_singleton.1 hkv; exact List.mem_singleton.2 rfl
    case right.thing => rintro a m ⟨⟩ kv hkv; cases List.mem_singleton.1 hkv; exact List.mem_singleton.2 rfl
    all_goals rintro a m ⟨⟩ kv hkv; exact absurd hkv List.not_mem_nil
  obtain ⟨t, ht, h1, h2⟩ : ∃ t, fromText (.cons Demo.thingExt Demo.thingExt') Demo.senv Demo.thingDoc = some t ∧
      (toValue (.cons Demo.thingExt Demo.thingExt') Demo.senv t).map (fun v => v.member "a") = some (some (.str "second")) ∧
      (toValue (.cons Demo.thingExt' Demo.thingExt) Demo.senv (t.withExt .swap)).map (fun v => v.member "a") =
        some (some (.str "first")) := ⟨_, rfl, rfl, rfl⟩
  rw [h _ _ _ _ _ t (C49_read Demo.stable ht) own.1 own.2, h1] at h2
  simp at h2

/-! ### Protocol bindings -/

namespace Binding
variable {b c : Binding} {l : List Binding}

/-- The default values of a binding. -/
def defaults : (b : Binding) → ExtDefaults b.types
  | .http => Http.defaults
  | .coap => Coap.defaults
  | .mqtt => Mqtt.defaults

end Binding

open Binding in
theorem binding_ignores {b c : Binding} (hbc : b ≠ c) : b.codecs.Ignores c.codecs := by
  have hb := b.byName.1
  constructor
  case form => exact Reader.local_ignores hb.form (form_keys_disjoint b c hbc)
  case response => exact Reader.local_ignores hb.response (response_keys_disjoint b c hbc)
  all_goals cases b <;> exact fun _ => rfl

open Binding in
theorem bindings_apart {b c : Binding} (hbc : b ≠ c) : b.codecs.NamesApart c.codecs := by
  constructor
  case form => exact form_keys_disjoint b c hbc
  case response => exact response_keys_disjoint b c hbc
  all_goals cases b <;> exact fun _ h => absurd h List.not_mem_nil

open Binding in
/-- Different protocol bindings do not look at each other's members. -/
theorem C83_bindings {b : Binding} {l : List Binding} (h : b ∉ l) :
    (stack l).Ignores b.codecs ∧ b.codecs.Ignores (stack l) := by
  have hl := (stack_byName l).1
  have hb := b.byName.1
  obtain ⟨h1, h2, h3, h4, h5, h6, h7, h8⟩ := stack_keys l
  have ne : ∀ c ∈ l, c ≠ b := fun c hc e => h (e ▸ hc)
  have hf : Apart (stack l).form.keys b.codecs.form.keys := fun k hk => by
    obtain ⟨c, hc, hk⟩ := mem_form_keys.1 hk
    exact form_keys_disjoint c b (ne c hc) k hk
  have hr : Apart (stack l).response.keys b.codecs.response.keys := fun k hk => by
    obtain ⟨c, hc, hk⟩ := mem_response_keys.1 hk
    exact response_keys_disjoint c b (ne c hc) k hk
  have apart_nil' : ∀ {K : List String}, K = [] → ∀ K', Apart K K' := fun h K' => by rw [h]; exact apart_nil
  have nil_apart : ∀ {K : List String}, K = [] → ∀ K', Apart K' K := fun h K' k _ => by rw [h]; exact List.not_mem_nil
  have sym : ∀ {K K' : List String}, Apart K K' → Apart K' K := fun h k hk hk' => h k hk' hk
  open Reader in
  exact ⟨⟨local_ignores hl.thing (apart_nil' h1 _), local_ignores hl.interaction (apart_nil' h2 _),
    local_ignores hl.property (apart_nil' h3 _), local_ignores hl.action (apart_nil' h4 _),
    local_ignores hl.event (apart_nil' h5 _), local_ignores hl.form hf, local_ignores hl.response hr,
    local_ignores hl.dataSchema (apart_nil' h6 _), local_ignores hl.objectSchema (apart_nil' h7 _),
    local_ignores hl.arraySchema (apart_nil' h8 _)⟩,
   ⟨local_ignores hb.thing (nil_apart h1 _), local_ignores hb.interaction (nil_apart h2 _),
    local_ignores hb.property (nil_apart h3 _), local_ignores hb.action (nil_apart h4 _),
    local_ignores hb.event (nil_apart h5 _), local_ignores hb.form (sym hf), local_ignores hb.response (sym hr),
    local_ignores hb.dataSchema (nil_apart h6 _), local_ignores hb.objectSchema (nil_apart h7 _),
    local_ignores hb.arraySchema (nil_apart h8 _)⟩⟩

open Binding in
/-- So a Thing with several bindings can be exchanged with programs that have not got the last one. -/
theorem C83_without_binding {b : Binding} {l : List Binding} (hn : (b :: l).Nodup) {title : String}
    {h : List (ThingOp (stackTypes (b :: l)))} {bu : ThingBuilder (stackTypes (b :: l))} {t : Thing (stackTypes (b :: l))}
    (hr : Reachable _ title h bu) (hb : bu.build env.toEnv = .ok t) (hl : env.TagsStable) (hp : PlainValues env t)
    (hg : ThingHeadersGiven (b :: l) t) :
    ∃ v, toValue (stack (b :: l)) env t = some v ∧ fromValue (stack l) env v = some (t.stored.withExt .tail) := by
  obtain ⟨j, -, hj, -⟩ := C36_things hn hr hb hl hp
  exact ⟨_, hj, C83_earlier b.defaults (C83_bindings (List.nodup_cons.1 hn).1).1 (stack_separate (b :: l))
    (hr.kept hb hl (valuesKept hn hp hg)) hj⟩

open Binding in
/-- Nor does it matter which of two different bindings was added first: the same JSON values are read, and written. -/
theorem C83_binding_order {b c : Binding} {l : List Binding} (hn : (b :: c :: l).Nodup) :
    (∀ v, fromValue (stack (c :: b :: l)) env v = (fromValue (stack (b :: c :: l)) env v).map (Thing.withExt .over)) ∧
    ∀ t : Thing (stackTypes (b :: c :: l)), t.Maps →
      toValue (stack (c :: b :: l)) env (t.withExt .over) = toValue (stack (b :: c :: l)) env t := by
  obtain ⟨h1, h2⟩ := List.nodup_cons.1 hn
  obtain ⟨h3, -⟩ := List.nodup_cons.1 h2
  have hbc : b ≠ c := fun e => h1 (e ▸ List.mem_cons_self)
  exact ⟨C83_order_of_several (binding_ignores hbc.symm) (binding_ignores hbc)
      (C83_bindings fun h => h1 (List.mem_cons_of_mem _ h)).1 (C83_bindings h3).1,
    fun t h => C83_order_written_of_several h b.tidy.own c.tidy.own (bindings_apart hbc)⟩

/-! ### Examples -/

open Binding in
/-- The Thing with HTTP and CoAP is read by a program with HTTP only. -/
example : ∃ v, toValue (stack Demo.web) Demo.senv (Demo.webThing [{ fieldName := some "Age" }]) = some v ∧
    fromValue (stack [.http]) Demo.senv v =
      some ((Demo.webThing [{ fieldName := some "Age" }]).stored.withExt .tail) :=
  C83_without_binding (b := .coap) (l := [.http]) (by decide) (Demo.web_reachable _) (Demo.web_ok _) Demo.tagsStable
    (Demo.web_plain _) (Demo.web_headers.2 nofun)

open Binding in
/-- There the form says which method to use with HTTP, and nothing about CoAP. -/
example : ((Demo.webThing [{ fieldName := some "Age" }]).stored.withExt (Y := stackTypes [.http]) .tail).forms.map
    (List.map fun f => (f.href, f.other.head.methodName)) = some [("/all", some .get)] := rfl

open Binding in
/-- HTTP and CoAP can be exchanged. -/
example : toValue (stack [.http, .coap]) Demo.senv ((Demo.webThing [{ fieldName := some "Age" }]).withExt .over) =
    toValue (stack [.coap, .http]) Demo.senv (Demo.webThing [{ fieldName := some "Age" }]) :=
  (C83_binding_order (b := .coap) (c := .http) (l := []) (by decide)).2 _ (C49_built (Demo.web_reachable _) (Demo.web_ok _))

/-- A Thing written without extensions is not read by a program whose extension needs a member, so `Follows` cannot be
turned round. -/
example : ¬ (ExtMap.mk (X := .nil) (Y := Demo.ArrayExt) id id id id id id id id id fun _ => "").Each Follows ExtCodecs.nil
    Demo.arrayExt := fun h => nomatch h.arraySchema [] () rfl

open Binding in
/-- It is read by programs without bindings, or with CoAP only, too. -/
example : ∃ v, toValue (stack Demo.web) Demo.senv (Demo.webThing [{ fieldName := some "Age" }]) = some v ∧
    fromValue .nil Demo.senv v = some (Demo.webThing [{ fieldName := some "Age" }]).stored.plain ∧
    fromValue Coap.codecs Demo.senv v = some ((Demo.webThing [{ fieldName := some "Age" }]).stored.withExt .head) := by
  have hn : Demo.web.Nodup := by decide
  have hr := Demo.web_reachable [{ fieldName := some "Age" }]
  obtain ⟨j, -, hj, -⟩ := C36_things hn hr (Demo.web_ok _) Demo.tagsStable (Demo.web_plain _)
  have hk := hr.kept (Demo.web_ok _) Demo.tagsStable
    (valuesKept hn (Demo.web_plain _) (Demo.web_headers.2 nofun))
  exact ⟨_, hj, C83_plain (.cons Coap.defaults (.cons Http.defaults .nil)) (stack_separate _) hk hj,
    C83_last (.cons Http.defaults .nil) (stack_separate Demo.web) hk hj⟩

/-- The document in which the two programs see different data schemas. -/
example : ∃ t, fromValue Demo.arrayExt Demo.senv Demo.arrayDoc = some t := ⟨_, rfl⟩

end Wot
