import Verif.Lemmas.Meaning
import Verif.Lemmas.EditLaws
import Verif.Props.Protocol
import Verif.Spec.MeaningProtocol
/-
C61: what the members of protocol bindings mean.
-/
namespace Wot
open Binding
variable {es : Members}

private theorem any : ∀ kv ∈ es, (fun _ : Json => True) kv.2 := fun _ _ => trivial
private theorem closed : Closed fun _ => True := ⟨fun _ _ => trivial, fun _ _ => trivial⟩

private theorem reads_fin {n : Nat} : Reads (fun _ => True) (deFin n) Doc.IsNumberBelow := by
  intro v _ x
  unfold Doc.IsNumberBelow deFin
  split
  · rename_i m
    split
    · simp only [Option.some.injEq, Json.num.injEq, JNum.pos.injEq, Fin.ext_iff]
    · rename_i h
      refine ⟨nofun, fun e => ?_⟩
      cases e
      exact absurd x.2 h
  · rename_i h
    exact ⟨nofun, fun e => absurd e (h _)⟩

private theorem reads_pair {A B T : Type} {k k' : String} {de : Json → Option A} {de' : Json → Option B}
    {R : Json → A → Prop} {R' : Json → B → Prop} {make : Option A → Option B → T} {read : Json → Option T}
    (h : Reads (fun _ => True) de R) (h' : Reads (fun _ => True) de' R')
    (ho : ∀ es, read (.obj es) = (optional k de es).bind fun a => (optional k' de' es).bind fun b => some (make a b))
    (ha : ∀ v w, read (.arr [v, w]) = (deOption de v).bind fun a => (deOption de' w).bind fun b => some (make a b))
    (hn : ∀ v x, read v = some x → (∃ es, v = .obj es) ∨ ∃ a b, v = .arr [a, b]) :
    Reads (fun _ => True) read (Doc.IsPair k k' R R' make) := by
  intro v _ x
  constructor
  · intro e
    rcases hn v x e with ⟨es, rfl⟩ | ⟨a, b, rfl⟩
    · rw [ho] at e
      obtain ⟨a, h1, e⟩ := Option.bind_eq_some_iff.1 e
      obtain ⟨b, h2, e⟩ := Option.bind_eq_some_iff.1 e
      cases e
      exact .object ((may_iff h any).1 h1) ((may_iff h' any).1 h2)
    · rw [ha] at e
      obtain ⟨a, h1, e⟩ := Option.bind_eq_some_iff.1 e
      obtain ⟨b, h2, e⟩ := Option.bind_eq_some_iff.1 e
      cases e
      exact .array ((h.orNone _ trivial _).1 h1) ((h'.orNone _ trivial _).1 h2)
  · intro e
    cases e with
    | object h1 h2 => rw [ho, (may_iff h any).2 h1, (may_iff h' any).2 h2]; rfl
    | array h1 h2 => rw [ha, (h.orNone _ trivial _).2 h1, (h'.orNone _ trivial _).2 h2]; rfl

private theorem reads_header : Reads (fun _ => True) Http.deHeader Doc.IsHeader :=
  reads_pair .str .str (fun _ => rfl) (fun _ _ => rfl) (by
    intro v x e
    unfold Http.deHeader at e
    split at e
    · exact .inl ⟨_, rfl⟩
    · exact .inr ⟨_, _, rfl⟩
    · cases e)

private theorem reads_blockSize : Reads (fun _ => True) Coap.deBlockSize Doc.IsBlockSize := by
  intro v _ x
  unfold Doc.IsBlockSize Coap.deBlockSize
  constructor
  · intro e
    obtain ⟨n, hn, e⟩ := Option.bind_eq_some_iff.1 e
    have h1 := List.find?_some e
    simp only [decide_eq_true_eq] at h1
    rw [(reads_fin v trivial n).1 hn, ← h1]
    cases x <;> rfl
  · rintro rfl
    cases x <;> rfl

private theorem reads_blockWise : Reads (fun _ => True) Coap.deBlockWise Doc.IsBlockWise :=
  reads_pair reads_blockSize reads_blockSize (fun _ => rfl) (fun _ _ => rfl) (by
    intro v x e
    unfold Coap.deBlockWise at e
    split at e
    · exact .inl ⟨_, rfl⟩
    · exact .inr ⟨_, _, rfl⟩
    · cases e)

private theorem reads_httpMethod : Reads (fun _ => True) Http.deMethod (Doc.IsNamed Http.Method.text) :=
  .named fun s x => nameOf?_iff (by simp [Http.Method.text]) (by intro x; cases x <;> rfl)

private theorem reads_coapMethod : Reads (fun _ => True) Coap.deMethod (Doc.IsNamed Coap.Method.text) :=
  .named fun s x => nameOf?_iff (by simp [Coap.Method.text]) (by intro x; cases x <;> rfl)

private theorem reads_packet : Reads (fun _ => True) Mqtt.dePacket (Doc.IsNamed Mqtt.ControlPacket.text) :=
  .named fun s x => nameOf?_iff (by simp [Mqtt.ControlPacket.text]) (by intro x; cases x <;> rfl)

private theorem reads_qos : Reads (fun _ => True) Mqtt.deQoS (Doc.IsNamed Mqtt.QoS.text) :=
  .named fun s x => nameOf?_iff (by simp [Mqtt.QoS.text]) (by intro x; cases x <;> rfl)

/-- The members of forms and responses for HTTP. -/
theorem C61_http {f : Http.Form} {r : Http.Response} :
    (Http.codecs.form.de es = some f ↔ Doc.IsHttpForm es f) ∧
    (Http.codecs.response.de es = some r ↔ Doc.IsHttpResponse es r) := by
  constructor
  · show (do let m ← optional "htv:methodName" Http.deMethod es; pure (Http.Form.mk m)) = some f ↔ _
    simp only [bind, pure]
    constructor
    · intro e
      obtain ⟨a, h1, e⟩ := Option.bind_eq_some_iff.1 e
      cases e
      exact ⟨(may_iff reads_httpMethod any).1 h1⟩
    · rintro ⟨h1⟩
      rw [(may_iff reads_httpMethod any).2 h1]; rfl
  · show (do
      let h ← required "htv:headers" (deVec Http.deHeader) es
      let s ← optional "htv:statusCodeValue" (deFin (2^64)) es
      pure (Http.Response.mk h s)) = some r ↔ _
    simp only [bind, pure]
    constructor
    · intro e
      obtain ⟨a, h1, e⟩ := Option.bind_eq_some_iff.1 e
      obtain ⟨b, h2, e⟩ := Option.bind_eq_some_iff.1 e
      cases e
      exact ⟨(must_iff (reads_header.vec closed) any).1 h1, (may_iff reads_fin any).1 h2⟩
    · rintro ⟨h1, h2⟩
      rw [(must_iff (reads_header.vec closed) any).2 h1, (may_iff reads_fin any).2 h2]; rfl

/-- The members of forms and responses for CoAP. -/
theorem C61_coap {f : Coap.Form} {r : Coap.Response} :
    (Coap.codecs.form.de es = some f ↔ Doc.IsCoapForm es f) ∧
    (Coap.codecs.response.de es = some r ↔ Doc.IsCoapResponse es r) := by
  constructor
  · simp only [Coap.codecs, Coap.form, bind, pure]
    constructor
    · intro e
      obtain ⟨_, h1, e⟩ := Option.bind_eq_some_iff.1 e
      obtain ⟨_, h2, e⟩ := Option.bind_eq_some_iff.1 e
      obtain ⟨_, h3, e⟩ := Option.bind_eq_some_iff.1 e
      obtain ⟨_, h4, e⟩ := Option.bind_eq_some_iff.1 e
      obtain ⟨_, h5, e⟩ := Option.bind_eq_some_iff.1 e
      obtain ⟨_, h6, e⟩ := Option.bind_eq_some_iff.1 e
      cases e
      exact ⟨(may_iff reads_coapMethod any).1 h1, (may_iff reads_blockWise any).1 h2,
        (may_iff reads_blockWise any).1 h3, (may_iff reads_fin any).1 h4, (may_iff reads_fin any).1 h5,
        (may_iff reads_fin any).1 h6⟩
    · rintro ⟨h1, h2, h3, h4, h5, h6⟩
      rw [(may_iff reads_coapMethod any).2 h1, (may_iff reads_blockWise any).2 h2,
        (may_iff reads_blockWise any).2 h3, (may_iff reads_fin any).2 h4, (may_iff reads_fin any).2 h5,
        (may_iff reads_fin any).2 h6]; rfl
  · simp only [Coap.codecs, Coap.response, bind, pure]
    constructor
    · intro e
      obtain ⟨a, h1, e⟩ := Option.bind_eq_some_iff.1 e
      cases e
      exact ⟨(may_iff reads_fin any).1 h1⟩
    · rintro ⟨h1⟩
      rw [(may_iff reads_fin any).2 h1]; rfl

/-- The members of forms for MQTT; responses have none. -/
theorem C61_mqtt {f : Mqtt.Form} :
    (Mqtt.codecs.form.de es = some f ↔ Doc.IsMqttForm es f) ∧ Mqtt.codecs.response.de es = some () := by
  refine ⟨?_, rfl⟩
  simp only [Mqtt.codecs, Mqtt.form, bind, pure]
  constructor
  · intro e
    obtain ⟨_, h1, e⟩ := Option.bind_eq_some_iff.1 e
    obtain ⟨_, h2, e⟩ := Option.bind_eq_some_iff.1 e
    obtain ⟨_, h3, e⟩ := Option.bind_eq_some_iff.1 e
    obtain ⟨_, h4, e⟩ := Option.bind_eq_some_iff.1 e
    obtain ⟨_, h5, e⟩ := Option.bind_eq_some_iff.1 e
    cases e
    exact ⟨(else_iff (Q := fun _ => True) .flag any).1 h1, (may_iff reads_packet any).1 h2, (may_iff reads_qos any).1 h3,
      (may_iff (Q := fun _ => True) .str any).1 h4, (else_iff (.strings closed) any).1 h5⟩
  · rintro ⟨h1, h2, h3, h4, h5⟩
    rw [(else_iff (Q := fun _ => True) .flag any).2 h1, (may_iff reads_packet any).2 h2, (may_iff reads_qos any).2 h3,
      (may_iff (Q := fun _ => True) .str any).2 h4, (else_iff (.strings closed) any).2 h5]; rfl

private theorem form_binding (b : Binding) {f : b.types.form} :
    b.codecs.form.de es = some f ↔ Doc.IsFormOf b es f := by
  cases b
  · exact C61_http (r := ⟨[], none⟩).1
  · exact C61_coap (r := ⟨none⟩).1
  · exact C61_mqtt.1

private theorem response_binding (b : Binding) {r : b.types.response} :
    b.codecs.response.de es = some r ↔ Doc.IsResponseOf b es r := by
  cases b
  · exact (C61_http (f := ⟨none⟩)).2
  · exact (C61_coap (f := ⟨none, none, none, none, none, none⟩)).2
  · exact ⟨fun _ => trivial, fun _ => rfl⟩

private theorem cons_de {A B : Type} {a : ExtCodec A} {b : ExtCodec B} (hb : b.Local) (hd : ∀ k ∈ b.keys, k ∉ a.keys)
    {c : Cons A B} : (ExtCodec.cons a b).de es = some c ↔ a.de es = some c.head ∧ b.de es = some c.tail := by
  have e : b.de (if a.takes then rest a.keys es else es) = b.de es := hb _ _ fun k hk => by
    split
    · exact occ_rest_of (hd k hk)
    · rfl
  simp only [ExtCodec.cons, bind, pure, e]
  constructor
  · intro h
    obtain ⟨_, h1, h⟩ := Option.bind_eq_some_iff.1 h
    obtain ⟨_, h2, h⟩ := Option.bind_eq_some_iff.1 h
    cases h
    exact ⟨h1, h2⟩
  · rintro ⟨h1, h2⟩
    rw [h1, h2]; rfl

/-- With any set of bindings, a form is read if each binding finds its members as they should be, and it gets from
them what they say. -/
theorem C61_forms : {l : List Binding} → l.Nodup → {f : (stackTypes l).form} →
    ((stack l).form.de es = some f ↔ Doc.IsFormOfAll l es f)
  | [], _, _ => ⟨fun _ => trivial, fun _ => rfl⟩
  | b :: l, hn, f => by
    rw [List.nodup_cons] at hn
    refine (cons_de (stack_byName l).1.form fun k hk hk' => ?_).trans
      (and_congr (form_binding b) (C61_forms hn.2))
    obtain ⟨b', hb', hk⟩ := mem_form_keys.1 hk
    exact form_keys_disjoint b b' (by rintro rfl; exact hn.1 hb') k hk' hk

/-- The same for responses. -/
theorem C61_responses : {l : List Binding} → l.Nodup → {r : (stackTypes l).response} →
    ((stack l).response.de es = some r ↔ Doc.IsResponseOfAll l es r)
  | [], _, _ => ⟨fun _ => trivial, fun _ => rfl⟩
  | b :: l, hn, f => by
    rw [List.nodup_cons] at hn
    refine (cons_de (stack_byName l).1.response fun k hk hk' => ?_).trans
      (and_congr (response_binding b) (C61_responses hn.2))
    obtain ⟨b', hb', hk⟩ := mem_response_keys.1 hk
    exact response_keys_disjoint b b' (by rintro rfl; exact hn.1 hb') k hk' hk

/-- In a document, the members are those of the form itself. -/
theorem C61_in_form {l : List Binding} (hn : l.Nodup) {f : Form (stackTypes l)}
    (h : deForm (stack l) (.obj es) = some f) :
    Doc.IsFormOfAll l es f.other ∧
    ∀ r, f.response = some r → ∃ rs, occ "response" es = [.obj rs] ∧ Doc.IsResponseOfAll l rs r.other := by
  have h := deForm_iff.1 h
  constructor
  · rw [← C61_forms hn, ← h.other]
    refine (stack_byName l).1.form _ _ fun k hk => (occ_rest_of ?_).symm
    obtain ⟨b, _, hk⟩ := mem_form_keys.1 hk
    exact form_keys_apart b k hk
  · intro r hr
    have h := h.response
    rw [hr] at h
    rcases defaulted_eq_some h with ⟨_, e⟩ | ⟨v, hv, e⟩
    · cases e
    · cases v with
      | obj rs =>
        simp only [deOption, Option.map_eq_some_iff, Option.some.injEq, exists_eq_right] at e
        refine ⟨rs, hv, ?_⟩
        have h := deResponse_iff.1 e
        rw [← C61_responses hn, ← h.other]
        refine (stack_byName l).1.response _ _ fun k hk => (occ_rest_of ?_).symm
        obtain ⟨b, _, hk⟩ := mem_response_keys.1 hk
        exact response_keys_apart b k hk
      | _ => cases e

/-- The JSON value written for a form says what the form says, provided that HTTP responses name headers. -/
theorem C61_written {l : List Binding} (hn : l.Nodup) {f : Form (stackTypes l)} {j : Json}
    (hj : serForm (stack l) f = some j) (hr : ∀ r, f.response = some r → AllHeadersGiven l r.other) :
    ∃ es, j.norm = .obj es ∧ Doc.IsFormOfAll l es f.other ∧
      ∀ r, f.response = some r → ∃ rs, occ "response" es = [.obj rs] ∧ Doc.IsResponseOfAll l rs r.other := by
  obtain ⟨j', hj', h, _⟩ := C36_forms hn f
  cases hj.symm.trans hj'
  have h := h hr _ (.of_norm j)
  cases hv : j.norm with
  | obj es => rw [hv] at h; exact ⟨es, rfl, C61_in_form (f := f.stored) hn h⟩
  | _ => rw [hv] at h; cases h

/-- The members that are not called so. -/
def Others (names : List String) (es : Members) : Members := es.filter fun kv => kv.1 ∉ names

theorem cons_behind {A B : Type} {a : ExtCodec A} (ht : a.takes = true) (b : ExtCodec B) {es : Members} {x : A} {y : B} :
    (ExtCodec.cons a b).de es = some ⟨x, y⟩ ↔ a.de es = some x ∧ b.de (Others a.keys es) = some y := by
  have e : rest a.keys es = Others a.keys es := by
    unfold rest Others
    congr 1
    funext kv
    simp
  simp only [ExtCodec.cons, ht, if_true, e, bind, pure, Option.bind_eq_some_iff, Option.some.injEq, Cons.mk.injEq]
  constructor
  · rintro ⟨_, h1, _, h2, rfl, rfl⟩; exact ⟨h1, h2⟩
  · rintro ⟨h1, h2⟩; exact ⟨x, h1, y, h2, rfl, rfl⟩

/-- C61: an extension that was added before a binding, of whatever kind, is offered exactly the members that are not part of
the vocabulary of the binding. -/
theorem C61_behind {B : Type} (b : ExtCodec B) (es : Members) (y : B) :
    (∀ x, (Http.codecs.form.cons b).de es = some ⟨x, y⟩ ↔
      Http.codecs.form.de es = some x ∧ b.de (Others ["htv:methodName"] es) = some y) ∧
    (∀ x, (Http.codecs.response.cons b).de es = some ⟨x, y⟩ ↔
      Http.codecs.response.de es = some x ∧ b.de (Others ["htv:headers", "htv:statusCodeValue"] es) = some y) ∧
    (∀ x, (Coap.codecs.form.cons b).de es = some ⟨x, y⟩ ↔
      Coap.codecs.form.de es = some x ∧ b.de (Others ["cov:method", "cov:blockwise", "cov:qblockwise", "cov:hopLimit", "cov:accept",
        "cov:contentFormat"] es) = some y) ∧
    (∀ x, (Coap.codecs.response.cons b).de es = some ⟨x, y⟩ ↔
      Coap.codecs.response.de es = some x ∧ b.de (Others ["cov:contentFormat"] es) = some y) ∧
    (∀ x, (Mqtt.codecs.form.cons b).de es = some ⟨x, y⟩ ↔
      Mqtt.codecs.form.de es = some x ∧ b.de (Others ["mqv:retain", "mqv:controlPacket", "mqv:qos", "mqv:topic", "mqv:filter"] es) =
        some y) :=
  ⟨fun _ => cons_behind rfl b, fun _ => cons_behind rfl b, fun _ => cons_behind rfl b, fun _ => cons_behind rfl b,
    fun _ => cons_behind rfl b⟩

namespace Demo

/-- An extension that keeps all members it is offered. -/
def everything : ExtCodec Members := { keys := [], ser := some, de := some, takes := true }

/-- Behind a binding it does not see the members of the binding, but all others, also those of other bindings. -/
example : ((Coap.codecs.response.cons everything).de
      [("x", .null), ("cov:contentFormat", .num (.pos 60)), ("cov:method", .str "GET")]).map (·.tail) =
    some [("x", .null), ("cov:method", .str "GET")] := by
  have h := ((C61_behind everything [("x", .null), ("cov:contentFormat", .num (.pos 60)), ("cov:method", .str "GET")]
    [("x", .null), ("cov:method", .str "GET")]).2.2.2.1 ⟨some 60⟩).2 ⟨rfl, rfl⟩
  rw [h]; rfl

/-- Block sizes as an array: the first is that of responses. -/
example : ∃ f, deForm (stack [.coap]) (.obj [("href", .str "x"), ("cov:blockwise", .arr [.num (.pos 64), .null])]) =
    some f ∧ f.other.head.blockwise = some ⟨some .size64, none⟩ ∧
    Doc.IsCoapForm [("href", .str "x"), ("cov:blockwise", .arr [.num (.pos 64), .null])] f.other.head :=
  ⟨_, rfl, rfl, (C61_in_form (l := [.coap]) (by decide) rfl).1.1⟩

/-- A form with headers in both forms, and a method as an object. -/
def spelled : Members :=
  [("htv:methodName", .obj [("PUT", .null)]), ("href", .str "x"), ("mqv:filter", .str "a/#"),
   ("response", .obj [("contentType", .str "text/plain"),
     ("htv:headers", .arr [.arr [.str "Age", .null], .obj [("htv:fieldValue", .str "1")]])])]

example : ∃ f, deForm (stack [.mqtt, .http]) (.obj spelled) = some f ∧ f.other.head.filter = ["a/#"] ∧
    f.other.tail.head.methodName = some .put ∧ Doc.IsFormOfAll [.mqtt, .http] spelled f.other :=
  ⟨_, rfl, rfl, rfl, (C61_in_form (l := [.mqtt, .http]) (by decide) (es := spelled) rfl).1⟩

/-- A number that does not fit is not accepted. -/
example : ¬ ∃ f, Doc.IsCoapForm [("cov:hopLimit", .num (.pos 256))] f :=
  fun ⟨_, h⟩ => nomatch (C61_coap (r := ⟨none⟩)).1.2 h

end Demo
end Wot
