import Verif.Spec.WrittenProtocol
import Verif.Lemmas.Written
import Verif.Lemmas.Protocol
/-
What is written for forms with protocol bindings.
-/
namespace Wot

local macro "field " g:ident : tactic =>
  `(tactic| (rw [$g:ident _ (by decide)]; simp only [fieldOf, String.reduceEq, ↓reduceIte]))

theorem ExtCodecs.Tidy.own {X : ExtTypes} {C : ExtCodecs X} (h : C.Tidy) : C.Own where
  thing a m e := (h.thing a m e).keys
  interaction a m e := (h.interaction a m e).keys
  property a m e := (h.property a m e).keys
  action a m e := (h.action a m e).keys
  event a m e := (h.event a m e).keys
  form a m e := (h.form a m e).keys
  response a m e := (h.response a m e).keys
  dataSchema a m e := (h.dataSchema a m e).keys
  objectSchema a m e := (h.objectSchema a m e).keys
  arraySchema a m e := (h.arraySchema a m e).keys

theorem optNumberShown {n : Nat} (o : Option (Fin n)) : OptNumber o ((o.map serFin).map Json.norm) :=
  optShown fun _ _ => natShown _

theorem Http.header_shown (h : MessageHeader) : HeaderShown h (serHeader h).norm := by
  have g := struct_get (L := [("htv:fieldName", h.fieldName.map .str), ("htv:fieldValue", h.fieldValue.map .str)])
    (by names)
  refine ⟨?_, ?_, struct_only⟩ <;> rw [serHeader, g] <;> simp only [fieldOf, String.reduceEq, ↓reduceIte] <;>
    exact strShown _

theorem Coap.blockwise_shown (b : BlockWise) : BlockWiseShown b (serBlockWise b).norm := by
  have g := struct_get (L := [("cov:block2Size", b.block2Size.map serBlockSize),
    ("cov:block1Size", b.block1Size.map serBlockSize)]) (by names)
  have e : ∀ s : BlockSize, NatShown s.size (serBlockSize s).norm := by intro s; cases s <;> rfl
  refine ⟨?_, ?_, struct_only⟩ <;> rw [serBlockWise, g] <;> simp only [fieldOf, String.reduceEq, ↓reduceIte] <;>
    exact optShown fun s _ => e s

namespace Binding

theorem form_shown (b : Binding) {f : b.types.form} {m : Members} (hm : b.codecs.form.ser f = some m) {v : Json}
    (hv : ∀ k ∈ b.codecs.form.keys, v.member k = written m k) : FormShown b f v := by
  cases b with
  | http =>
    obtain ⟨method⟩ := f
    cases Option.some.inj hm
    have g : ∀ k ∈ ["htv:methodName"], v.member k = _ := fun k hk => (hv k hk).trans (written_members (by names) k)
    show OptRel _ _ _
    field g
    exact optShown fun m _ => by cases m <;> rfl
  | coap =>
    obtain ⟨method, blockwise, qblockwise, hopLimit, accept, contentFormat⟩ := f
    cases Option.some.inj hm
    have g : ∀ k ∈ ["cov:method", "cov:blockwise", "cov:qblockwise", "cov:hopLimit", "cov:accept",
      "cov:contentFormat"], v.member k = _ := fun k hk => (hv k hk).trans (written_members (by names) k)
    refine Coap.FormShown.mk ?_ ?_ ?_ ?_ ?_ ?_
    · field g; exact optShown fun m _ => by cases m <;> rfl
    · field g; exact optShown fun b _ => Coap.blockwise_shown b
    · field g; exact optShown fun b _ => Coap.blockwise_shown b
    · field g; exact optNumberShown _
    · field g; exact optNumberShown _
    · field g; exact optNumberShown _
  | mqtt =>
    obtain ⟨retain, controlPacket, qos, topic, filter⟩ := f
    cases Option.some.inj hm
    have g : ∀ k ∈ ["mqv:retain", "mqv:controlPacket", "mqv:qos", "mqv:topic", "mqv:filter"], v.member k = _ :=
      fun k hk => (hv k hk).trans (written_members (by names) k)
    refine Mqtt.FormShown.mk ?_ ?_ ?_ ?_ ?_
    · field g; cases retain <;> rfl
    · field g; exact optShown fun m _ => by cases m <;> rfl
    · field g; exact optShown fun m _ => by cases m <;> rfl
    · field g; exact strShown _
    · field g
      cases filter with
      | nil => exact .none
      | cons a l => exact .some (stringsShown _)

theorem response_shown (b : Binding) {r : b.types.response} {m : Members}
    (hm : b.codecs.response.ser r = some m) {v : Json}
    (hv : ∀ k ∈ b.codecs.response.keys, v.member k = written m k) : ResponseShown b r v := by
  cases b with
  | http =>
    obtain ⟨headers, statusCodeValue⟩ := r
    cases Option.some.inj hm
    have g : ∀ k ∈ ["htv:headers", "htv:statusCodeValue"], v.member k = _ :=
      fun k hk => (hv k hk).trans (written_members (by names) k)
    refine Http.ResponseShown.mk ?_ ?_
    · field g
      cases headers with
      | nil => exact .none
      | cons a l => exact .some (listShown fun h _ => Http.header_shown h)
    · field g; exact optNumberShown _
  | coap =>
    obtain ⟨contentFormat⟩ := r
    cases Option.some.inj hm
    have g : ∀ k ∈ ["cov:contentFormat"], v.member k = _ :=
      fun k hk => (hv k hk).trans (written_members (by names) k)
    show OptRel _ _ _
    field g
    exact optNumberShown _
  | mqtt => exact trivial

theorem stack_form_shown : {l : List Binding} → l.Nodup → {f : (stackTypes l).form} → {m : Members} →
    (stack l).form.ser f = some m → {v : Json} → (∀ k ∈ (stack l).form.keys, v.member k = written m k) →
    AllFormShown l f v
  | [], _, _, _, _, _, _ => trivial
  | b :: l, hn, ⟨f, fs⟩, m, hm, v, hv => by
    have hn' := List.nodup_cons.1 hn
    obtain ⟨ma, h1, hm⟩ := Option.bind_eq_some_iff.1 hm
    obtain ⟨mb, h2, hm⟩ := Option.bind_eq_some_iff.1 hm
    cases Option.some.inj hm
    have disj : ∀ k ∈ b.codecs.form.keys, k ∉ (stack l).form.keys := fun k hk hk' => by
      obtain ⟨b', hb', hk'⟩ := mem_form_keys.1 hk'
      refine form_keys_disjoint b b' ?_ k hk hk'
      rintro rfl
      exact hn'.1 hb'
    have o1 := (tidy b).own.form _ _ h1
    have o2 := (stack_tidy hn'.2).own.form _ _ h2
    refine ⟨form_shown b h1 fun k hk => ?_, stack_form_shown hn'.2 h2 fun k hk => ?_⟩
    · rw [hv k (List.mem_append_left _ hk), written_append, written_own o2 (disj k hk)]; rfl
    · rw [hv k (List.mem_append_right _ hk), written_append, written_own o1 fun h => disj k h hk]
      cases written mb k <;> rfl

theorem stack_response_shown : {l : List Binding} → l.Nodup → {f : (stackTypes l).response} → {m : Members} →
    (stack l).response.ser f = some m → {v : Json} → (∀ k ∈ (stack l).response.keys, v.member k = written m k) →
    AllResponseShown l f v
  | [], _, _, _, _, _, _ => trivial
  | b :: l, hn, ⟨f, fs⟩, m, hm, v, hv => by
    have hn' := List.nodup_cons.1 hn
    obtain ⟨ma, h1, hm⟩ := Option.bind_eq_some_iff.1 hm
    obtain ⟨mb, h2, hm⟩ := Option.bind_eq_some_iff.1 hm
    cases Option.some.inj hm
    have disj : ∀ k ∈ b.codecs.response.keys, k ∉ (stack l).response.keys := fun k hk hk' => by
      obtain ⟨b', hb', hk'⟩ := mem_response_keys.1 hk'
      refine response_keys_disjoint b b' ?_ k hk hk'
      rintro rfl
      exact hn'.1 hb'
    have o1 := (tidy b).own.response _ _ h1
    have o2 := (stack_tidy hn'.2).own.response _ _ h2
    refine ⟨response_shown b h1 fun k hk => ?_, stack_response_shown hn'.2 h2 fun k hk => ?_⟩
    · rw [hv k (List.mem_append_left _ hk), written_append, written_own o2 (disj k hk)]; rfl
    · rw [hv k (List.mem_append_right _ hk), written_append, written_own o1 fun h => disj k h hk]
      cases written mb k <;> rfl

end Binding
end Wot
