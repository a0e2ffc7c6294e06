import Verif.Lemmas.CodecThing
import Verif.Lemmas.CodecText
import Verif.Lemmas.HList
import Verif.Spec.Protocol
/-
The protocol bindings are read back from what they are written as.
-/
namespace Wot

theorem fin_rt {n : Nat} (m : Fin n) : RT (serFin m) (deFin n) m := fun d hd => by
  rw [hd.num]
  simp [deFin]

theorem fin_field {n : Nat} {x : Option (Fin n)} :
    ∀ a, x = some a → serFin a ≠ .null ∧ RT (serFin a) (deFin n) a := fun a _ => ⟨nofun, fin_rt a⟩

/-- The members of the extension of a form or response, as found in a document. -/
theorem carries_fields {es : Members} {L : List (String × Option Json)} {K : List String}
    (hc : ∀ k ∈ K, Carries es (members L) k) (hn : (L.map (·.1)).Nodup) {k : String} (hk : k ∈ K)
    {v : Option Json} (hv : fieldOf k L = v) :
    Carries es (members L) k ∧ lastOf (occ k (members L)) = v :=
  ⟨hc k hk, (hc k hk).field hn hv⟩

namespace Http

theorem method_rt (m : Method) : RT (serMethod m) deMethod m := by cases m <;> exact enum_rt_buffered rfl

theorem header_rt (h : MessageHeader) : RT (serHeader h) deHeader h := by
  intro d hd
  obtain ⟨es, rfl, _, hc⟩ := hd.obj
  have hf : ∀ {k : String} {v : Option Json}, fieldOf k _ = v → _ ∧ _ :=
    fun {k v} h2 => And.intro (hc k) ((hc k).field (by names) h2)
  have h1 := hf (k := "htv:fieldName") (by simp [fieldOf]; rfl)
  have h2 := hf (k := "htv:fieldValue") (by simp [fieldOf]; rfl)
  have g1 := optional_field h1.1 h1.2 Option.map_str_rt
  have g2 := optional_field h2.1 h2.2 Option.map_str_rt
  simp only [deHeader, bind, Option.bind_some, pure, g1, g2]

theorem form_reads (f : Form) : form.Reads f where
  own := by
    intro m h
    cases h
    exact members_keys rfl
  read := by
    intro m es h hc
    cases h
    have h1 := carries_fields hc (by names) (k := "htv:methodName") (by decide) (by simp [fieldOf]; rfl)
    have g1 := optional_field h1.1 h1.2 fun a _ => ⟨nofun, method_rt a⟩
    simp only [form, bind, Option.bind_some, pure, g1]

theorem response_reads {r : Response} (h0 : r.headers ≠ []) : response.Reads r where
  own := by
    intro m h
    cases h
    exact members_keys rfl
  read := by
    intro m es h hc
    cases h
    have he : r.headers.isEmpty = false := by
      cases e : r.headers with
      | nil => exact absurd e h0
      | cons a l => rfl
    rw [he] at hc
    have h1 := carries_fields hc (by names) (k := "htv:headers") (by decide) (by simp [fieldOf]; rfl)
    have h2 := carries_fields hc (by names) (k := "htv:statusCodeValue") (by decide) (by simp [fieldOf]; rfl)
    have g1 := required_rt h1.1 h1.2 (vec_rt (pointwise_map_self fun a _ => header_rt a))
    have g2 := optional_field h2.1 h2.2 fin_field
    simp only [response, bind, Option.bind_some, pure, g1, g2]

/-- Without headers, nothing can be read. -/
theorem response_none {r : Response} (h0 : r.headers = []) {m es : Members}
    (h : response.ser r = some m) (hc : ∀ k ∈ response.keys, Carries es m k) : response.de es = none := by
  cases h
  rw [h0] at hc
  have h1 := carries_fields hc (by names) (k := "htv:headers") (by decide) (by simp [fieldOf]; rfl)
  have g1 : required "htv:headers" (deVec deHeader) es = none := by
    unfold required
    rw [h1.1.absent h1.2]
  simp only [response, bind, g1, Option.bind_none]

theorem noDup_header (h : MessageHeader) : (serHeader h).NoDup := by
  refine (Clean.fields ["htv:fieldName", "htv:fieldValue"] (by decide) rfl ?_).obj
  simp only [List.mem_cons, List.not_mem_nil, or_false, forall_eq_or_imp, forall_eq]
  exact ⟨clean_str, clean_str⟩

theorem form_once (f : Form) (m : Members) (h : form.ser f = some m) : Clean form.keys m := by
  cases h
  refine Clean.fields ["htv:methodName"] (by decide) rfl ?_
  simp only [List.mem_cons, List.not_mem_nil, or_false, forall_eq]
  exact clean_map fun a _ => trivial

theorem response_once (f : Response) (m : Members) (h : response.ser f = some m) : Clean response.keys m := by
  cases h
  refine Clean.fields ["htv:headers", "htv:statusCodeValue"] (by decide) rfl ?_
  simp only [List.mem_cons, List.not_mem_nil, or_false, forall_eq_or_imp, forall_eq]
  refine ⟨?_, clean_map fun a _ => trivial⟩
  intro j hj
  split at hj
  · cases hj
  · cases hj
    refine noDup_arr fun j hj => ?_
    obtain ⟨h, _, rfl⟩ := List.mem_map.1 hj
    exact noDup_header h

end Http

namespace Coap

theorem method_rt (m : Method) : RT (serMethod m) deMethod m := by cases m <;> exact enum_rt_buffered rfl

theorem blockSize_rt (s : BlockSize) : RT (serBlockSize s) deBlockSize s := fun d hd => by
  rw [hd.num]
  cases s <;> rfl

theorem blockSize_field {x : Option BlockSize} :
    ∀ a, x = some a → serBlockSize a ≠ .null ∧ RT (serBlockSize a) deBlockSize a :=
  fun a _ => ⟨nofun, blockSize_rt a⟩

theorem blockWise_rt (b : BlockWise) : RT (serBlockWise b) deBlockWise b := by
  intro d hd
  obtain ⟨es, rfl, _, hc⟩ := hd.obj
  have hf : ∀ {k : String} {v : Option Json}, fieldOf k _ = v → _ ∧ _ :=
    fun {k v} h2 => And.intro (hc k) ((hc k).field (by names) h2)
  have h1 := hf (k := "cov:block2Size") (by simp [fieldOf]; rfl)
  have h2 := hf (k := "cov:block1Size") (by simp [fieldOf]; rfl)
  have g1 := optional_field h1.1 h1.2 blockSize_field
  have g2 := optional_field h2.1 h2.2 blockSize_field
  simp only [deBlockWise, bind, Option.bind_some, pure, g1, g2]

theorem blockWise_field {x : Option BlockWise} :
    ∀ a, x = some a → serBlockWise a ≠ .null ∧ RT (serBlockWise a) deBlockWise a :=
  fun a _ => ⟨nofun, blockWise_rt a⟩

theorem form_reads (f : Form) : form.Reads f where
  own := by
    intro m h
    cases h
    exact members_keys rfl
  read := by
    intro m es h hc
    cases h
    have h1 := carries_fields hc (by names) (k := "cov:method") (by decide) (by simp [fieldOf]; rfl)
    have h2 := carries_fields hc (by names) (k := "cov:blockwise") (by decide) (by simp [fieldOf]; rfl)
    have h3 := carries_fields hc (by names) (k := "cov:qblockwise") (by decide) (by simp [fieldOf]; rfl)
    have h4 := carries_fields hc (by names) (k := "cov:hopLimit") (by decide) (by simp [fieldOf]; rfl)
    have h5 := carries_fields hc (by names) (k := "cov:accept") (by decide) (by simp [fieldOf]; rfl)
    have h6 := carries_fields hc (by names) (k := "cov:contentFormat") (by decide) (by simp [fieldOf]; rfl)
    have g1 := optional_field h1.1 h1.2 fun a _ => ⟨nofun, method_rt a⟩
    have g2 := optional_field h2.1 h2.2 blockWise_field
    have g3 := optional_field h3.1 h3.2 blockWise_field
    have g4 := optional_field h4.1 h4.2 fin_field
    have g5 := optional_field h5.1 h5.2 fin_field
    have g6 := optional_field h6.1 h6.2 fin_field
    simp only [form, bind, Option.bind_some, pure, g1, g2, g3, g4, g5, g6]

theorem response_reads (f : Response) : response.Reads f where
  own := by
    intro m h
    cases h
    exact members_keys rfl
  read := by
    intro m es h hc
    cases h
    have h1 := carries_fields hc (by names) (k := "cov:contentFormat") (by decide) (by simp [fieldOf]; rfl)
    have g1 := optional_field h1.1 h1.2 fin_field
    simp only [response, bind, Option.bind_some, pure, g1]

theorem noDup_blockWise (h : BlockWise) : (serBlockWise h).NoDup := by
  refine (Clean.fields ["cov:block2Size", "cov:block1Size"] (by decide) rfl ?_).obj
  simp only [List.mem_cons, List.not_mem_nil, or_false, forall_eq_or_imp, forall_eq]
  exact ⟨clean_map fun _ _ => trivial, clean_map fun _ _ => trivial⟩

theorem form_once (f : Form) (m : Members) (h : form.ser f = some m) : Clean form.keys m := by
  cases h
  refine Clean.fields ["cov:method", "cov:blockwise", "cov:qblockwise", "cov:hopLimit", "cov:accept",
    "cov:contentFormat"] (by decide) rfl ?_
  simp only [List.mem_cons, List.not_mem_nil, or_false, forall_eq_or_imp, forall_eq]
  exact ⟨clean_map fun _ _ => trivial, clean_map fun _ _ => noDup_blockWise _,
    clean_map fun _ _ => noDup_blockWise _, clean_map fun _ _ => trivial, clean_map fun _ _ => trivial,
    clean_map fun _ _ => trivial⟩

theorem response_once (f : Response) (m : Members) (h : response.ser f = some m) : Clean response.keys m := by
  cases h
  refine Clean.fields ["cov:contentFormat"] (by decide) rfl ?_
  simp only [List.mem_cons, List.not_mem_nil, or_false, forall_eq]
  exact clean_map fun a _ => trivial

end Coap

namespace Mqtt

theorem packet_rt (p : ControlPacket) : RT (serPacket p) dePacket p := by cases p <;> exact enum_rt_buffered rfl

theorem qos_rt (q : QoS) : RT (serQoS q) deQoS q := by cases q <;> exact enum_rt_buffered rfl

theorem form_reads (f : Form) : form.Reads f where
  own := by
    intro m h
    cases h
    exact members_keys rfl
  read := by
    intro m es h hc
    cases h
    have h1 := carries_fields hc (by names) (k := "mqv:retain") (by decide) (by simp [fieldOf]; rfl)
    have h2 := carries_fields hc (by names) (k := "mqv:controlPacket") (by decide) (by simp [fieldOf]; rfl)
    have h3 := carries_fields hc (by names) (k := "mqv:qos") (by decide) (by simp [fieldOf]; rfl)
    have h4 := carries_fields hc (by names) (k := "mqv:topic") (by decide) (by simp [fieldOf]; rfl)
    have h5 := carries_fields hc (by names) (k := "mqv:filter") (by decide) (by simp [fieldOf]; rfl)
    have g1 : defaulted "mqv:retain" false deBool es = some f.retain := by
      have e := h1.2
      have c := h1.1
      generalize members _ = m at e c
      cases hs : f.retain with
      | true => rw [hs] at e; exact defaulted_rt c e (bool_rt true)
      | false => rw [hs] at e; exact defaulted_absent c e
    have g2 := optional_field h2.1 h2.2 fun a _ => ⟨nofun, packet_rt a⟩
    have g3 := optional_field h3.1 h3.2 fun a _ => ⟨nofun, qos_rt a⟩
    have g4 := optional_field h4.1 h4.2 Option.map_str_rt
    have g5 : defaulted "mqv:filter" [] deStrings es = some f.filter := by
      have e := h5.2
      have c := h5.1
      generalize members _ = m at e c
      cases hs : f.filter with
      | nil => rw [hs] at e; exact defaulted_absent c e
      | cons a l => rw [hs] at e; exact defaulted_rt c e (strings_rt _)
    simp only [form, bind, Option.bind_some, pure, g1, g2, g3, g4, g5]

theorem form_once (f : Form) (m : Members) (h : form.ser f = some m) : Clean form.keys m := by
  cases h
  refine Clean.fields ["mqv:retain", "mqv:controlPacket", "mqv:qos", "mqv:topic", "mqv:filter"]
    (by decide) rfl ?_
  simp only [List.mem_cons, List.not_mem_nil, or_false, forall_eq_or_imp, forall_eq]
  refine ⟨?_, clean_map fun _ _ => trivial, clean_map fun _ _ => trivial, clean_str, ?_⟩
  · intro j hj
    split at hj <;> cases hj
    trivial
  · intro j hj
    split at hj
    · cases hj
    · cases hj; exact noDup_strings _

end Mqtt
end Wot

namespace Wot
namespace Binding

theorem stack_keys (l : List Binding) : (stack l).thing.keys = [] ∧ (stack l).interaction.keys = [] ∧
    (stack l).property.keys = [] ∧ (stack l).action.keys = [] ∧ (stack l).event.keys = [] ∧
    (stack l).dataSchema.keys = [] ∧ (stack l).objectSchema.keys = [] ∧ (stack l).arraySchema.keys = [] := by
  induction l with
  | nil => exact ⟨rfl, rfl, rfl, rfl, rfl, rfl, rfl, rfl⟩
  | cons b l ih =>
    obtain ⟨h1, h2, h3, h4, h5, h6, h7, h8⟩ := ih
    cases b <;> exact ⟨h1, h2, h3, h4, h5, h6, h7, h8⟩

/-- The member names a binding adds to forms. -/
theorem mem_form_keys {l : List Binding} {k : String} :
    k ∈ (stack l).form.keys ↔ ∃ b ∈ l, k ∈ b.codecs.form.keys := by
  induction l with
  | nil => simp [stack, ExtCodecs.nil, ExtCodec.nil]
  | cons b l ih =>
    simp only [stack, ExtCodecs.cons, ExtCodec.cons, List.mem_append, ih, List.mem_cons,
      exists_eq_or_imp]

theorem mem_response_keys {l : List Binding} {k : String} :
    k ∈ (stack l).response.keys ↔ ∃ b ∈ l, k ∈ b.codecs.response.keys := by
  induction l with
  | nil => simp [stack, ExtCodecs.nil, ExtCodec.nil]
  | cons b l ih =>
    simp only [stack, ExtCodecs.cons, ExtCodec.cons, List.mem_append, ih, List.mem_cons,
      exists_eq_or_imp]

theorem form_keys_apart (b : Binding) : ∀ k ∈ b.codecs.form.keys, k ∉ Names.form := by
  cases b <;> simp only [codecs, Http.codecs, Coap.codecs, Mqtt.codecs, Http.form, Coap.form, Mqtt.form] <;>
    decide

theorem response_keys_apart (b : Binding) : ∀ k ∈ b.codecs.response.keys, k ∉ ["contentType"] := by
  cases b <;> simp only [codecs, Http.codecs, Coap.codecs, Mqtt.codecs, Http.response, Coap.response,
    ExtCodec.nil] <;> decide

theorem form_keys_disjoint (a b : Binding) (h : a ≠ b) :
    ∀ k ∈ a.codecs.form.keys, k ∉ b.codecs.form.keys := by
  cases a <;> cases b <;> first | exact absurd rfl h | skip
  all_goals
    simp only [codecs, Http.codecs, Coap.codecs, Mqtt.codecs, Http.form, Coap.form, Mqtt.form]
    decide

theorem response_keys_disjoint (a b : Binding) (h : a ≠ b) :
    ∀ k ∈ a.codecs.response.keys, k ∉ b.codecs.response.keys := by
  cases a <;> cases b <;> first | exact absurd rfl h | skip
  all_goals
    simp only [codecs, Http.codecs, Coap.codecs, Mqtt.codecs, Http.response, Coap.response, ExtCodec.nil]
    decide

theorem apart_nil {K : List String} : Apart [] K := nofun

theorem stack_separate (l : List Binding) : (stack l).Separate := by
  obtain ⟨h1, h2, h3, h4, h5, h6, h7, h8⟩ := stack_keys l
  constructor
  case form =>
    intro k hk
    obtain ⟨b, _, hb⟩ := mem_form_keys.1 hk
    exact form_keys_apart b k hb
  case response =>
    intro k hk
    obtain ⟨b, _, hb⟩ := mem_response_keys.1 hk
    exact response_keys_apart b k hb
  case schemas =>
    rw [h6, h7, h8]
    exact ⟨apart_nil, apart_nil, apart_nil⟩
  all_goals
    simp only [h1, h2, h3, h4, h5, h6, h7, h8]
    exact apart_nil

theorem form_reads (b : Binding) (f : b.types.form) : b.codecs.form.Reads f := by
  cases b
  · exact Http.form_reads f
  · exact Coap.form_reads f
  · exact Mqtt.form_reads f

theorem response_reads (b : Binding) {r : b.types.response} (h : HeadersGiven b r) :
    b.codecs.response.Reads r := by
  cases b
  · exact Http.response_reads h
  · exact Coap.response_reads r
  · exact ExtCodec.nil_reads

theorem stack_form_reads : {l : List Binding} → l.Nodup → (f : (stackTypes l).form) →
    (stack l).form.Reads f
  | [], _, () => ExtCodec.nil_reads
  | b :: l, hn, ⟨f, fs⟩ => by
    have hn := List.nodup_cons.1 hn
    refine ExtCodec.cons_reads (form_reads b f) (stack_form_reads hn.2 fs) fun k hk hk' => ?_
    obtain ⟨b', hb', hk'⟩ := mem_form_keys.1 hk'
    refine form_keys_disjoint b b' ?_ k hk hk'
    rintro rfl
    exact hn.1 hb'

theorem stack_response_reads : {l : List Binding} → l.Nodup → {r : (stackTypes l).response} →
    AllHeadersGiven l r → (stack l).response.Reads r
  | [], _, (), _ => ExtCodec.nil_reads
  | b :: l, hn, ⟨f, fs⟩, h => by
    have hn := List.nodup_cons.1 hn
    refine ExtCodec.cons_reads (response_reads b h.1) (stack_response_reads hn.2 h.2) fun k hk hk' => ?_
    obtain ⟨b', hb', hk'⟩ := mem_response_keys.1 hk'
    refine response_keys_disjoint b b' ?_ k hk hk'
    rintro rfl
    exact hn.1 hb'

end Binding

/-- Both parts of a list of extensions write own members, none of them twice. -/
theorem ExtCodec.cons_once {A B : Type} {h : ExtCodec A} {t : ExtCodec B}
    (ha : ∀ a m, h.ser a = some m → Clean h.keys m) (hb : ∀ a m, t.ser a = some m → Clean t.keys m)
    (hd : Apart h.keys t.keys) (c : Cons A B) (m : Members) (hm : (ExtCodec.cons h t).ser c = some m) :
    Clean (ExtCodec.cons h t).keys m := by
  simp only [ExtCodec.cons, bind, pure, Option.bind_eq_some_iff] at hm
  obtain ⟨ma, h1, mb, h2, e⟩ := hm
  cases e
  exact (ha _ _ h1).append (hb _ _ h2) fun k hk hk' => hd k hk' hk

theorem ExtCodec.nil_once (a : Nil) (m : Members) (h : ExtCodec.nil.ser a = some m) :
    Clean ExtCodec.nil.keys m := by
  cases h; exact .nil _

/-- All extensions write own members, none of them twice. -/
structure ExtCodecs.Tidy {X : ExtTypes} (C : ExtCodecs X) : Prop where
  thing : ∀ a m, C.thing.ser a = some m → Clean C.thing.keys m
  interaction : ∀ a m, C.interaction.ser a = some m → Clean C.interaction.keys m
  property : ∀ a m, C.property.ser a = some m → Clean C.property.keys m
  action : ∀ a m, C.action.ser a = some m → Clean C.action.keys m
  event : ∀ a m, C.event.ser a = some m → Clean C.event.keys m
  form : ∀ a m, C.form.ser a = some m → Clean C.form.keys m
  response : ∀ a m, C.response.ser a = some m → Clean C.response.keys m
  dataSchema : ∀ a m, C.dataSchema.ser a = some m → Clean C.dataSchema.keys m
  objectSchema : ∀ a m, C.objectSchema.ser a = some m → Clean C.objectSchema.keys m
  arraySchema : ∀ a m, C.arraySchema.ser a = some m → Clean C.arraySchema.keys m

theorem ExtCodecs.Tidy.writeOnce {X : ExtTypes} {C : ExtCodecs X} (h : C.Tidy) : C.WriteOnce where
  thing a m e := (h.thing a m e).obj
  interaction a m e := (h.interaction a m e).obj
  property a m e := (h.property a m e).obj
  action a m e := (h.action a m e).obj
  event a m e := (h.event a m e).obj
  form a m e := (h.form a m e).obj
  response a m e := (h.response a m e).obj
  dataSchema a m e := (h.dataSchema a m e).obj
  objectSchema a m e := (h.objectSchema a m e).obj
  arraySchema a m e := (h.arraySchema a m e).obj

namespace Binding

theorem tidy (b : Binding) : b.codecs.Tidy := by
  cases b
  · exact ⟨ExtCodec.nil_once, ExtCodec.nil_once, ExtCodec.nil_once, ExtCodec.nil_once, ExtCodec.nil_once,
      Http.form_once, Http.response_once, ExtCodec.nil_once, ExtCodec.nil_once, ExtCodec.nil_once⟩
  · exact ⟨ExtCodec.nil_once, ExtCodec.nil_once, ExtCodec.nil_once, ExtCodec.nil_once, ExtCodec.nil_once,
      Coap.form_once, Coap.response_once, ExtCodec.nil_once, ExtCodec.nil_once, ExtCodec.nil_once⟩
  · exact ⟨ExtCodec.nil_once, ExtCodec.nil_once, ExtCodec.nil_once, ExtCodec.nil_once, ExtCodec.nil_once,
      Mqtt.form_once, ExtCodec.nil_once, ExtCodec.nil_once, ExtCodec.nil_once, ExtCodec.nil_once⟩

theorem stack_tidy {l : List Binding} (hn : l.Nodup) : (stack l).Tidy := by
  induction l with
  | nil =>
    exact ⟨ExtCodec.nil_once, ExtCodec.nil_once, ExtCodec.nil_once, ExtCodec.nil_once, ExtCodec.nil_once,
      ExtCodec.nil_once, ExtCodec.nil_once, ExtCodec.nil_once, ExtCodec.nil_once, ExtCodec.nil_once⟩
  | cons b l ih =>
    have hn := List.nodup_cons.1 hn
    have hb := tidy b
    have hl := ih hn.2
    obtain ⟨h1, h2, h3, h4, h5, h6, h7, h8⟩ := stack_keys l
    have none : ∀ {K K' : List String}, K' = [] → Apart K K' := by
      rintro K K' rfl
      intro k _ h
      cases h
    constructor
    case form =>
      refine ExtCodec.cons_once hb.form hl.form fun k hk hk' => ?_
      obtain ⟨b', hb', hk'⟩ := mem_form_keys.1 hk'
      exact form_keys_disjoint b b' (by rintro rfl; exact hn.1 hb') k hk hk'
    case response =>
      refine ExtCodec.cons_once hb.response hl.response fun k hk hk' => ?_
      obtain ⟨b', hb', hk'⟩ := mem_response_keys.1 hk'
      exact response_keys_disjoint b b' (by rintro rfl; exact hn.1 hb') k hk hk'
    case thing => exact ExtCodec.cons_once hb.thing hl.thing (none h1)
    case interaction => exact ExtCodec.cons_once hb.interaction hl.interaction (none h2)
    case property => exact ExtCodec.cons_once hb.property hl.property (none h3)
    case action => exact ExtCodec.cons_once hb.action hl.action (none h4)
    case event => exact ExtCodec.cons_once hb.event hl.event (none h5)
    case dataSchema => exact ExtCodec.cons_once hb.dataSchema hl.dataSchema (none h6)
    case objectSchema => exact ExtCodec.cons_once hb.objectSchema hl.objectSchema (none h7)
    case arraySchema => exact ExtCodec.cons_once hb.arraySchema hl.arraySchema (none h8)

/-- The other extensions of a stack are made of units. -/
theorem stack_unit_reads (l : List Binding) :
    (∀ a, (stack l).thing.Reads a) ∧ (∀ a, (stack l).interaction.Reads a) ∧
    (∀ a, (stack l).property.Reads a) ∧ (∀ a, (stack l).action.Reads a) ∧
    (∀ a, (stack l).event.Reads a) ∧ (∀ a, (stack l).dataSchema.Reads a) ∧
    (∀ a, (stack l).objectSchema.Reads a) ∧ (∀ a, (stack l).arraySchema.Reads a) := by
  have n : ∀ a : Unit, ExtCodec.nil.Reads a := fun _ => ExtCodec.nil_reads
  induction l with
  | nil => exact ⟨n, n, n, n, n, n, n, n⟩
  | cons b l ih =>
    obtain ⟨h1, h2, h3, h4, h5, h6, h7, h8⟩ := ih
    cases b <;>
    exact ⟨fun ⟨a, c⟩ => ExtCodec.cons_reads (n a) (h1 c) nofun,
      fun ⟨a, c⟩ => ExtCodec.cons_reads (n a) (h2 c) nofun,
      fun ⟨a, c⟩ => ExtCodec.cons_reads (n a) (h3 c) nofun,
      fun ⟨a, c⟩ => ExtCodec.cons_reads (n a) (h4 c) nofun,
      fun ⟨a, c⟩ => ExtCodec.cons_reads (n a) (h5 c) nofun,
      fun ⟨a, c⟩ => ExtCodec.cons_reads (n a) (h6 c) nofun,
      fun ⟨a, c⟩ => ExtCodec.cons_reads (n a) (h7 c) nofun,
      fun ⟨a, c⟩ => ExtCodec.cons_reads (n a) (h8 c) nofun⟩

/-- Everything can be written. -/
theorem stack_writes (l : List Binding) :
    (∀ a, ∃ m, (stack l).thing.ser a = some m) ∧ (∀ a, ∃ m, (stack l).interaction.ser a = some m) ∧
    (∀ a, ∃ m, (stack l).property.ser a = some m) ∧ (∀ a, ∃ m, (stack l).action.ser a = some m) ∧
    (∀ a, ∃ m, (stack l).event.ser a = some m) ∧ (∀ a, ∃ m, (stack l).form.ser a = some m) ∧
    (∀ a, ∃ m, (stack l).response.ser a = some m) ∧ (∀ a, ∃ m, (stack l).dataSchema.ser a = some m) ∧
    (∀ a, ∃ m, (stack l).objectSchema.ser a = some m) ∧
    (∀ a, ∃ m, (stack l).arraySchema.ser a = some m) := by
  have n : ∀ a : Unit, ∃ m, ExtCodec.nil.ser a = some m := fun _ => ⟨_, rfl⟩
  have c : ∀ {A B : Type} {h : ExtCodec A} {t : ExtCodec B}, (∀ a, ∃ m, h.ser a = some m) →
      (∀ a, ∃ m, t.ser a = some m) → ∀ a, ∃ m, (ExtCodec.cons h t).ser a = some m := by
    intro A B h t h1 h2 a
    obtain ⟨m1, e1⟩ := h1 a.head
    obtain ⟨m2, e2⟩ := h2 a.tail
    exact ⟨m1 ++ m2, by simp only [ExtCodec.cons, bind, pure, e1, e2, Option.bind_some]⟩
  induction l with
  | nil => exact ⟨n, n, n, n, n, n, n, n, n, n⟩
  | cons b l ih =>
    obtain ⟨h1, h2, h3, h4, h5, h6, h7, h8, h9, h10⟩ := ih
    cases b
    · exact ⟨c n h1, c n h2, c n h3, c n h4, c n h5, c (fun _ => ⟨_, rfl⟩) h6, c (fun _ => ⟨_, rfl⟩) h7,
        c n h8, c n h9, c n h10⟩
    · exact ⟨c n h1, c n h2, c n h3, c n h4, c n h5, c (fun _ => ⟨_, rfl⟩) h6, c (fun _ => ⟨_, rfl⟩) h7,
        c n h8, c n h9, c n h10⟩
    · exact ⟨c n h1, c n h2, c n h3, c n h4, c n h5, c (fun _ => ⟨_, rfl⟩) h6, c n h7,
        c n h8, c n h9, c n h10⟩

/-- A response that lacks HTTP headers cannot be read. -/
theorem stack_response_none : {l : List Binding} → l.Nodup → {r : (stackTypes l).response} →
    ¬ AllHeadersGiven l r → {m es : Members} → (stack l).response.ser r = some m →
    (∀ k ∈ (stack l).response.keys, Carries es m k) → (stack l).response.de es = none
  | [], _, _, h, _, _, _, _ => absurd trivial h
  | b :: l, hn, ⟨r, rs⟩, h, m, es, hm, hc => by
    have hn := List.nodup_cons.1 hn
    have hap : Apart b.codecs.response.keys (stack l).response.keys := fun k hk hk' => by
      obtain ⟨b', hb', hk'⟩ := mem_response_keys.1 hk'
      exact response_keys_disjoint b b' (by rintro rfl; exact hn.1 hb') k hk hk'
    simp only [stack, ExtCodecs.cons, ExtCodec.cons, bind, pure, Option.bind_eq_some_iff] at hm
    obtain ⟨ma, h1, mb, h2, e⟩ := hm
    cases e
    have hb := (tidy b).response _ _ h1
    have hl := (stack_tidy hn.2).response _ _ h2
    have hca : ∀ k ∈ b.codecs.response.keys, Carries es ma k := fun k hk =>
      (hc k (List.mem_append_left _ hk)).left (occ_none_of_keys hl.keys fun hk' => hap k hk hk')
    by_cases hh : HeadersGiven b r
    · have hr : ¬ AllHeadersGiven l rs := fun h' => h ⟨hh, h'⟩
      have ih : (stack l).response.de
          (if b.codecs.response.takes then rest b.codecs.response.keys es else es) = none :=
        stack_response_none hn.2 hr h2 fun k hk => by
          have hc := (hc k (List.mem_append_right _ hk)).right
            (occ_none_of_keys hb.keys fun hk' => hap k hk' hk)
          split
          · exact hc.rest fun hk' => hap k hk' hk
          · exact hc
      simp only [stack, ExtCodecs.cons, ExtCodec.cons, bind, pure, ih, Option.bind_none]
      cases b.codecs.response.de es <;> rfl
    · have : b.codecs.response.de es = none := by
        cases b
        · exact Http.response_none (Classical.not_not.1 hh) h1 hca
        · exact absurd trivial hh
        · exact absurd trivial hh
      simp only [stack, ExtCodecs.cons, ExtCodec.cons, bind, this, Option.bind_none]

end Binding
end Wot
