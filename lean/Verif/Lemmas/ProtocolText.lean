import Verif.Lemmas.ProtocolThing
import Verif.Lemmas.Numbers
import Verif.Lemmas.Reread
/-
The texts of Things with protocol bindings.
-/
namespace Wot

/-! ### Numbers -/

section
variable {fl : FloatText}

theorem nums_fin {n : Nat} (h : n ≤ 2^64) (m : Fin n) : (serFin m).NumbersKept fl :=
  nums_num (Nat.lt_of_lt_of_le m.2 h)

theorem num_fin {n : Nat} (h : n ≤ 2^64) {o : Option (Fin n)} : NumOpt fl (o.map serFin) :=
  num_map fun m _ => nums_fin h m

theorem ExtCodec.nil_nums (a : Nil) : ExtCodec.nil.NumbersKept fl a := fun es h => by cases h; nofun

theorem ExtCodec.cons_nums {A B : Type} {h : ExtCodec A} {t : ExtCodec B} (ha : ∀ a, h.NumbersKept fl a)
    (hb : ∀ b, t.NumbersKept fl b) (c : Cons A B) : (ExtCodec.cons h t).NumbersKept fl c := by
  intro m hm
  simp only [ExtCodec.cons, bind, pure, Option.bind_eq_some_iff] at hm
  obtain ⟨ma, h1, mb, h2, e⟩ := hm
  cases e
  exact Nums.append (ha _ _ h1) (hb _ _ h2)

theorem Http.form_nums (f : Http.Form) : Http.form.NumbersKept fl f := by
  intro m h
  cases h
  refine Nums.fields ?_
  fields
  exact num_map fun _ _ => nums_str _

theorem Http.response_nums (r : Http.Response) : Http.response.NumbersKept fl r := by
  intro m h
  cases h
  refine Nums.fields ?_
  fields
  refine ⟨?_, num_fin (Nat.le_refl _)⟩
  split
  · exact num_none
  · refine num_some (nums_arr fun j hj => ?_)
    obtain ⟨h, _, rfl⟩ := List.mem_map.1 hj
    refine nums_obj (Nums.fields ?_)
    fields
    exact ⟨num_str, num_str⟩

theorem Coap.blockWise_nums (b : Coap.BlockWise) : (Coap.serBlockWise b).NumbersKept fl := by
  have size : ∀ s, (Coap.serBlockSize s).NumbersKept fl := fun s =>
    nums_num (by cases s <;> simp [JNum.Kept, Coap.BlockSize.repr])
  refine nums_obj (Nums.fields ?_)
  fields
  exact ⟨num_map fun s _ => size s, num_map fun s _ => size s⟩

theorem Coap.form_nums (f : Coap.Form) : Coap.form.NumbersKept fl f := by
  intro m h
  cases h
  refine Nums.fields ?_
  fields
  exact ⟨num_map fun _ _ => nums_str _, num_map fun _ _ => blockWise_nums _, num_map fun _ _ => blockWise_nums _,
    num_fin (by decide), num_fin (by decide), num_fin (by decide)⟩

theorem Coap.response_nums (r : Coap.Response) : Coap.response.NumbersKept fl r := by
  intro m h
  cases h
  refine Nums.fields ?_
  fields
  exact num_fin (by decide)

theorem Mqtt.form_nums (f : Mqtt.Form) : Mqtt.form.NumbersKept fl f := by
  intro m h
  cases h
  refine Nums.fields ?_
  fields
  refine ⟨?_, num_map fun _ _ => nums_str _, num_map fun _ _ => nums_str _, num_str, ?_⟩
  · split
    · exact num_some (nums_boolean _)
    · exact num_none
  · split
    · exact num_none
    · exact num_some (nums_strings _)

namespace Binding

theorem nums (b : Binding) : b.codecs.NumbersKept fl := by
  cases b
  · exact ⟨ExtCodec.nil_nums, ExtCodec.nil_nums, ExtCodec.nil_nums, Http.form_nums, Http.response_nums,
      ExtCodec.nil_nums, ExtCodec.nil_nums, ExtCodec.nil_nums, ExtCodec.nil_nums, ExtCodec.nil_nums⟩
  · exact ⟨ExtCodec.nil_nums, ExtCodec.nil_nums, ExtCodec.nil_nums, Coap.form_nums, Coap.response_nums,
      ExtCodec.nil_nums, ExtCodec.nil_nums, ExtCodec.nil_nums, ExtCodec.nil_nums, ExtCodec.nil_nums⟩
  · exact ⟨ExtCodec.nil_nums, ExtCodec.nil_nums, ExtCodec.nil_nums, Mqtt.form_nums, ExtCodec.nil_nums,
      ExtCodec.nil_nums, ExtCodec.nil_nums, ExtCodec.nil_nums, ExtCodec.nil_nums, ExtCodec.nil_nums⟩

/-- Bindings write integers of 64 bits only. -/
theorem stack_nums (l : List Binding) : (stack l).NumbersKept fl := by
  induction l with
  | nil =>
    exact ⟨ExtCodec.nil_nums, ExtCodec.nil_nums, ExtCodec.nil_nums, ExtCodec.nil_nums, ExtCodec.nil_nums,
      ExtCodec.nil_nums, ExtCodec.nil_nums, ExtCodec.nil_nums, ExtCodec.nil_nums, ExtCodec.nil_nums⟩
  | cons b l ih =>
    have hb := nums (fl := fl) b
    exact ⟨ExtCodec.cons_nums hb.1 ih.1, ExtCodec.cons_nums hb.2 ih.2, ExtCodec.cons_nums hb.3 ih.3,
      ExtCodec.cons_nums hb.4 ih.4, ExtCodec.cons_nums hb.5 ih.5, ExtCodec.cons_nums hb.6 ih.6,
      ExtCodec.cons_nums hb.7 ih.7, ExtCodec.cons_nums hb.8 ih.8, ExtCodec.cons_nums hb.9 ih.9,
      ExtCodec.cons_nums hb.10 ih.10⟩

end Binding
end

/-! ### Nesting -/

theorem ExtCodec.Flat.mono {A : Type} {C : ExtCodec A} {n m : Nat} {a : A} (h : C.Flat n a) (hm : n ≤ m) : C.Flat m a :=
  fun es he kv hkv => Nat.le_trans (h es he kv hkv) hm

theorem ExtCodec.nil_flat (n : Nat) (a : Nil) : ExtCodec.nil.Flat n a := fun es h => by cases h; nofun

theorem ExtCodec.cons_flat {A B : Type} {n : Nat} {h : ExtCodec A} {t : ExtCodec B} (ha : ∀ a, h.Flat n a)
    (hb : ∀ b, t.Flat n b) (c : Cons A B) : (ExtCodec.cons h t).Flat n c := by
  intro m hm
  simp only [ExtCodec.cons, bind, pure, Option.bind_eq_some_iff] at hm
  obtain ⟨ma, h1, mb, h2, e⟩ := hm
  cases e
  exact Low.append (ha _ _ h1) (hb _ _ h2)

theorem Http.form_flat (f : Http.Form) : Http.form.Flat 0 f := by
  intro m h
  cases h
  refine Low.fields ?_
  fields
  exact low_map fun _ _ => Nat.zero_le _

theorem Http.response_flat (r : Http.Response) : Http.response.Flat 2 r := by
  intro m h
  cases h
  refine Low.fields ?_
  fields
  refine ⟨?_, low_map fun _ _ => Nat.zero_le _⟩
  split
  · exact low_none
  · refine low_some (nesting_arr_le.2 fun j hj => ?_)
    obtain ⟨h, _, rfl⟩ := List.mem_map.1 hj
    refine nesting_obj_le.2 (Low.fields ?_)
    fields
    exact ⟨low_str, low_str⟩

theorem Coap.form_flat (f : Coap.Form) : Coap.form.Flat 1 f := by
  have hb : ∀ b, (Coap.serBlockWise b).nesting ≤ 1 := fun b => by
    refine nesting_obj_le.2 (Low.fields ?_)
    fields
    exact ⟨low_map fun _ _ => Nat.zero_le _, low_map fun _ _ => Nat.zero_le _⟩
  intro m h
  cases h
  refine Low.fields ?_
  fields
  exact ⟨low_map fun _ _ => Nat.zero_le _, low_map fun _ _ => hb _, low_map fun _ _ => hb _,
    low_map fun _ _ => Nat.zero_le _, low_map fun _ _ => Nat.zero_le _, low_map fun _ _ => Nat.zero_le _⟩

theorem Coap.response_flat (r : Coap.Response) : Coap.response.Flat 0 r := by
  intro m h
  cases h
  refine Low.fields ?_
  fields
  exact low_map fun _ _ => Nat.zero_le _

theorem Mqtt.form_flat (f : Mqtt.Form) : Mqtt.form.Flat 1 f := by
  intro m h
  cases h
  refine Low.fields ?_
  fields
  refine ⟨?_, low_map fun _ _ => Nat.zero_le _, low_map fun _ _ => Nat.zero_le _, low_str, ?_⟩
  · split
    · exact low_some (Nat.zero_le _)
    · exact low_none
  · split
    · exact low_none
    · exact low_some (nesting_strings _)

namespace Binding

/-- What bindings write of a form nests once, what they write of a response twice. -/
theorem stack_flat (l : List Binding) : (∀ a, (stack l).form.Flat 1 a) ∧ (∀ a, (stack l).response.Flat 2 a) ∧
    (∀ a, (stack l).thing.Flat 0 a) ∧ (∀ a, (stack l).interaction.Flat 0 a) ∧ (∀ a, (stack l).property.Flat 0 a) ∧
    (∀ a, (stack l).action.Flat 0 a) ∧ (∀ a, (stack l).event.Flat 0 a) ∧ (∀ a, (stack l).dataSchema.Flat 0 a) ∧
    (∀ a, (stack l).objectSchema.Flat 0 a) ∧ (∀ a, (stack l).arraySchema.Flat 0 a) := by
  induction l with
  | nil => exact ⟨ExtCodec.nil_flat _, ExtCodec.nil_flat _, ExtCodec.nil_flat _, ExtCodec.nil_flat _,
      ExtCodec.nil_flat _, ExtCodec.nil_flat _, ExtCodec.nil_flat _, ExtCodec.nil_flat _, ExtCodec.nil_flat _,
      ExtCodec.nil_flat _⟩
  | cons b l ih =>
    obtain ⟨h1, h2, h3, h4, h5, h6, h7, h8, h9, h10⟩ := ih
    have hf : ∀ a, b.codecs.form.Flat 1 a := by
      cases b
      · exact fun a => (Http.form_flat a).mono (by decide)
      · exact Coap.form_flat
      · exact Mqtt.form_flat
    have hr : ∀ a, b.codecs.response.Flat 2 a := by
      cases b
      · exact Http.response_flat
      · exact fun a => (Coap.response_flat a).mono (by decide)
      · exact ExtCodec.nil_flat _
    have h0 : (∀ a, b.codecs.thing.Flat 0 a) ∧ (∀ a, b.codecs.interaction.Flat 0 a) ∧
        (∀ a, b.codecs.property.Flat 0 a) ∧ (∀ a, b.codecs.action.Flat 0 a) ∧ (∀ a, b.codecs.event.Flat 0 a) ∧
        (∀ a, b.codecs.dataSchema.Flat 0 a) ∧ (∀ a, b.codecs.objectSchema.Flat 0 a) ∧
        (∀ a, b.codecs.arraySchema.Flat 0 a) := by
      cases b <;> exact ⟨ExtCodec.nil_flat _, ExtCodec.nil_flat _, ExtCodec.nil_flat _, ExtCodec.nil_flat _,
        ExtCodec.nil_flat _, ExtCodec.nil_flat _, ExtCodec.nil_flat _, ExtCodec.nil_flat _⟩
    obtain ⟨b3, b4, b5, b6, b7, b8, b9, b10⟩ := h0
    exact ⟨ExtCodec.cons_flat hf h1, ExtCodec.cons_flat hr h2, ExtCodec.cons_flat b3 h3, ExtCodec.cons_flat b4 h4,
      ExtCodec.cons_flat b5 h5, ExtCodec.cons_flat b6 h6, ExtCodec.cons_flat b7 h7, ExtCodec.cons_flat b8 h8,
      ExtCodec.cons_flat b9 h9, ExtCodec.cons_flat b10 h10⟩

end Binding

/-! ### Responses without headers

For the proofs: a reader that accepts what is written of a response without headers. What is written of a Thing does not
depend on readers, so that this one shows that no member is written twice. -/

/-- The reader with a default for the headers. -/
def Http.lenient : ExtCodec Http.Response :=
  { Http.response with
    de := fun es => do
      let headers ← defaulted "htv:headers" [] (deVec deHeader) es
      let statusCodeValue ← optional "htv:statusCodeValue" (deFin (2^64)) es
      pure { headers, statusCodeValue } }

theorem Http.lenient_reads (r : Http.Response) : Http.lenient.Reads r where
  own := by
    intro m h
    cases h
    exact members_keys rfl
  read := by
    intro m es h hc
    cases h
    have h1 := carries_fields hc (by names) (k := "htv:headers") (by decide) (by simp [fieldOf]; rfl)
    have h2 := carries_fields hc (by names) (k := "htv:statusCodeValue") (by decide) (by simp [fieldOf]; rfl)
    have g1 : defaulted "htv:headers" [] (deVec deHeader) es = some r.headers := by
      obtain ⟨c, e⟩ := h1
      cases hs : r.headers with
      | nil => rw [hs] at c e; exact defaulted_absent c (by simpa using e)
      | cons a l => rw [hs] at c e; exact defaulted_rt c (by simpa using e) (vec_rt (pointwise_map_self fun a _ => header_rt a))
    have g2 := optional_field h2.1 h2.2 fin_field
    simp only [Http.lenient, bind, Option.bind_some, pure, g1, g2]

namespace Binding

/-- Responses with this reader. -/
def lenient : (b : Binding) → ExtCodec b.types.response
  | .http => Http.lenient
  | .coap => Coap.response
  | .mqtt => .nil

/-- The same for all bindings in a list. -/
def lenientStack : (l : List Binding) → ExtCodec (stackTypes l).response
  | [] => .nil
  | b :: l => .cons b.lenient (lenientStack l)

theorem lenient_same (b : Binding) : b.lenient.keys = b.codecs.response.keys ∧
    b.lenient.ser = b.codecs.response.ser := by cases b <;> exact ⟨rfl, rfl⟩

theorem lenientStack_same : (l : List Binding) → (lenientStack l).keys = (stack l).response.keys ∧
    (lenientStack l).ser = (stack l).response.ser
  | [] => ⟨rfl, rfl⟩
  | b :: l => by
    obtain ⟨h1, h2⟩ := lenient_same b
    obtain ⟨h3, h4⟩ := lenientStack_same l
    simp [lenientStack, stack, ExtCodecs.cons, ExtCodec.cons, h1, h2, h3, h4]

theorem lenient_reads (b : Binding) (r : b.types.response) : b.lenient.Reads r := by
  cases b
  · exact Http.lenient_reads r
  · exact Coap.response_reads r
  · exact ExtCodec.nil_reads

theorem lenientStack_reads : {l : List Binding} → l.Nodup → (r : (stackTypes l).response) → (lenientStack l).Reads r
  | [], _, () => ExtCodec.nil_reads
  | b :: l, hn, ⟨f, fs⟩ => by
    have hn := List.nodup_cons.1 hn
    refine ExtCodec.cons_reads (lenient_reads b f) (lenientStack_reads hn.2 fs) fun k hk hk' => ?_
    rw [(lenient_same b).1] at hk
    rw [(lenientStack_same l).1] at hk'
    obtain ⟨b', hb', hk'⟩ := mem_response_keys.1 hk'
    refine response_keys_disjoint b b' ?_ k hk hk'
    rintro rfl
    exact hn.1 hb'

/-- The codecs of the bindings, but for this reader. -/
def relaxed (l : List Binding) : ExtCodecs (stackTypes l) :=
  { stack l with response := { (stack l).response with de := (lenientStack l).de } }

theorem relaxed_response {l : List Binding} (hn : l.Nodup) (r : (stackTypes l).response) :
    (relaxed l).response.Reads r := by
  obtain ⟨h1, h2⟩ := lenientStack_same l
  have h := lenientStack_reads hn r
  exact ⟨fun m hm kv hkv => h1 ▸ h.own m (h2 ▸ hm) kv hkv, fun m es hm hc => h.read m es (h2 ▸ hm) (h1 ▸ hc)⟩

variable {l : List Binding} {env : SerdeEnv} {t : Thing (stackTypes l)}

/-- A Thing with any bindings is kept but for the readers of responses. -/
theorem relaxed_kept (hn : l.Nodup) (hs : env.Stable) (hf : ThingFrom (stack l) env Json.NoDup t) :
    Kept env (relaxed l) t := by
  obtain ⟨r1, r2, r3, r4, r5, r6, r7, r8⟩ := stack_unit_reads l
  obtain ⟨h1, h2, h3, h4, h5, hfo, hre, h6, h7, h8⟩ := stack_writes l
  exact hf.kept hs (C' := relaxed l)
    { schemas := fun _ _ _ _ _ => ⟨⟨h6 _, r6 _⟩, fun _ _ => ⟨h8 _, r8 _⟩, fun _ _ => ⟨h7 _, r7 _⟩⟩
      forms := fun _ _ _ => ⟨⟨hfo _, stack_form_reads hn _⟩, fun _ _ => ⟨hre _, relaxed_response hn _⟩⟩
      interactions := fun _ _ => ⟨h2 _, r2 _⟩
      properties := fun _ _ _ _ => ⟨h3 _, r3 _⟩
      actions := fun _ _ _ _ => ⟨h4 _, r4 _⟩
      events := fun _ _ _ _ => ⟨h5 _, r5 _⟩
      other := ⟨h1 _, r1 _⟩ }

/-- The same for Things from builders. -/
theorem relaxed_values (hn : l.Nodup) (hp : PlainValues env t) : ValuesKept env (relaxed l) t := by
  obtain ⟨h1, h2, h3, h4, h5, h6, h7, h8⟩ := stack_unit_reads l
  exact
    { created := fun d s h hs => by
        obtain ⟨s', e, e'⟩ := hp.created d h
        rw [e] at hs; cases hs; exact e'
      modified := fun d s h hs => by
        obtain ⟨s', e, e'⟩ := hp.modified d h
        rw [e] at hs; cases hs; exact e'
      schemas := fun p s x hs hx =>
        let ⟨a, b, c⟩ := hp.schemas p s x hs hx
        { constant := a, default := b, enumeration := c, other := h6 _, otherArray := fun _ _ => h8 _
          otherObject := fun _ _ => h7 _ }
      security := hp.security
      forms := fun _ _ _ => ⟨stack_form_reads hn _, fun _ _ => relaxed_response hn _⟩
      interactions := fun _ _ => h2 _
      properties := fun _ _ _ _ => h3 _
      actions := fun _ _ _ _ => h4 _
      events := fun _ _ _ _ => h5 _
      other := h1 _ }

/-- In the document of a Thing with bindings, no member is written twice, if no property repeats itself. -/
theorem noDup_bindings (hn : l.Nodup) (hk : Kept env (relaxed l) t)
    (hi : ∀ m, t.properties = some m → ∀ kv ∈ m, ¬ kv.2.RepeatsInfo) {j : Json}
    (hj : serThing (stack l) env t = some j) : j.NoDup := by
  have sep := stack_separate l
  have once := (stack_tidy hn).writeOnce
  exact noDup_thing (C := relaxed l) ⟨sep.1, sep.2, sep.3, sep.4, sep.5, sep.6, sep.7, sep.8, sep.9, sep.10, sep.11,
    sep.12, sep.13, sep.14⟩ ⟨once.1, once.2, once.3, once.4, once.5, once.6, once.7, once.8, once.9, once.10⟩ hk hi hj

end Binding
end Wot
