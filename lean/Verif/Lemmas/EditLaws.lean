import Verif.Lemmas.EditNorm
import Verif.Lemmas.Protocol
/-
The extensions of the crate: what they are read as depends neither on the order of members nor on members that are
not theirs.
-/
namespace Wot

variable {es es' : Members} {A B : Type}

/-- A codec whose fields are looked up by name. -/
structure ExtCodec.ByName (c : ExtCodec A) : Prop where
  loc : c.Local
  ord : c.Orderless

/-- How the list of all members of one name can change in a reordering: not at all, or one of them is reordered. -/
theorem Reordered.fields (h : Reordered (.obj es) (.obj es')) :
    (∀ f, occ f es = occ f es') ∨ ∃ k v v', Reordered v v' ∧ Replaced k v v' es es' := by
  generalize h1 : Json.obj es = x at h
  generalize h2 : Json.obj es' = y at h
  cases h with
  | swap hk => cases h1; cases h2; exact .inl (occ_swap hk _ _ _ _)
  | member h => cases h1; cases h2; exact .inr ⟨_, _, _, h, _, _, rfl, rfl⟩
  | element _ => cases h1

theorem ExtCodec.nil_byName : ExtCodec.nil.ByName := ⟨fun _ _ _ => rfl, fun _ _ _ => rfl⟩

theorem Reordered.rest_cases (h : Reordered (.obj es) (.obj es')) (K : List String) :
    rest K es = rest K es' ∨ Reordered (.obj (rest K es)) (.obj (rest K es')) := by
  generalize h1 : Json.obj es = x at h
  generalize h2 : Json.obj es' = y at h
  cases h with
  | @swap a b k k' v v' hk =>
    cases h1; cases h2
    by_cases hk1 : k ∈ K <;> by_cases hk2 : k' ∈ K <;> simp [rest, hk1, hk2]
    exact .inr (.swap hk)
  | @member a b k v v' h =>
    cases h1; cases h2
    by_cases hk1 : k ∈ K <;> simp [rest, hk1]
    exact .inr (.member h)
  | element _ => cases h1

theorem ExtCodec.ByName.cons {h : ExtCodec A} {t : ExtCodec B} (hh : h.ByName) (ht : t.ByName) :
    (ExtCodec.cons h t).ByName where
  loc es es' he := by
    have e1 := hh.loc es es' fun k hk => he k (List.mem_append.2 (.inl hk))
    have e2 := ht.loc es es' fun k hk => he k (List.mem_append.2 (.inr hk))
    have e3 := ht.loc (rest h.keys es) (rest h.keys es') fun k hk => by
      rw [occ_rest, occ_rest, he k (List.mem_append.2 (.inr hk))]
    simp only [ExtCodec.cons, e1]
    cases h.takes <;> simp [e2, e3]
  ord es es' he := by
    have e1 := hh.ord es es' he
    have e2 := ht.ord es es' he
    have e3 : t.de (rest h.keys es) = t.de (rest h.keys es') := by
      rcases he.rest_cases h.keys with e | e
      · rw [e]
      · exact ht.ord _ _ e
    simp only [ExtCodec.cons, e1]
    cases h.takes <;> simp [e2, e3]

theorem flat_fin (n : Nat) : Flat (deFin n) := ⟨fun _ => rfl, fun _ _ _ _ _ _ _ _ _ => rfl, fun _ _ _ _ => rfl⟩

theorem flat_blockSize : Flat Coap.deBlockSize :=
  ⟨fun _ => rfl, fun _ _ _ _ _ _ _ _ _ => rfl, fun _ _ _ _ => rfl⟩

/-- A struct with two optional plain fields. -/
theorem pair_congr {T U : Type} {de : Json → Option T} (hf : Flat de) {x y : String} {mk : Option T → Option T → U}
    {rd : Json → Option U} (h1 : ∀ es, rd (.obj es) = (optional x de es).bind fun a => (optional y de es).map (mk a))
    (h2 : ∀ a b, rd (.arr [a, b]) = (deOption de a).bind fun a => (deOption de b).map (mk a))
    (h3 : ∀ l, (∀ a b, l ≠ [a, b]) → rd (.arr l) = none) {v v' : Json} (h : Reordered v v') : rd v = rd v' := by
  cases h with
  | @swap a b k k' v v' hk =>
    rw [h1, h1]
    simp only [optional, defaulted, occ_swap hk]
  | @member a b k v v' h =>
    have hr : Replaced k v v' (a ++ (k, v) :: b) (a ++ (k, v') :: b) := ⟨a, b, rfl, rfl⟩
    rw [h1, h1, hr.opt h.solid fun _ => hf.congr h, hr.opt h.solid fun _ => hf.congr h]
  | @element a b v v' h =>
    have e := option_congr h.solid (hf.congr h)
    match a, b with
    | [], [] => rw [List.nil_append, List.nil_append, h3 _ (by simp), h3 _ (by simp)]
    | [], [z] => rw [List.nil_append, List.nil_append, h2, h2, e]
    | [], _ :: _ :: _ => rw [List.nil_append, List.nil_append, h3 _ (by simp), h3 _ (by simp)]
    | [z], [] => simp only [List.singleton_append]; rw [h2, h2, e]
    | [z], _ :: _ => simp only [List.singleton_append]; rw [h3 _ (by simp), h3 _ (by simp)]
    | _ :: _ :: a, b => rw [h3 _ (by simp), h3 _ (by simp)]

namespace Http

theorem header_congr {v v' : Json} (h : Reordered v v') : deHeader v = deHeader v' := by
  refine pair_congr flat_str (x := "htv:fieldName") (y := "htv:fieldValue") (mk := fun a b => MessageHeader.mk a b)
    (fun es => ?_) (fun a b => ?_) (fun l hl => ?_) h
  · simp only [deHeader]
    cases optional "htv:fieldName" deStr es <;> cases optional "htv:fieldValue" deStr es <;> rfl
  · simp only [deHeader]
    cases deOption deStr a <;> cases deOption deStr b <;> rfl
  · match l with
    | [] => rfl
    | [_] => rfl
    | [a, b] => exact absurd rfl (hl a b)
    | _ :: _ :: _ :: _ => rfl

theorem form_byName : form.ByName where
  loc es es' h := by
    simp (disch := decide) only [form, optional, defaulted, h]
  ord es es' h := by
    rcases h.fields with e | ⟨k, v, v', h, hr⟩
    · simp only [form, optional, defaulted, e]
    · simp only [form, hr.opt h.solid fun _ => (flat_buffered _).congr h, deMethod]

theorem response_byName : response.ByName where
  loc es es' h := by
    simp (disch := decide) only [response, optional, defaulted, required, h]
  ord es es' h := by
    rcases h.fields with e | ⟨k, v, v', h, hr⟩
    · simp only [response, optional, defaulted, required, e]
    · simp only [response, hr.opt h.solid fun _ => (flat_fin _).congr h,
        hr.req fun _ => vec_congr header_congr h]

end Http

namespace Coap

theorem blockWise_congr {v v' : Json} (h : Reordered v v') : deBlockWise v = deBlockWise v' := by
  refine pair_congr flat_blockSize (x := "cov:block2Size") (y := "cov:block1Size") (mk := fun a b => BlockWise.mk a b)
    (fun es => ?_) (fun a b => ?_) (fun l hl => ?_) h
  · simp only [deBlockWise]
    cases optional "cov:block2Size" deBlockSize es <;> cases optional "cov:block1Size" deBlockSize es <;> rfl
  · simp only [deBlockWise]
    cases deOption deBlockSize a <;> cases deOption deBlockSize b <;> rfl
  · match l with
    | [] => rfl
    | [_] => rfl
    | [a, b] => exact absurd rfl (hl a b)
    | _ :: _ :: _ :: _ => rfl

theorem form_byName : form.ByName where
  loc es es' h := by
    simp (disch := decide) only [form, optional, defaulted, h]
  ord es es' h := by
    rcases h.fields with e | ⟨k, v, v', h, hr⟩
    · simp only [form, optional, defaulted, e]
    · simp only [form, hr.opt h.solid fun _ => (flat_buffered _).congr h, deMethod,
        hr.opt h.solid fun _ => blockWise_congr h, hr.opt h.solid fun _ => (flat_fin _).congr h]

theorem response_byName : response.ByName where
  loc es es' h := by
    simp (disch := decide) only [response, optional, defaulted, h]
  ord es es' h := by
    rcases h.fields with e | ⟨k, v, v', h, hr⟩
    · simp only [response, optional, defaulted, e]
    · simp only [response, hr.opt h.solid fun _ => (flat_fin _).congr h]

end Coap

namespace Mqtt

theorem strings_congr {v v' : Json} (h : Reordered v v') : deStrings v = deStrings v' := flat_str.many h

theorem form_byName : form.ByName where
  loc es es' h := by
    simp (disch := decide) only [form, optional, defaulted, h]
  ord es es' h := by
    rcases h.fields with e | ⟨k, v, v', h, hr⟩
    · simp only [form, optional, defaulted, e]
    · simp only [form, hr.opt h.solid fun _ => (flat_buffered _).congr h, dePacket, deQoS,
        hr.opt h.solid fun _ => flat_str.congr h, hr.dflt fun _ => flat_bool.congr h,
        hr.dflt fun _ => strings_congr h]

end Mqtt

/-- All codecs are by name. -/
theorem ExtCodecs.nil_local : ExtCodecs.nil.Local := by
  constructor <;> exact ExtCodec.nil_byName.loc

theorem ExtCodecs.nil_orderless : ExtCodecs.nil.Orderless := by
  constructor <;> exact ExtCodec.nil_byName.ord

namespace Binding

theorem byName (b : Binding) : b.codecs.Local ∧ b.codecs.Orderless := by
  cases b
  · exact ⟨⟨ExtCodec.nil_byName.loc, ExtCodec.nil_byName.loc, ExtCodec.nil_byName.loc, ExtCodec.nil_byName.loc,
      ExtCodec.nil_byName.loc, Http.form_byName.loc, Http.response_byName.loc, ExtCodec.nil_byName.loc,
      ExtCodec.nil_byName.loc, ExtCodec.nil_byName.loc⟩,
      ⟨ExtCodec.nil_byName.ord, ExtCodec.nil_byName.ord, ExtCodec.nil_byName.ord, ExtCodec.nil_byName.ord,
      ExtCodec.nil_byName.ord, Http.form_byName.ord, Http.response_byName.ord, ExtCodec.nil_byName.ord,
      ExtCodec.nil_byName.ord, ExtCodec.nil_byName.ord⟩⟩
  · exact ⟨⟨ExtCodec.nil_byName.loc, ExtCodec.nil_byName.loc, ExtCodec.nil_byName.loc, ExtCodec.nil_byName.loc,
      ExtCodec.nil_byName.loc, Coap.form_byName.loc, Coap.response_byName.loc, ExtCodec.nil_byName.loc,
      ExtCodec.nil_byName.loc, ExtCodec.nil_byName.loc⟩,
      ⟨ExtCodec.nil_byName.ord, ExtCodec.nil_byName.ord, ExtCodec.nil_byName.ord, ExtCodec.nil_byName.ord,
      ExtCodec.nil_byName.ord, Coap.form_byName.ord, Coap.response_byName.ord, ExtCodec.nil_byName.ord,
      ExtCodec.nil_byName.ord, ExtCodec.nil_byName.ord⟩⟩
  · exact ⟨⟨ExtCodec.nil_byName.loc, ExtCodec.nil_byName.loc, ExtCodec.nil_byName.loc, ExtCodec.nil_byName.loc,
      ExtCodec.nil_byName.loc, Mqtt.form_byName.loc, ExtCodec.nil_byName.loc, ExtCodec.nil_byName.loc,
      ExtCodec.nil_byName.loc, ExtCodec.nil_byName.loc⟩,
      ⟨ExtCodec.nil_byName.ord, ExtCodec.nil_byName.ord, ExtCodec.nil_byName.ord, ExtCodec.nil_byName.ord,
      ExtCodec.nil_byName.ord, Mqtt.form_byName.ord, ExtCodec.nil_byName.ord, ExtCodec.nil_byName.ord,
      ExtCodec.nil_byName.ord, ExtCodec.nil_byName.ord⟩⟩

theorem stack_byName : (l : List Binding) → (stack l).Local ∧ (stack l).Orderless
  | [] => ⟨ExtCodecs.nil_local, ExtCodecs.nil_orderless⟩
  | b :: l => by
    have h := b.byName
    have t := stack_byName l
    have c : ∀ {A B : Type} {x : ExtCodec A} {y : ExtCodec B}, x.Local → x.Orderless → y.Local → y.Orderless →
        (ExtCodec.cons x y).Local ∧ (ExtCodec.cons x y).Orderless := fun h1 h2 h3 h4 =>
      ⟨(ExtCodec.ByName.cons ⟨h1, h2⟩ ⟨h3, h4⟩).loc, (ExtCodec.ByName.cons ⟨h1, h2⟩ ⟨h3, h4⟩).ord⟩
    have c0 := c h.1.thing h.2.thing t.1.thing t.2.thing
    have c1 := c h.1.interaction h.2.interaction t.1.interaction t.2.interaction
    have c2 := c h.1.property h.2.property t.1.property t.2.property
    have c3 := c h.1.action h.2.action t.1.action t.2.action
    have c4 := c h.1.event h.2.event t.1.event t.2.event
    have c5 := c h.1.form h.2.form t.1.form t.2.form
    have c6 := c h.1.response h.2.response t.1.response t.2.response
    have c7 := c h.1.dataSchema h.2.dataSchema t.1.dataSchema t.2.dataSchema
    have c8 := c h.1.objectSchema h.2.objectSchema t.1.objectSchema t.2.objectSchema
    have c9 := c h.1.arraySchema h.2.arraySchema t.1.arraySchema t.2.arraySchema
    exact ⟨⟨c0.1, c1.1, c2.1, c3.1, c4.1, c5.1, c6.1, c7.1, c8.1, c9.1⟩,
      ⟨c0.2, c1.2, c2.2, c3.2, c4.2, c5.2, c6.2, c7.2, c8.2, c9.2⟩⟩

theorem lawful (l : List Binding) : Lawful (stack l) := ⟨(stack_byName l).1, (stack_byName l).2, stack_separate l⟩

end Binding
end Wot
