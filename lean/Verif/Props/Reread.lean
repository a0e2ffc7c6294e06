import Verif.Spec.Written
import Verif.Lemmas.Reread
import Verif.Lemmas.StoredTwice
import Verif.Lemmas.ProtocolThing
import Verif.Lemmas.ProtocolText
import Verif.Props.RoundTrip
import Verif.Props.Documents
import Verif.Props.DemoBinding
/-
C50: Things that have been read can be written and read again.
-/
namespace Wot

variable {X : ExtTypes} {C : ExtCodecs X} {env : SerdeEnv} {t : Thing X} {d : Json}

/-- A Thing that has been read from a document without repeated members can be written, and is read from what
is written as what is left of a stored Thing. -/
theorem C50_reread (sep : C.Separate) (hs : env.Stable) (hd : d.NoDup) (h : fromText C env d = some t)
    (he : ExtensionsKept C t) :
    ∃ v, toValue C env t = some v ∧ fromValue C env v = some t.stored := by
  have hf := thing_from hs .noDup hd h
  obtain ⟨v, hv⟩ := C48_writable.1.2 (hf.writable hs he)
  exact ⟨v, hv, C28_what_comes_back sep (hf.kept hs he) hv⟩

/-- That is the Thing itself just when no form has an explicitly empty list of operations. -/
theorem C50_same (hs : env.Stable) (hd : d.NumbersInRange) (h : fromText C env d = some t) :
    t.stored = t ↔ t.NoEmptyOps :=
  thing_eq_self.trans ((thing_from hs .numbers hd h).lossless)

/-- If every extension can write what it reads and read what it writes, nothing else is needed. -/
theorem C50_extensions (hs : env.Stable) (hl : C.Lawful) (h : fromText C env d = some t) :
    ExtensionsKept C t :=
  (thing_from (P := fun _ => True) hs ⟨fun _ _ => trivial, fun _ _ => trivial, fun _ _ => trivial⟩ trivial
    h).extensions ⟨fun _ _ => trivial, fun _ _ => trivial, fun _ _ => trivial⟩ hl

/-- What is read the second time does not change any more, however often it is written and read. -/
theorem C50_settles (sep : C.Separate) (hs : env.Stable) (hd : d.NoDup) (h : fromText C env d = some t)
    (he : ExtensionsKept C t) :
    ∃ v t' v', toValue C env t = some v ∧ fromValue C env v = some t' ∧ toValue C env t' = some v' ∧
      fromValue C env v' = some t' := by
  obtain ⟨v, hv, hr⟩ := C50_reread sep hs hd h he
  have hn : v.NoDup := by
    obtain ⟨j, _, rfl⟩ := Option.map_eq_some_iff.1 hv
    exact norm_noDup j
  obtain ⟨v', hv', hr'⟩ := C50_reread sep hs hn hr he.stored
  rw [thing_stored_again] at hr'
  exact ⟨v, _, v', hv, hr, hv', hr'⟩

/-- Its text, however, can be read just when no property of it has human readable information. -/
theorem C50_text (sep : C.Separate) (once : C.WriteOnce) (hs : env.Stable) (hd : d.NoDup)
    (h : fromText C env d = some t) (he : ExtensionsKept C t) :
    ∃ j, toText C env t = some j ∧
      ((∀ m, t.properties = some m → ∀ kv ∈ m, kv.2.NoInfo) → fromText C env j = some t.stored) ∧
      (¬ (∀ m, t.properties = some m → ∀ kv ∈ m, kv.2.NoInfo) → fromText C env j = none) := by
  have hf := thing_from hs .noDup hd h
  obtain ⟨j, hj⟩ := C48_writable.2.2 (hf.writable hs he)
  have hk := hf.kept hs he
  have hi : ∀ m, t.properties = some m → ∀ kv ∈ m, (kv.2.NoInfo ↔ ¬ kv.2.RepeatsInfo) := by
    intro m hm kv hkv
    obtain ⟨es, _, hr⟩ := (hf.properties m hm).2 kv hkv
    obtain ⟨h1, h2, h3, h4, h5⟩ := property_agrees hr
    simp only [PropertyAffordance.NoInfo, PropertyAffordance.RepeatsInfo, h1, h2, h3, h4, h5, and_self,
      not_or, Option.not_isSome_iff_eq_none]
  refine ⟨j, hj, fun hn => C29_text_round_trip_partial sep once hk
    (fun m hm kv hkv => (hi m hm kv hkv).1 (hn m hm kv hkv)) hj, fun hn => ?_⟩
  simp only [Classical.not_forall] at hn
  obtain ⟨m, hm, kv, hkv, hn⟩ := hn
  exact C29_text_fails hm (n := kv.1) hkv (Classical.not_not.1 fun hr => hn ((hi m hm kv hkv).2 hr)) hj

/-- With any set of protocol bindings: the Thing can be written, and is read again if every HTTP response in it
names headers; otherwise nothing can be read. From its text it is read again if, besides, no property has human readable
information, and otherwise nothing. -/
theorem C50_bindings {l : List Binding} (hl : l.Nodup) {t : Thing (Binding.stackTypes l)} (hs : env.Stable)
    (hd : d.NoDup) (h : fromText (Binding.stack l) env d = some t) :
    ∃ v j, toValue (Binding.stack l) env t = some v ∧ toText (Binding.stack l) env t = some j ∧
      (Binding.ThingHeadersGiven l t → fromValue (Binding.stack l) env v = some t.stored) ∧
      (¬ Binding.ThingHeadersGiven l t → fromValue (Binding.stack l) env v = none) ∧
      (Binding.ThingHeadersGiven l t ∧ (∀ m, t.properties = some m → ∀ kv ∈ m, kv.2.NoInfo) →
        fromText (Binding.stack l) env j = some t.stored) ∧
      (¬ (Binding.ThingHeadersGiven l t ∧ ∀ m, t.properties = some m → ∀ kv ∈ m, kv.2.NoInfo) →
        fromText (Binding.stack l) env j = none) := by
  have hf := thing_from hs .noDup hd h
  have hp := hf.plain hs
  have hw := Binding.writable hp
  obtain ⟨j, hj⟩ := can_thing.2 hw
  have he : Binding.ThingHeadersGiven l t → ExtensionsKept (Binding.stack l) t := fun hg =>
    have hv := Binding.valuesKept hl hp hg
    { schemas := fun p s x hps hx =>
        have a := hv.schemas p s x hps hx
        have b := hw.schemas p s x hps hx
        ⟨⟨b.1, a.other⟩, fun y hy => ⟨b.2.1 y hy, a.otherArray y hy⟩,
          fun y hy => ⟨b.2.2 y hy, a.otherObject y hy⟩⟩
      forms := fun ctx f hf =>
        ⟨⟨(hw.forms ctx f hf).1, (hv.forms ctx f hf).1⟩,
          fun r hr => ⟨(hw.forms ctx f hf).2 r hr, (hv.forms ctx f hf).2 r hr⟩⟩
      interactions := fun i hi => ⟨hw.interactions i hi, hv.interactions i hi⟩
      properties := fun m hm kv hkv => ⟨hw.properties m hm kv hkv, hv.properties m hm kv hkv⟩
      actions := fun m hm kv hkv => ⟨hw.actions m hm kv hkv, hv.actions m hm kv hkv⟩
      events := fun m hm kv hkv => ⟨hw.events m hm kv hkv, hv.events m hm kv hkv⟩
      other := ⟨hw.other, hv.other⟩ }
  have bad : ¬ Binding.ThingHeadersGiven l t → ∀ d, Represents d j → fromText (Binding.stack l) env d = none := by
    intro hg
    simp only [Binding.ThingHeadersGiven, Classical.not_forall] at hg
    obtain ⟨ctx, f, r, hfo, hfr, hg⟩ := hg
    exact thing_bad (Binding.stack_separate l) (Binding.stack_tidy hl)
      ⟨fun m hm => (hf.properties m hm).1, fun m hm => (hf.actions m hm).1, fun m hm => (hf.events m hm).1⟩
      hfo (fun j hj => form_bad (Binding.stack_separate l) (Binding.stack_tidy hl) hfr
        (fun m es hm hc => Binding.stack_response_none hl hg hm hc) hj) hj
  have hi : ∀ m, t.properties = some m → ∀ kv ∈ m, (kv.2.NoInfo ↔ ¬ kv.2.RepeatsInfo) := by
    intro m hm kv hkv
    obtain ⟨es, _, hr⟩ := (hf.properties m hm).2 kv hkv
    obtain ⟨h1, h2, h3, h4, h5⟩ := property_agrees hr
    simp only [PropertyAffordance.NoInfo, PropertyAffordance.RepeatsInfo, h1, h2, h3, h4, h5, and_self,
      not_or, Option.not_isSome_iff_eq_none]
  have dup : (∀ m, t.properties = some m → ∀ kv ∈ m, kv.2.NoInfo) → j.NoDup := fun hn =>
    Binding.noDup_bindings hl (Binding.relaxed_kept hl hs hf) (fun m hm kv hkv => (hi m hm kv hkv).1 (hn m hm kv hkv)) hj
  refine ⟨j.norm, j, by rw [toValue, hj]; rfl, hj, fun hg => ?_, fun hg => bad hg _ (.of_norm j), fun hg => ?_, fun hg => ?_⟩
  · exact thing_stored (Binding.stack_separate l) (hf.kept hs (he hg)) hj _ (.of_norm j)
  · exact thing_stored (Binding.stack_separate l) (hf.kept hs (he hg.1)) hj _ (.refl (dup hg.2))
  · by_cases hn : ∀ m, t.properties = some m → ∀ kv ∈ m, kv.2.NoInfo
    · exact bad (fun h => hg ⟨h, hn⟩) _ (.refl (dup hn))
    · simp only [Classical.not_forall] at hn
      obtain ⟨m, hm, kv, hkv, hn⟩ := hn
      exact C29_text_fails hm (n := kv.1) hkv (Classical.not_not.1 fun hr => hn ((hi m hm kv hkv).2 hr)) hj

/-! ### Examples -/

/-- The environment of the examples obeys the laws. -/
theorem Demo.stable : Demo.senv.Stable where
  tags := fun _ _ _ => rfl
  times := nofun

/-- So does the environment with a date. -/
theorem Demo.stable_times : Demo.tenv.Stable where
  tags := fun _ _ _ => rfl
  times := fun s d h => by
    simp only [Demo.tenv] at h
    split at h
    · cases h; exact ⟨"2024-01-01T00:00:00Z", rfl, rfl⟩
    · cases h

theorem Demo.nil_lawful : ExtCodecs.nil.Lawful := by
  constructor <;> (intro es a h; exact ⟨⟨_, rfl⟩, ExtCodec.nil_reads⟩)

theorem Demo.full_noDup : (Json.obj Demo.fullDocument).NoDup := by
  simp [Demo.fullDocument, Json.NoDup, Json.NoDupList, Json.NoDupMembers]

/-- The example document is read, written and read again as the same Thing. -/
example : ∃ t v, fromText .nil Demo.senv (.obj Demo.fullDocument) = some t ∧
    toValue .nil Demo.senv t = some v ∧ fromValue .nil Demo.senv v = some t.stored := by
  obtain ⟨t, ht⟩ : ∃ t, fromText .nil Demo.senv (.obj Demo.fullDocument) = some t := ⟨_, rfl⟩
  obtain ⟨v, hv, hr⟩ := C50_reread Demo.nil_separate Demo.stable Demo.full_noDup ht
    (C50_extensions Demo.stable Demo.nil_lawful ht)
  exact ⟨t, v, ht, hv, hr⟩

/-- A date is kept, though not its spelling. -/
def Demo.datedDocument : Members :=
  Demo.document (.str "none") ++ [("created", .str "2024-01-01t00:00:00.0z")]

theorem Demo.dated_noDup : (Json.obj Demo.datedDocument).NoDup := by
  simp [Demo.datedDocument, Demo.document, Json.NoDup, Json.NoDupMembers]

example : ∃ t v, fromText .nil Demo.tenv (.obj Demo.datedDocument) = some t ∧
    t.created = some ⟨1704067200000000000, 0⟩ ∧ toValue .nil Demo.tenv t = some v ∧
    v.member "created" = some (.str "2024-01-01T00:00:00Z") ∧ fromValue .nil Demo.tenv v = some t := by
  obtain ⟨t, ht, hc, hw⟩ : ∃ t, fromText .nil Demo.tenv (.obj Demo.datedDocument) = some t ∧
      t.created = some ⟨1704067200000000000, 0⟩ ∧ ∃ v, toValue .nil Demo.tenv t = some v ∧
        v.member "created" = some (.str "2024-01-01T00:00:00Z") ∧ t.stored = t := ⟨_, rfl, rfl, _, rfl, rfl, rfl⟩
  obtain ⟨w, hw, hm, hs⟩ := hw
  obtain ⟨v, hv, hr⟩ := C50_reread Demo.nil_separate Demo.stable_times Demo.dated_noDup ht
    (C50_extensions Demo.stable_times Demo.nil_lawful ht)
  rw [hw] at hv; cases hv
  exact ⟨t, w, ht, hc, hw, hm, by rw [hr, hs]⟩

/-- A document with a form that lists no operation. -/
def Demo.idleDocument : Members :=
  Demo.document (.str "none") ++ [("forms", .arr [.obj [("href", .str "/"), ("op", .arr [])]])]

/-- Things that have been read are not always read again as they were: if a form lists no operation, it has the
default operations afterwards. -/
theorem C50_false : ¬ ∀ (d : Json) (t : Thing .nil), d.NoDup → d.NumbersInRange →
    fromText .nil Demo.senv d = some t →
    ∃ v, toValue .nil Demo.senv t = some v ∧ fromValue .nil Demo.senv v = some t := by
  intro H
  obtain ⟨t, ht⟩ : ∃ t, fromText .nil Demo.senv (.obj Demo.idleDocument) = some t := ⟨_, rfl⟩
  have hd : (Json.obj Demo.idleDocument).NoDup := by
    simp [Demo.idleDocument, Demo.document, Json.NoDup, Json.NoDupList, Json.NoDupMembers]
  have hn : (Json.obj Demo.idleDocument).NumbersInRange := by
    intro n hn
    cases hn with
    | member h hn =>
      simp only [Demo.idleDocument, Demo.document, List.cons_append, List.nil_append, List.mem_cons,
        Prod.mk.injEq, List.not_mem_nil, or_false] at h
      rcases h with ⟨-, rfl⟩ | ⟨-, rfl⟩ | ⟨-, rfl⟩ | ⟨-, rfl⟩
      · cases hn
      · cases hn
      · cases hn with
        | member h hn =>
          cases List.mem_singleton.1 h
          cases hn with
          | member h hn => cases List.mem_singleton.1 h; cases hn
      · cases hn with
        | element h hn =>
          cases List.mem_singleton.1 h
          cases hn with
          | member h hn =>
            simp only [List.mem_cons, Prod.mk.injEq, List.not_mem_nil, or_false] at h
            rcases h with ⟨-, rfl⟩ | ⟨-, rfl⟩
            · cases hn
            · cases hn with
              | element h hn => cases h
  obtain ⟨v, hv, hr⟩ := H _ t hd hn ht
  obtain ⟨v', hv', hr'⟩ := C50_reread Demo.nil_separate Demo.stable hd ht
    (C50_extensions Demo.stable Demo.nil_lawful ht)
  rw [hv'] at hv
  cases hv
  rw [hr'] at hr
  have := (C50_same Demo.stable hn ht).1 (Option.some.inj hr)
  cases ht
  exact this .thing _ (.thing rfl (List.mem_singleton.2 rfl)) rfl

/-- A document with a repeated member in a security definition. -/
def Demo.doubleDocument : Members :=
  [("title", .str "Lamp"), ("security", .str "a"),
   ("securityDefinitions", .obj [("a", .obj [("scheme", .str "basic"), ("name", .str "x"),
     ("name", .str "y")])])]

/-- Without the condition on repeated members, something else may be read the second time: here a custom scheme
becomes a predefined one. -/
theorem C50_repeated : ∃ t v t', fromText .nil Demo.senv (.obj Demo.doubleDocument) = some t ∧
    t.securityDefinitions.map (fun kv => (kv.1, kv.2.subtype)) =
      [("a", .unknown "basic" (.obj [("name", .str "y")]))] ∧
    toValue .nil Demo.senv t = some v ∧ fromValue .nil Demo.senv v = some t' ∧
    t'.securityDefinitions.map (fun kv => (kv.1, kv.2.subtype)) =
      [("a", .known (.basic { location := .header, name := some "y" }))] :=
  ⟨_, _, _, rfl, rfl, rfl, rfl, rfl⟩

/-- A document with a property that has a title. -/
def Demo.titledDocument : Members :=
  Demo.document (.str "none") ++ [("properties", .obj [("on", .obj [("title", .str "On"),
    ("forms", .arr [.obj [("href", .str "/on")]]), ("type", .str "boolean")])])]

/-- The text of its Thing cannot be read, the value can. -/
example : ∃ t j v, fromText .nil Demo.senv (.obj Demo.titledDocument) = some t ∧
    toText .nil Demo.senv t = some j ∧ fromText .nil Demo.senv j = none ∧
    toValue .nil Demo.senv t = some v ∧ fromValue .nil Demo.senv v = some t :=
  ⟨_, _, _, rfl, rfl, rfl, rfl, rfl⟩

/-- The text of the Thing with the idle form can be read, and what is read is written and read as it is. -/
example : ∃ t j t', fromText .nil Demo.senv (.obj Demo.idleDocument) = some t ∧
    toText .nil Demo.senv t = some j ∧ fromText .nil Demo.senv j = some t' ∧
    t'.stored = t' ∧ t.stored = t' ∧ t ≠ t' := by
  refine ⟨_, _, _, rfl, rfl, rfl, rfl, rfl, fun h => ?_⟩
  have := congrArg (fun t : Thing .nil => t.forms.map fun l => l.map Form.op) h
  exact absurd this (by decide)

/-- A document with a form whose HTTP response names the given headers. -/
def Demo.webDocument (headers : List Json) : Members :=
  Demo.document (.str "none") ++ [("forms", .arr [.obj [("href", .str "/"), ("op", .str "readallproperties"),
    ("htv:methodName", .str "GET"),
    ("response", .obj [("contentType", .str "text/plain"), ("htv:headers", .arr headers)])]])]

/-- With headers it can be read, written and read again; with an empty list of headers it can be read and
written, but what is written cannot be read. -/
example : (∃ t v, fromText (Binding.stack Demo.web) Demo.senv (.obj (Demo.webDocument
      [.obj [("htv:fieldName", .str "Age")]])) = some t ∧
    toValue (Binding.stack Demo.web) Demo.senv t = some v ∧
    fromValue (Binding.stack Demo.web) Demo.senv v = some t) ∧
    ∃ t v, fromText (Binding.stack Demo.web) Demo.senv (.obj (Demo.webDocument [])) = some t ∧
      toValue (Binding.stack Demo.web) Demo.senv t = some v ∧
      fromValue (Binding.stack Demo.web) Demo.senv v = none :=
  ⟨⟨_, _, rfl, rfl, rfl⟩, _, _, rfl, rfl, rfl⟩

end Wot
