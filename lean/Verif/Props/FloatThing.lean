import Verif.Props.FloatExact
import Verif.Lemmas.FloatReread
/-
C72: what becomes of a Thing with any numbers when it is written and read, once or many times.
-/
namespace Wot

open FloatText F64

/-- C72: a finite float is read again from its text, and it has moved by no more than three steps and not across zero. One with a text
from which it is read, such as a short one, does not move, and none becomes infinite. -/
theorem C72_moves (x : F64) : (x.isFinite = true → serdeJson.read (serdeJson.write x) = some (serdeJson.again x) ∧
      (serdeJson.again x).Close x) ∧
    (x.isFinite = false → serdeJson.again x = x) ∧ (serdeJson.Keeps x → serdeJson.again x = x) ∧
    (serdeJson.again x).isFinite = x.isFinite := by
  refine ⟨fun hf => ⟨again_read hf, ?_⟩, fun hf => ?_, again_keeps, again_finite x⟩
  · obtain ⟨y, h, hc⟩ := C70_close hf
    cases (again_read hf).symm.trans h
    exact hc
  · rw [FloatText.again, if_neg (by rw [hf]; decide)]

/-- C72: the numbers that could be read exactly are the integers of 64 bits and the finite floats. -/
theorem C72_in_range {n : JNum} : n.Kept serdeJsonExact ↔ n.InRange := by
  cases n with
  | pos n => exact Iff.rfl
  | neg n => exact Iff.rfl
  | float f =>
    refine ⟨?_, C71_lawful.keeps f⟩
    rintro ⟨_, _, _, _, -, -, -, -, -, -, h⟩
    exact C71_lawful.finite _ _ h

theorem last_exact {j : Json} (h : j.NumbersInRange) : j.NumbersLast serdeJsonExact := by
  intro n hn
  have := h n hn
  cases n with
  | pos n => exact ⟨this, fun f hf => C71_lawful.keeps f hf.finite⟩
  | neg n => exact ⟨this, fun f hf => C71_lawful.keeps f hf.finite⟩
  | float f => exact C71_lawful.keeps f this

theorem kept_exact {j : Json} (h : j.NumbersKept serdeJson) : j.NumbersKept serdeJsonExact := by
  intro n hn
  have := h n hn
  cases n with
  | pos n => have this : n < 2^64 := this; exact C72_in_range.2 this
  | neg n => have this : n < 2^63 := this; exact C72_in_range.2 this
  | float f =>
    obtain ⟨_, _, _, _, -, -, -, -, -, -, h⟩ := this
    exact C71_lawful.keeps f (C70_finite h)

theorem codecs_exact {X : ExtTypes} {C : ExtCodecs X} (h : C.NumbersKept serdeJson) : C.NumbersKept serdeJsonExact :=
  ⟨fun a es he kv hkv => kept_exact (h.dataSchema a es he kv hkv), fun a es he kv hkv => kept_exact (h.arraySchema a es he kv hkv),
    fun a es he kv hkv => kept_exact (h.objectSchema a es he kv hkv), fun a es he kv hkv => kept_exact (h.form a es he kv hkv),
    fun a es he kv hkv => kept_exact (h.response a es he kv hkv), fun a es he kv hkv => kept_exact (h.interaction a es he kv hkv),
    fun a es he kv hkv => kept_exact (h.property a es he kv hkv), fun a es he kv hkv => kept_exact (h.action a es he kv hkv),
    fun a es he kv hkv => kept_exact (h.event a es he kv hkv), fun a es he kv hkv => kept_exact (h.thing a es he kv hkv)⟩

section
variable {X : ExtTypes} {C : ExtCodecs X} {env : SerdeEnv} {t : Thing X} {text : String} {h m : Nat}

/-- C72: from both strings that are written for a Thing, whatever its numbers, the same Thing is read (as it is stored), but with
every float, in schemas, custom security schemes and the context, moved as above. -/
theorem C72_read_back (sep : C.Separate) (once : C.WriteOnce) (hc : C.NumbersKept serdeJson) (hk : Kept env C t) (hh : 1 ≤ h)
    (hm : 1 ≤ m) (hd : t.NestsWithin C h m) (hl : 2 * h + m ≤ 123) (hn : t.NumbersKept serdeJsonExact C)
    (hs : t.toString C env serdeJson = some text ∨ t.toStringPretty C env serdeJson = some text) :
    ((∀ ps, t.properties = some ps → ∀ kv ∈ ps, ¬ kv.2.RepeatsInfo) →
      Thing.fromString C env serdeJson text = some (t.mapFloats serdeJson.again).stored) ∧
    (¬ (∀ ps, t.properties = some ps → ∀ kv ∈ ps, ¬ kv.2.RepeatsInfo) → Thing.fromString C env serdeJson text = none) := by
  obtain ⟨j, hj⟩ : ∃ j, toText C env t = some j := by
    rcases hs with hs | hs <;> obtain ⟨j, hj, -⟩ := Option.map_eq_some_iff.1 hs <;> exact ⟨j, hj⟩
  rw [load_again hj (Nat.le_trans (C62_bound hh hm hd hj) (by omega)) (inRange_of_kept (nums_thing hn hj)) hs]
  refine ⟨fun hi => stored_again sep once hc hk hi hj, fun hi => ?_⟩
  simp only [Classical.not_forall, Classical.not_not] at hi
  obtain ⟨ps, hps, kv, hkv, hr⟩ := hi
  exact thing_twice_mapFloats hps hkv hr hj

theorem info_iff (hf : ThingFrom C env Json.NoDup t) {m : HMap (PropertyAffordance X)} (hm : t.properties = some m)
    {kv : String × PropertyAffordance X} (hkv : kv ∈ m) : kv.2.NoInfo ↔ ¬ kv.2.RepeatsInfo := by
  obtain ⟨es, _, hr⟩ := (hf.properties m hm).2 kv hkv
  obtain ⟨h1, h2, h3, h4, h5⟩ := property_agrees hr
  simp only [PropertyAffordance.NoInfo, PropertyAffordance.RepeatsInfo, h1, h2, h3, h4, h5, and_self,
    not_or, Option.not_isSome_iff_eq_none]

theorem read_numbers (hs : env.Stable) {j : Json} (hj : ThingText serdeJson j text) (ht : Thing.fromString C env serdeJson text = some t) :
    fromText C env j = some t ∧ j.NumbersInRange ∧ ThingFrom C env (Json.NumbersLast serdeJsonExact) t := by
  have hr : fromText C env j = some t := fromString_from hj ht
  have hi : j.NumbersInRange := thing_inRange (fun _ _ => C70_finite) hj
  exact ⟨hr, hi, thing_from hs (.last _) (last_exact hi) hr⟩

/-- C72: a Thing that has been read from any text, whatever its numbers, is written, and read back with its floats moved if no
property has human readable information. -/
theorem C72_reread (he : env.Rfc5646Tags) (ht' : env.Rfc3339Times) (sep : C.Separate) (once : C.WriteOnce)
    (hc : C.NumbersKept serdeJson) {j : Json} (hj : ThingText serdeJson j text) (hd : j.NoDup)
    (ht : Thing.fromString C env serdeJson text = some t) (hx : ExtensionsKept C t) (hh : 1 ≤ h) (hm : 1 ≤ m)
    (hn : t.NestsWithin C h m) (hl : 2 * h + m ≤ 123) :
    ∃ s p, t.toString C env serdeJson = some s ∧ t.toStringPretty C env serdeJson = some p ∧
      ((∀ ps, t.properties = some ps → ∀ kv ∈ ps, kv.2.NoInfo) →
        Thing.fromString C env serdeJson s = some (t.mapFloats serdeJson.again).stored ∧
        Thing.fromString C env serdeJson p = some (t.mapFloats serdeJson.again).stored) ∧
      (¬ (∀ ps, t.properties = some ps → ∀ kv ∈ ps, kv.2.NoInfo) →
        Thing.fromString C env serdeJson s = none ∧ Thing.fromString C env serdeJson p = none) := by
  have hs := C69_stable he ht'
  obtain ⟨hr, -, hk⟩ := read_numbers hs hj ht
  have hf := thing_from hs .noDup hd hr
  have hi := fun ps hps kv hkv => info_iff hf (m := ps) hps (kv := kv) hkv
  obtain ⟨i, hti⟩ := C48_writable.2.2 (hf.writable hs hx)
  have hb := fun {s} hs' => C72_read_back (text := s) sep once hc (hf.kept hs hx) hh hm hn hl (hk.numbersKept (codecs_exact hc)) hs'
  have e1 : t.toString C env serdeJson = some (String.ofList (i.compact serdeJson)) := by rw [Thing.toString, hti]; rfl
  have e2 : t.toStringPretty C env serdeJson = some (String.ofList (i.pretty serdeJson 0)) := by rw [Thing.toStringPretty, hti]; rfl
  refine ⟨_, _, e1, e2, fun hq => ?_, fun hq => ?_⟩
  · have hq' := fun ps hps kv hkv => (hi ps hps kv hkv).1 (hq ps hps kv hkv)
    exact ⟨(hb (.inl e1)).1 hq', (hb (.inr e2)).1 hq'⟩
  · have hq' : ¬ ∀ ps, t.properties = some ps → ∀ kv ∈ ps, ¬ kv.2.RepeatsInfo :=
      fun h => hq fun ps hps kv hkv => (hi ps hps kv hkv).2 (h ps hps kv hkv)
    exact ⟨(hb (.inl e1)).2 hq', (hb (.inr e2)).2 hq'⟩

theorem Binding.read_kept {l : List Binding} (hl : l.Nodup) {t : Thing (Binding.stackTypes l)} (hs : env.Stable)
    (hf : ThingFrom (Binding.stack l) env Json.NoDup t) (hg : Binding.ThingHeadersGiven l t) : Kept env (Binding.stack l) t := by
  have hp := hf.plain hs
  have hw := Binding.writable hp
  have hv := Binding.valuesKept hl hp hg
  exact hf.kept hs
    { schemas := fun p s x hps hx =>
        have a := hv.schemas p s x hps hx
        have b := hw.schemas p s x hps hx
        ⟨⟨b.1, a.other⟩, fun y hy => ⟨b.2.1 y hy, a.otherArray y hy⟩,
          fun y hy => ⟨b.2.2 y hy, a.otherObject y hy⟩⟩
      forms := fun ctx f hf =>
        ⟨⟨(hw.forms ctx f hf).1, (hv.forms ctx f hf).1⟩,
          fun r hr => ⟨(hw.forms ctx f hf).2 r hr, (hv.forms ctx f hf).2 r hr⟩⟩
      interactions := fun i hi => ⟨hw.interactions i hi, hv.interactions i hi⟩
      properties := fun m hm kv hkv => ⟨hw.properties m hm kv hkv, hv.properties m hm kv hkv⟩
      actions := fun m hm kv hkv => ⟨hw.actions m hm kv hkv, hv.actions m hm kv hkv⟩
      events := fun m hm kv hkv => ⟨hw.events m hm kv hkv, hv.events m hm kv hkv⟩
      other := ⟨hw.other, hv.other⟩ }

/-- C72: the same with any set of protocol bindings; then every HTTP response has to name headers, too. -/
theorem C72_bindings {l : List Binding} (hnd : l.Nodup) {t : Thing (Binding.stackTypes l)} (he : env.Rfc5646Tags)
    (ht' : env.Rfc3339Times) {j : Json} (hj : ThingText serdeJson j text) (hd : j.NoDup)
    (ht : Thing.fromString (Binding.stack l) env serdeJson text = some t) (hh : 1 ≤ h) (hm : 1 ≤ m)
    (hn : t.NestsWithin (Binding.stack l) h m) (hlim : 2 * h + m ≤ 123) :
    ∃ s p, t.toString (Binding.stack l) env serdeJson = some s ∧ t.toStringPretty (Binding.stack l) env serdeJson = some p ∧
      (Binding.ThingHeadersGiven l t ∧ (∀ ps, t.properties = some ps → ∀ kv ∈ ps, kv.2.NoInfo) →
        Thing.fromString (Binding.stack l) env serdeJson s = some (t.mapFloats serdeJson.again).stored ∧
        Thing.fromString (Binding.stack l) env serdeJson p = some (t.mapFloats serdeJson.again).stored) ∧
      (¬ (Binding.ThingHeadersGiven l t ∧ ∀ ps, t.properties = some ps → ∀ kv ∈ ps, kv.2.NoInfo) →
        Thing.fromString (Binding.stack l) env serdeJson s = none ∧
        Thing.fromString (Binding.stack l) env serdeJson p = none) := by
  have hs := C69_stable he ht'
  obtain ⟨hr, -, hk⟩ := read_numbers hs hj ht
  have hf := thing_from hs .noDup hd hr
  have hrel := Binding.relaxed_kept hnd hs hf
  have hi := fun ps hps kv hkv => info_iff hf (m := ps) hps (kv := kv) hkv
  obtain ⟨i, hti⟩ := can_thing.2 (Binding.writable (hf.plain hs))
  have e1 : t.toString (Binding.stack l) env serdeJson = some (String.ofList (i.compact serdeJson)) := by
    rw [Thing.toString, show toText _ _ _ = _ from hti]; rfl
  have e2 : t.toStringPretty (Binding.stack l) env serdeJson = some (String.ofList (i.pretty serdeJson 0)) := by
    rw [Thing.toStringPretty, show toText _ _ _ = _ from hti]; rfl
  have hload := fun {s} hs' => load_again (text := s) hti (Nat.le_trans (C62_bound hh hm hn hti) (by omega))
    (inRange_of_kept (nums_thing (hk.numbersKept (Binding.stack_nums l)) hti)) hs'
  obtain ⟨i', hti', e⟩ := float_written again_finite (again_fixed (Binding.stack_nums l)) hrel.maps (hrel.mapFloats).maps hti
  have rep : (∀ ps, t.properties = some ps → ∀ kv ∈ ps, kv.2.NoInfo) → Represents (i.mapFloats serdeJson.again) i' := fun hq =>
    ⟨noDup_mapFloats (Binding.noDup_bindings hnd hrel (fun ps hps kv hkv => (hi ps hps kv hkv).1 (hq ps hps kv hkv)) hti), e⟩
  refine ⟨_, _, e1, e2, fun hq => ?_, fun hq => ?_⟩
  · rw [hload (.inl e1), hload (.inr e2)]
    have := thing_stored (Binding.stack_separate l) ((Binding.read_kept hnd hs hf hq.1).mapFloats) hti' _ (rep hq.2)
    exact ⟨this, this⟩
  · rw [hload (.inl e1), hload (.inr e2)]
    refine (fun x => ⟨x, x⟩) ?_
    by_cases hq' : ∀ ps, t.properties = some ps → ∀ kv ∈ ps, kv.2.NoInfo
    · have hg : ¬ Binding.ThingHeadersGiven l t := fun h => hq ⟨h, hq'⟩
      simp only [Binding.ThingHeadersGiven, Classical.not_forall] at hg
      obtain ⟨ctx, f, r, hfo, hfr, hg⟩ := hg
      have hmaps := (hrel.mapFloats (g := serdeJson.again)).maps
      exact thing_bad (Binding.stack_separate l) (Binding.stack_tidy hnd) ⟨hmaps.properties, hmaps.actions, hmaps.events⟩
        (hasForm_mapFloats.2 hfo) (fun j hj => form_bad (Binding.stack_separate l) (Binding.stack_tidy hnd) hfr
          (fun m es hm hc => Binding.stack_response_none hnd hg hm hc) hj) hti' _ (rep hq')
    · simp only [Classical.not_forall] at hq'
      obtain ⟨ps, hps, kv, hkv, hq'⟩ := hq'
      exact thing_twice_mapFloats hps hkv (Classical.not_not.1 fun hr => hq' ((hi ps hps kv hkv).2 hr)) hti

/-- C72: a Thing of which nothing is lost but the last places of its numbers, and without human readable information in properties,
can be written and read any number of times. The floats have moved that many times then, and the rest of the Thing is what it was. -/
theorem C72_reloads (sep : C.Separate) (once : C.WriteOnce) (hc : C.NumbersKept serdeJson) (hst : Storable env C t)
    (hq : ∀ ps, t.properties = some ps → ∀ kv ∈ ps, kv.2.NoInfo) {j : Json} (hj : toText C env t = some j) (hh : 1 ≤ h) (hm : 1 ≤ m)
    (hd : t.NestsWithin C h m) (hl : 2 * h + m ≤ 123) (hn : t.NumbersKept serdeJsonExact C) {n : Nat} {u : Thing X} :
    Reloads C env serdeJson n t u ↔ u = t.mapFloats (Nat.repeat serdeJson.again n) := by
  have hr : ∀ ps, t.properties = some ps → ∀ kv ∈ ps, ¬ kv.2.RepeatsInfo := fun ps hps kv hkv h => by
    have := hq ps hps kv hkv
    simp_all [PropertyAffordance.NoInfo, PropertyAffordance.RepeatsInfo]
  have step : ∀ n, (t.mapFloats (Nat.repeat serdeJson.again n)).mapFloats serdeJson.again =
      t.mapFloats (Nat.repeat serdeJson.again (n + 1)) := fun n => Thing.mapFloats_comp _ _ t
  have inv : ∀ n, Kept env C (t.mapFloats (Nat.repeat serdeJson.again n)) ∧
      (∀ ps, (t.mapFloats (Nat.repeat serdeJson.again n)).properties = some ps → ∀ kv ∈ ps, ¬ kv.2.RepeatsInfo) ∧
      (t.mapFloats (Nat.repeat serdeJson.again n)).Lossless ∧
      ∃ i, toText C env (t.mapFloats (Nat.repeat serdeJson.again n)) = some i ∧ i.nesting ≤ 127 ∧ i.NumbersInRange := by
    intro n
    induction n with
    | zero =>
      rw [show t.mapFloats (Nat.repeat serdeJson.again 0) = t from Thing.mapFloats_id t]
      exact ⟨hst.kept, hr, hst.lossless, j, hj, Nat.le_trans (C62_bound hh hm hd hj) (by omega), inRange_of_kept (nums_thing hn hj)⟩
    | succ n ih =>
      obtain ⟨k, hi, hlo, i, hti, h1, h2⟩ := ih
      obtain ⟨hi', i', hti', h1', h2'⟩ := tree_again sep once hc k hi hti h2
      rw [step n] at hi' hti'
      exact ⟨step n ▸ k.mapFloats, hi', step n ▸ lossless_mapFloats again_finite hlo, i', hti', h1' ▸ h1, h2'⟩
  have load : ∀ {n text}, (t.mapFloats (Nat.repeat serdeJson.again n)).toString C env serdeJson = some text ∨
      (t.mapFloats (Nat.repeat serdeJson.again n)).toStringPretty C env serdeJson = some text →
      Thing.fromString C env serdeJson text = some (t.mapFloats (Nat.repeat serdeJson.again (n + 1))) := by
    intro n text hs
    obtain ⟨k, hi, -, i, hti, h1, h2⟩ := inv n
    rw [load_again hti h1 h2 hs, stored_again sep once hc k hi hti, step n, thing_eq_self.2 (inv (n + 1)).2.2.1]
  constructor
  · intro h
    induction h with
    | never => exact (Thing.mapFloats_id _).symm
    | again _ hs ht ih =>
      have ih := ih hst hq hj hd hn hr step inv load
      subst ih
      exact Option.some.inj (ht.symm.trans (load hs))
  · rintro rfl
    induction n with
    | zero => rw [show t.mapFloats (Nat.repeat serdeJson.again 0) = t from Thing.mapFloats_id t]; exact .never
    | succ n ih =>
      obtain ⟨-, -, -, i, hti, -⟩ := inv n
      have e : (t.mapFloats (Nat.repeat serdeJson.again n)).toString C env serdeJson = some (String.ofList (i.compact serdeJson)) := by
        rw [Thing.toString, hti]; rfl
      exact .again ih (.inl e) (load (.inl e))

/-- C72: a Thing that has been read from a text is such a Thing, if no form in it has an empty list of operations. -/
theorem C72_read_reloads (he : env.Rfc5646Tags) (ht' : env.Rfc3339Times) (sep : C.Separate) (once : C.WriteOnce)
    (hc : C.NumbersKept serdeJson) {j : Json} (hj : ThingText serdeJson j text) (hd : j.NoDup)
    (ht : Thing.fromString C env serdeJson text = some t) (hx : ExtensionsKept C t) (ho : t.NoEmptyOps)
    (hq : ∀ ps, t.properties = some ps → ∀ kv ∈ ps, kv.2.NoInfo) (hh : 1 ≤ h) (hm : 1 ≤ m)
    (hn : t.NestsWithin C h m) (hl : 2 * h + m ≤ 123) {n : Nat} {u : Thing X} :
    Reloads C env serdeJson n t u ↔ u = t.mapFloats (Nat.repeat serdeJson.again n) := by
  have hs := C69_stable he ht'
  obtain ⟨hr, hi, hk⟩ := read_numbers hs hj ht
  have hf := thing_from hs .noDup hd hr
  obtain ⟨i, hti⟩ := C48_writable.2.2 (hf.writable hs hx)
  exact C72_reloads sep once hc ⟨hf.kept hs hx, (thing_from hs .numbers hi hr).lossless.2 ho⟩ hq hti hh hm hn hl
    (hk.numbersKept (codecs_exact hc))

end

/-! ### Numbers that do not come to rest -/

namespace Demo

/-- `7.828496979038095e96`, and two neighbours: `1.138991777105348e215` and `1.1389917771053479e215`. -/
def fDrift : F64 := ⟨0x540D52052B0B8C11, by decide⟩
def fSwing : F64 := ⟨0x6C952551B410D93C, by decide⟩
def fSwing' : F64 := ⟨0x6C952551B410D93B, by decide⟩

/-- A text with a variable between such numbers. -/
def driftText : String :=
  "{\"title\":\"\",\"security\":[],\"securityDefinitions\":{},\"uriVariables\":{\"t\":" ++
  "{\"type\":\"number\",\"minimum\":7.828496979038096e96,\"maximum\":1.1389917771053479e215,\"const\":20}}}"

/-- Its tree. -/
def driftTree : Json :=
  .obj [("title", .str ""), ("security", .arr []), ("securityDefinitions", .obj []), ("uriVariables", .obj [("t",
    .obj [("type", .str "number"), ("minimum", .num (.float fDrift)), ("maximum", .num (.float fSwing)), ("const", .num (.pos 20))])])]

theorem drift_parse : Json.parse serdeJson driftText = some driftTree := by decide +kernel

theorem drift_noDup : driftTree.NoDup := by
  simp [driftTree, Json.NoDup, Json.NoDupList, Json.NoDupMembers]

/-- The bounds of the variables of a Thing. -/
def bounds (t : Thing X) : List (Option F64 × Option F64) :=
  (t.uriVariables.getD []).filterMap fun kv => match kv.2.subtype with
    | some (.number n) => some (n.minimum.map Minimum.bound, n.maximum.map Maximum.bound)
    | _ => none

theorem bounds_mapFloats (g : F64 → F64) (t : Thing X) :
    bounds (t.mapFloats g) = (bounds t).map fun b => (b.1.map g, b.2.map g) := by
  unfold bounds
  show List.filterMap _ ((t.uriVariables.map (HMap.mapVals (Schema.mapFloats g))).getD []) = _
  cases t.uriVariables with
  | none => rfl
  | some m =>
    simp only [Option.map_some, Option.getD_some, HMap.mapVals, List.filterMap_map, List.map_filterMap]
    refine congrArg (fun f => List.filterMap f m) (funext fun kv => ?_)
    simp only [Function.comp_apply, mapFloats_subtype]
    rcases kv.2.subtype with _ | st
    · rfl
    · cases st with
      | number n =>
        obtain ⟨a, b, c⟩ := n
        rcases a with _ | (_ | _) <;> rcases b with _ | (_ | _) <;> rfl
      | _ => rfl

theorem swing (n : Nat) : Nat.repeat serdeJson.again n fSwing = if n % 2 = 0 then fSwing else fSwing' := by
  induction n with
  | zero => rfl
  | succ n ih =>
    rw [Nat.repeat, ih]
    rcases Nat.mod_two_eq_zero_or_one n with h | h
    · rw [if_pos h, if_neg (by omega)]; decide +kernel
    · rw [if_neg (by omega), if_pos (by omega)]; decide +kernel

theorem drift : ∀ n ≤ 9, (Nat.repeat serdeJson.again n fDrift).bits.val = 0x540D52052B0B8C11 - n := by decide +kernel

end Demo

/-- C72: three steps is no bound for many times: with every saving and loading a number may drift on, and another may go to and fro
and never come to rest. Here the lower bound goes down nine steps in the first nine times, and the upper one is different whenever
it is loaded. -/
theorem C72_drifts : ∃ t : Thing Demo.X, Thing.fromString .nil Demo.tagEnv serdeJson Demo.driftText = some t ∧
    (∀ n, ∃ u, Reloads .nil Demo.tagEnv serdeJson n t u) ∧
    ∀ n u, Reloads .nil Demo.tagEnv serdeJson n t u →
      ∃ lo, Demo.bounds u = [(some lo, some (if n % 2 = 0 then Demo.fSwing else Demo.fSwing'))] ∧
        (n ≤ 9 → lo.bits.val = Demo.fDrift.bits.val - n) := by
  obtain ⟨t, s, n, ht, hb, h⟩ : ∃ t s n, fromStr (X := Demo.X) .nil Demo.tagEnv Demo.driftTree = some t ∧
      Demo.bounds t = [(some Demo.fDrift, some Demo.fSwing)] ∧ Demo.StepThing t s n :=
    ⟨_, _, _, rfl, rfl, ⟨rfl, rfl, rfl, rfl, rfl⟩, rfl, rfl, rfl, ⟨rfl, rfl⟩, rfl, rfl, rfl⟩
  have hr : Thing.fromString (X := Demo.X) .nil Demo.tagEnv serdeJson Demo.driftText = some t := by
    rw [fromString_parse Demo.drift_parse, ht]
  obtain ⟨h1, h2, h3, h4, -⟩ := h.absent
  have key := fun n u => C72_read_reloads (n := n) (u := u) Demo.tag_tags Demo.tag_times Demo.nil_separate Demo.nil_writeOnce
    (Demo.nil_numbers _) (thingText_parse Demo.drift_parse rfl) Demo.drift_noDup hr
    (C50_extensions (C69_stable Demo.tag_tags Demo.tag_times) Demo.nil_lawful ((C62_limit _).2 t ht))
    (fun ctx f hf => by cases hf <;> simp_all) (by rw [h1]; nofun) (Nat.le_refl 1) (Nat.le_refl 1) h.nestsWithin (by decide)
  refine ⟨t, hr, fun n => ⟨_, (key n _).2 rfl⟩, fun n u hu => ?_⟩
  rw [(key n u).1 hu, Demo.bounds_mapFloats, hb]
  refine ⟨Nat.repeat serdeJson.again n Demo.fDrift, ?_, Demo.drift n⟩
  simp only [List.map_cons, List.map_nil, Option.map_some, Demo.swing]

/-! ### Examples -/

example : serdeJson.again Demo.fBig = Demo.fLess ∧ serdeJson.again Demo.fTenth = Demo.fTenth ∧ (serdeJson.again Demo.fBig).Close Demo.fBig :=
  ⟨Option.some.inj (((C72_moves _).1 (by decide)).1.symm.trans (by rw [C70_lost.2.1]; exact C70_lost.2.2.1)),
    (C72_moves _).2.2.1 (C70_keeps Demo.short_tenth), ((C72_moves _).1 (by decide)).2⟩

/-- The Thing with one property. -/
example : ∃ s, Demo.quietThing.toString .nil Demo.senv serdeJson = some s ∧
    Thing.fromString .nil Demo.senv serdeJson s = some (Demo.quietThing.mapFloats serdeJson.again).stored := by
  obtain ⟨j, hj⟩ := C48_writable.2.2 Demo.quiet_writable
  have e : Demo.quietThing.toString .nil Demo.senv serdeJson = some (String.ofList (j.compact serdeJson)) := by
    rw [Thing.toString, hj]; rfl
  refine ⟨_, e, (C72_read_back Demo.nil_separate Demo.nil_writeOnce (Demo.nil_numbers _) Demo.quiet_storable.kept (Nat.le_refl 1)
    (Nat.le_refl 1) Demo.quiet_nests (by decide)
    (Demo.quiet_numbers (C71_lawful.keeps _ (by decide)) (C71_lawful.keeps _ (by decide))) (.inl e)).1 fun m hm kv hkv hr => ?_⟩
  have := Demo.quiet_noInfo m hm kv hkv
  simp_all [PropertyAffordance.NoInfo, PropertyAffordance.RepeatsInfo]

/-- The same Thing, any number of times. -/
example (n : Nat) : Reloads .nil Demo.senv serdeJson n Demo.quietThing (Demo.quietThing.mapFloats (Nat.repeat serdeJson.again n)) := by
  obtain ⟨j, hj⟩ := C48_writable.2.2 Demo.quiet_writable
  exact (C72_reloads Demo.nil_separate Demo.nil_writeOnce (Demo.nil_numbers _) Demo.quiet_storable Demo.quiet_noInfo hj
    (Nat.le_refl 1) (Nat.le_refl 1) Demo.quiet_nests (by decide)
    (Demo.quiet_numbers (C71_lawful.keeps _ (by decide)) (C71_lawful.keeps _ (by decide)))).2 rfl

/-- The text with numbers that do not come to rest. -/
example : ∃ t str, Thing.fromString (X := Demo.X) .nil Demo.tagEnv serdeJson Demo.driftText = some t ∧
    t.toString .nil Demo.tagEnv serdeJson = some str ∧
    Thing.fromString .nil Demo.tagEnv serdeJson str = some (t.mapFloats serdeJson.again).stored := by
  obtain ⟨t, s, n, ht, h⟩ : ∃ t s n, fromStr (X := Demo.X) .nil Demo.tagEnv Demo.driftTree = some t ∧ Demo.StepThing t s n :=
    ⟨_, _, _, rfl, ⟨rfl, rfl, rfl, rfl, rfl⟩, rfl, rfl, rfl, ⟨rfl, rfl⟩, rfl, rfl, rfl⟩
  have hr : Thing.fromString (X := Demo.X) .nil Demo.tagEnv serdeJson Demo.driftText = some t := by
    rw [fromString_parse Demo.drift_parse, ht]
  obtain ⟨str, p, e1, -, e2, -⟩ := C72_reread Demo.tag_tags Demo.tag_times Demo.nil_separate Demo.nil_writeOnce
    (Demo.nil_numbers _) (thingText_parse Demo.drift_parse rfl) Demo.drift_noDup hr
    (C50_extensions (C69_stable Demo.tag_tags Demo.tag_times) Demo.nil_lawful ((C62_limit _).2 t ht)) (Nat.le_refl 1) (Nat.le_refl 1)
    h.nestsWithin (by decide)
  exact ⟨t, str, hr, e1, (e2 (by rw [h.absent.1]; nofun)).1⟩

/-- Also with a protocol binding. -/
example : ∃ t str, Thing.fromString (Binding.stack [.http]) Demo.tagEnv serdeJson Demo.driftText = some t ∧
    t.toString (Binding.stack [.http]) Demo.tagEnv serdeJson = some str ∧
    Thing.fromString (Binding.stack [.http]) Demo.tagEnv serdeJson str = some (t.mapFloats serdeJson.again).stored := by
  obtain ⟨t, s, n, ht, h⟩ : ∃ t s n, fromStr (Binding.stack [.http]) Demo.tagEnv Demo.driftTree = some t ∧ Demo.StepThing t s n :=
    ⟨_, _, _, rfl, ⟨rfl, rfl, rfl, rfl, rfl⟩, rfl, rfl, rfl, ⟨rfl, rfl⟩, rfl, rfl, rfl⟩
  have hr : Thing.fromString (Binding.stack [.http]) Demo.tagEnv serdeJson Demo.driftText = some t := by
    rw [fromString_parse Demo.drift_parse, ht]
  obtain ⟨n1, n2⟩ := h.nests
  have hn : t.NestsWithin (Binding.stack [.http]) 1 2 := (C62_bindings (Nat.le_refl 2)).2
    ⟨n1, fun p s x hs hx => by
      obtain ⟨-, a, b, c⟩ := n2 p s x hs hx
      exact ⟨fun v hv => Nat.le_succ_of_le (a v hv), fun v hv => Nat.le_succ_of_le (b v hv),
        fun l hl v hv => Nat.le_succ_of_le (c l hl v hv)⟩, by rw [h.security]; nofun, by rw [h.context]; exact Nat.zero_le _⟩
  obtain ⟨str, p, e1, -, e2, -⟩ := C72_bindings (by decide) Demo.tag_tags Demo.tag_times (thingText_parse Demo.drift_parse rfl)
    Demo.drift_noDup hr (Nat.le_refl 1) (by decide) hn (by decide)
  obtain ⟨h1, h2, h3, h4, -⟩ := h.absent
  refine ⟨t, str, hr, e1, (e2 ⟨fun ctx f r hf _ => ?_, by rw [h1]; nofun⟩).1⟩
  cases hf <;> simp_all

end Wot
