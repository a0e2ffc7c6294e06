import Verif.Lemmas.Conform
import Verif.Lemmas.ConformRead
import Verif.Lemmas.Meaning
import Verif.Lemmas.Round
/-
What is read from documents that conform to the Recommendation is proper, but for versions without a model and forms with
an empty list of operations.
-/
namespace Wot
namespace Conform

/-! ### Values -/

/-- No names occur twice in an object, and all numbers are such as JSON documents are made of in serde_json. -/
abbrev Fine (v : Json) : Prop := v.NoDup ∧ v.NumbersInRange

section
variable {F : Formats} {env : SerdeEnv} {X : ExtTypes} {C : ExtCodecs X} {es : Members} {k : String} {v w : Json}
  {P Q : Json → Prop} {A : Type} {Is : Json → A → Prop}

theorem Fine.member (h : Fine v) (e : v.member k = some w) : Fine w := by
  refine ⟨member_noDup h.1 e, fun n hn => h.2 n ?_⟩
  cases v with
  | obj es => exact .member (HMap.mem_of_get? e) hn
  | _ => cases e

theorem Fine.elem {l : List Json} (h : Fine (.arr l)) (e : w ∈ l) : Fine w :=
  ⟨noDup_elem h.1 e, fun n hn => h.2 n (.element e hn)⟩

theorem must_may (h : Must k P v) : May k P v := by
  obtain ⟨x, e, h⟩ := h
  intro w e'
  rw [e] at e'
  cases e'
  exact h

/-- The member that a field of the Thing has been read from. -/
theorem given {o : Option A} {x : A} (h : Doc.May k Is es o) (e : o = some x) (hf : Fine (.obj es)) (hm : May k P (.obj es)) :
    ∃ w, (Json.obj es).member k = some w ∧ Fine w ∧ P w ∧ Is w x := by
  obtain ⟨w, hw, hi⟩ := may_member h e
  exact ⟨w, hw, hf.member hw, hm w hw, hi⟩

theorem mustGiven {x : A} (h : Doc.Must k Is es x) (hf : Fine (.obj es)) (hm : May k P (.obj es)) :
    ∃ w, (Json.obj es).member k = some w ∧ Fine w ∧ P w ∧ Is w x := by
  obtain ⟨h, hi⟩ := h
  rename_i w
  have hw : (Json.obj es).member k = some w := by rw [member_occ, h]; rfl
  exact ⟨w, hw, hf.member hw, hm w hw, hi⟩

theorem pointwise_source {l : List Json} {xs : List A} (h : Pointwise Is l xs) {x : A} (hx : x ∈ xs) : ∃ w ∈ l, Is w x := by
  induction h with
  | nil => cases hx
  | cons h _ ih =>
    rcases List.mem_cons.1 hx with rfl | hx
    · exact ⟨_, List.mem_cons_self, h⟩
    · obtain ⟨w, hw, h⟩ := ih hx
      exact ⟨w, List.mem_cons_of_mem _ hw, h⟩

theorem entry {m : HMap A} (h : Doc.IsMapOf Is v m) (hf : Fine v) (hm : Map P v) {x : A} (hx : (k, x) ∈ m) :
    ∃ w, v.member k = some w ∧ Fine w ∧ P w ∧ Is w x := by
  have hs : m.Sorted := by cases h; assumption
  obtain ⟨w, hw, hi⟩ := mapOf_member h hf.1 (HMap.get?_eq_some_of_mem hs.nodup hx)
  exact ⟨w, hw, hf.member hw, hm.2 _ w hw, hi⟩

theorem entry_defined {m : HMap A} (h : Doc.IsMapOf Is v m) (hd : v.NoDup) (hx : v.member k ≠ none) : k ∈ m.keys := by
  obtain ⟨_, _, h⟩ := h
  have := h k
  rw [occ_get? hd.1] at this
  unfold Json.member at hx
  simp only at hx
  generalize HMap.get? _ k = w at this hx
  generalize e : m.get? k = y at this
  cases this with
  | none => exact absurd rfl hx
  | some r => exact mem_keys_iff.2 ⟨_, e⟩

/-! ### Texts -/

theorem tags_kept (hF : F.KeptBy env) {o : Option MultiLanguage} (h : Doc.May k (Doc.IsTranslations env) es o)
    (hf : Fine (.obj es)) (hm : May k (Translations F) (.obj es)) : TagsIn F o := by
  intro m e tag htag
  obtain ⟨w, -, hw, ht, hi⟩ := given h e hf hm
  obtain ⟨_, _, hi⟩ := hi
  have := hi tag
  obtain ⟨a, ha⟩ := mem_keys_iff.1 htag
  rw [ha] at this
  generalize e' : lastOf _ = x at this
  cases this with
  | some r =>
    obtain ⟨kv, hkv, hx⟩ := List.mem_filterMap.1 (lastOf_mem e')
    split at hx
    · rename_i hr
      exact hF.tag _ _ (ht.2 kv.1 kv.2 (member_entry hw.1.1 hkv)).1 hr
    · cases hx

theorem names_kept {D : String → Prop} {l : List String} (h : Doc.IsOneOrManyStrings v l) (hn : Names D v) :
    l ≠ [] ∧ ∀ n ∈ l, D n := by
  cases h with
  | one h =>
    subst h
    rcases hn with ⟨_, e, h⟩ | ⟨_, e, -⟩
    · cases e
      exact ⟨nofun, fun n hn => by cases List.mem_singleton.1 hn; exact h⟩
    · cases e
  | many h =>
    obtain ⟨h⟩ := h
    rcases hn with ⟨_, e, -⟩ | ⟨_, e, hl, hD⟩
    · cases e
    · cases e
      refine ⟨?_, fun n hn => ?_⟩
      · rintro rfl
        cases h
        exact absurd hl (by decide)
      · obtain ⟨w, hw, h⟩ := pointwise_source h hn
        obtain ⟨s, e, hs⟩ := hD w hw
        cases h
        cases e
        exact hs

/-! ### Numbers -/

theorem float_finite {x : F64} (h : Doc.IsFloat v x) (hf : Fine v) : x.isFinite = true := by
  rcases h with rfl | ⟨z, _, h, _⟩
  · exact hf.2 _ .here
  · exact h.finite

/-- The number nearest to a positive integer is positive. -/
theorem nearest_positive {x : F64} {z : Int} (hz : 0 < z) (h : x.Nearest z) : F64.Lt F64.zero x := by
  have hn : x.isNan = false := by
    have := h.finite
    unfold F64.isFinite at this; unfold F64.isNan; simp_all; omega
  refine ⟨by decide, hn, ?_⟩
  have h1 := h.nearest (.ofBits 1) (by decide)
  have h2 : F64.units (.ofBits 1) = 1 := by decide
  have h0 : F64.units F64.zero = 0 := by decide
  have hp : (0 : Int) < 2^1074 := Int.pow_pos (by decide)
  unfold F64.distance at h1
  rw [h2] at h1
  rw [h0]
  have hT : 0 < z * 2^1074 := Int.mul_pos hz hp
  generalize z * 2^1074 = T at h1 hT
  omega

theorem float_positive {x : F64} (h : Doc.IsFloat v x) (hp : Positive v) : F64.Lt F64.zero x := by
  cases hp with
  | integer hn =>
    rcases h with e | ⟨z, ⟨n, e, rfl⟩ | ⟨n, e, _⟩, h, _⟩
    · cases e
    · cases e; exact nearest_positive (by omega) h
    · cases e
  | float hp =>
    rcases h with e | ⟨z, ⟨n, e, _⟩ | ⟨n, e, _⟩, _⟩
    · cases e; exact hp
    · cases e
    · cases e

end

/-! ### Data schemas -/

section
variable {F : Formats} {env : SerdeEnv} {DSx AS OS : Type} {CD : ExtCodec DSx} {CA : ExtCodec AS} {CO : ExtCodec OS}
  {K : List String} {es : Members} {R : Json → DataSchema DSx AS OS → Prop}

theorem minimum_finite {lo : Option (Minimum F64)} (h : Doc.SaysMinimum es Doc.IsFloat lo) (hf : Fine (.obj es)) :
    ∀ b, lo = some b → b.bound.isFinite = true := by
  rintro (x | x) e
  · obtain ⟨w, hw, h⟩ := (h x).1.1 e
    exact float_finite h (hf.member (member_first hw))
  · obtain ⟨w, hw, h⟩ := (h x).2.1 e
    exact float_finite h (hf.member (member_first hw))

theorem maximum_finite {hi : Option (Maximum F64)} (h : Doc.SaysMaximum es Doc.IsFloat hi) (hf : Fine (.obj es)) :
    ∀ b, hi = some b → b.bound.isFinite = true := by
  rintro (x | x) e
  · obtain ⟨w, hw, h⟩ := (h x).1.1 e
    exact float_finite h (hf.member (member_first hw))
  · obtain ⟨w, hw, h⟩ := (h x).2.1 e
    exact float_finite h (hf.member (member_first hw))

theorem node_kept (hF : F.KeptBy env) {s : DataSchema DSx AS OS} (h : Doc.IsSchemaMembers env CD CA CO K R es s)
    (hn : SchemaNode F (.obj es)) (hf : Fine (.obj es)) : NodeProper F s := by
  cases h with
  | mk attype title titles description descriptions constant default unit oneOf enumeration readOnly writeOnly format
      subtype other =>
    have key : ∀ n, s.subtype = some (.number n) → Doc.SaysMaximum es Doc.IsFloat n.maximum ∧
        Doc.SaysMinimum es Doc.IsFloat n.minimum ∧ Doc.May "multipleOf" Doc.IsFloat es n.multipleOf := by
      intro n e
      rw [e] at subtype
      cases subtype with
      | number _ h1 h2 h3 => exact ⟨h1, h2, h3⟩
    refine ⟨tags_kept hF titles hf hn.info.titles, tags_kept hF descriptions hf hn.info.descriptions,
      fun n b e => minimum_finite (key n e).2.1 hf b, fun n b e => maximum_finite (key n e).1 hf b, fun n m e hm => ?_⟩
    obtain ⟨w, -, hw, hp, hi⟩ := given (key n e).2.2 hm hf hn.multipleOf
    exact ⟨float_finite hi hw, float_positive hi hp⟩

/-- The schemas in a schema have been read from the schemas in the document. -/
theorem inside_source {s c : DataSchema DSx AS OS} (h : Doc.IsSchemaMembers env CD CA CO K R es s)
    (hR : ∀ w c, R w c → w.IsObject) (hf : Fine (.obj es)) (hc : Inside c s) :
    ∃ w, (Json.obj es).SchemaIn w ∧ Fine w ∧ R w c := by
  cases h with
  | mk attype title titles description descriptions constant default unit oneOf enumeration readOnly writeOnly format
      subtype other =>
    rcases hc with ⟨l, e, hc⟩ | ⟨st, e, hc⟩
    · obtain ⟨w, hw, ⟨hp⟩⟩ := may_member oneOf e
      obtain ⟨x, hx, hr⟩ := pointwise_source hp hc
      exact ⟨x, .oneOf ⟨_, hw, hx⟩, (hf.member hw).elem hx, hr⟩
    · rw [e] at subtype
      cases subtype with
      | @array _ a _ items _ _ _ =>
        cases hi : a.items with
        | none => simp [SubtypeF.children, hi] at hc
        | some i =>
          obtain ⟨w, hw, ha⟩ := may_member items hi
          cases ha with
          | elem hr =>
            rename_i d
            have : c = d := by simpa [SubtypeF.children, hi, ElemOrVec.toList] using hc
            subst this
            exact ⟨w, .items (.inr ⟨hw, hR _ _ hr⟩), hf.member hw, hr⟩
          | vec ha =>
            obtain ⟨hp⟩ := ha
            obtain ⟨x, hx, hr⟩ := pointwise_source hp (x := c) (by simpa [SubtypeF.children, hi, ElemOrVec.toList] using hc)
            exact ⟨x, .items (.inl ⟨_, hw, hx⟩), (hf.member hw).elem hx, hr⟩
      | @object _ o _ properties _ _ =>
        cases hp : o.properties with
        | none => simp [SubtypeF.children, hp] at hc
        | some m =>
          simp only [SubtypeF.children, hp, Option.map_some, Option.getD_some] at hc
          obtain ⟨⟨n, c⟩, hkv, rfl⟩ := List.mem_map.1 hc
          obtain ⟨w, hw, hm⟩ := may_member properties hp
          have hs : HMap.Sorted m := by cases hm; assumption
          obtain ⟨x, hx, hr⟩ := mapOf_member hm (hf.member hw).1 (HMap.get?_eq_some_of_mem hs.nodup hkv)
          exact ⟨x, .properties ⟨w, n, hw, hx⟩, (hf.member hw).member hx, hr⟩
      | _ => cases hc

theorem isSchema_object {v : Json} {s : DataSchema DSx AS OS} (h : Doc.IsSchema env CD CA CO v s) : v.IsObject := by
  cases h; exact ⟨_, rfl⟩

theorem schema_kept (hF : F.KeptBy env) {v : Json} (hv : Schema F v) : ∀ {s : DataSchema DSx AS OS},
    Doc.IsSchema env CD CA CO v s → Fine v → ∀ x, Within x s → NodeProper F x := by
  induction hv with
  | mk hn _ ih =>
    rintro s ⟨h⟩ hf x hx
    rcases within_iff.1 hx with rfl | ⟨c, hc, hx⟩
    · exact node_kept hF h hn hf
    · obtain ⟨w, hw, hfw, hr⟩ := inside_source h (fun _ _ => isSchema_object) hf hc
      exact ih w hw hr hfw x hx

/-- The same for the schema of a property. -/
theorem members_kept (hF : F.KeptBy env) (hv : Schema F (.obj es)) {s : DataSchema DSx AS OS}
    (h : Doc.IsSchemaMembers env CD CA CO K (Doc.IsSchema env CD CA CO) es s) (hf : Fine (.obj es)) :
    ∀ x, Within x s → NodeProper F x := by
  intro x hx
  cases hv with
  | mk hn hi =>
    rcases within_iff.1 hx with rfl | ⟨c, hc, hx⟩
    · exact node_kept hF h hn hf
    · obtain ⟨w, hw, hfw, hr⟩ := inside_source h (fun _ _ => isSchema_object) hf hc
      exact schema_kept hF (hi w hw) hr hfw x hx

theorem typeIs_str {T : String} (h : Doc.TypeIs T es) (hn : SchemaNode F (.obj es)) :
    (Json.obj es).member "type" = some (.str T) := by
  obtain ⟨v, e, h⟩ := h
  have hm : (Json.obj es).member "type" = some v := by rw [member_occ, e]; rfl
  obtain ⟨s, rfl, -⟩ := hn.type v hm
  rcases h with h | ⟨_, h, _⟩
  · rw [hm, h]
  · cases h

theorem uriVariable_kept {v : Json} (hv : UriVariable F v) {s : DataSchema DSx AS OS} (h : Doc.IsSchema env CD CA CO v s) :
    (∀ a, s.subtype ≠ some (.array a)) ∧ ∀ o, s.subtype ≠ some (.object o) := by
  obtain ⟨hs, h1, h2⟩ := hv
  cases hs with
  | mk hn _ =>
    obtain ⟨h⟩ := h
    cases h with
    | mk attype title titles description descriptions constant default unit oneOf enumeration readOnly writeOnly format
        subtype other =>
      constructor
      · intro a e
        rw [e] at subtype
        cases subtype with
        | array ht => exact h1 (typeIs_str ht hn)
      · intro o e
        rw [e] at subtype
        cases subtype with
        | object ht => exact h2 (typeIs_str ht hn)

end

/-! ### Forms, links and security definitions -/

section
variable {F : Formats} {env : SerdeEnv} {X : ExtTypes} {C : ExtCodecs X} {es : Members} {v : Json} {D S : String → Prop}

theorem opText_name (o : FormOperation) : Doc.opText o = o.name := by cases o <;> rfl

theorem operations_kept {ctx : FormContext} {l : List FormOperation} (h : Doc.AreOperations v l)
    (hv : OneOrMany (Str (· ∈ operations ctx)) v) : ∀ o ∈ l, o ∈ operationsOf ctx := by
  have key : ∀ {s : String} {o : FormOperation}, s ∈ operations ctx → s = Doc.opText o → o ∈ operationsOf ctx := by
    intro s o hs e
    rw [e, opText_name] at hs
    exact operations_iff.1 hs
  cases h with
  | one h =>
    intro o ho
    cases List.mem_singleton.1 ho
    rcases h with rfl | rfl
    · rcases hv with ⟨s, e, hs⟩ | ⟨_, e, -⟩
      · cases e
        exact key hs rfl
      · cases e
    · rcases hv with ⟨s, e, hs⟩ | ⟨_, e, -⟩ <;> cases e
  | many h =>
    obtain ⟨h⟩ := h
    intro o ho
    obtain ⟨w, hw, hn⟩ := pointwise_source h ho
    rcases hv with ⟨s, e, hs⟩ | ⟨_, e, hv⟩
    · cases e
    · cases e
      obtain ⟨s, rfl, hs⟩ := hv w hw
      rcases hn with e | e | e
      · cases e
        exact key hs rfl
      · cases e
      · cases e

theorem form_kept {ctx : FormContext} {f : Wot.Form X} (h : Doc.IsForm C v f) (hv : Form ctx D S v) (hf : Fine v)
    (hop : f.op ≠ .custom []) : FormProper ctx D S f := by
  obtain ⟨h⟩ := h
  rename_i es
  refine ⟨?_, ?_, ?_, ?_⟩
  · intro e hctx
    have ho := h.op
    rw [e] at ho
    cases ho with
    | default ho =>
      cases ho with
      | absent ho => exact hv.opGiven hctx (by rw [member_occ, ho]; rfl)
      | given ho h0 =>
        cases h0
        have := hv.op .null (by rw [member_occ, ho]; rfl)
        rcases this with ⟨_, e, -⟩ | ⟨_, e, -⟩ <;> cases e
  · intro l e
    refine ⟨by rintro rfl; exact hop e, ?_⟩
    have ho := h.op
    rw [e] at ho
    cases ho with
    | custom ho =>
      obtain ⟨w, -, -, hw, hi⟩ := given ho rfl hf hv.op
      exact operations_kept hi hw
  · intro l e
    obtain ⟨w, -, -, hw, hi⟩ := given h.security e hf hv.security
    exact names_kept hi hw
  · intro l r n e hr hn
    obtain ⟨w, -, hfw, hw, hi⟩ := given h.additionalResponses e hf hv.additionalResponses
    have key : ∀ w, Fine w → Additional S w → Doc.IsAdditional w r → S n := by
      intro w hfw hw hi
      cases hi with
      | object _ _ hs =>
        obtain ⟨x, -, -, ⟨s, e1, hs⟩, e2⟩ := given hs hn hfw hw.schema
        cases e1
        cases e2
        exact hs
      | array => obtain ⟨_, e⟩ := hw.object; cases e
    cases hi with
    | one hi =>
      cases List.mem_singleton.1 hr
      rcases hw with hw | ⟨l, rfl, hw⟩
      · exact key w hfw hw hi
      · cases hi with
        | array ha =>
          cases ha
          obtain ⟨_, e⟩ := (hw _ List.mem_cons_self).object
          cases e
    | many hi =>
      obtain ⟨hi⟩ := hi
      obtain ⟨x, hx, hi⟩ := pointwise_source hi hr
      rcases hw with hw | ⟨l, e, hw⟩
      · obtain ⟨_, e⟩ := hw.object; cases e
      · cases e
        exact key x (hfw.elem hx) (hw x hx) hi

theorem link_kept (hF : F.KeptBy env) {l : Wot.Link} (h : Doc.IsLink env v l) (hv : Link F v) (hf : Fine v) :
    LinkProper F l := by
  cases h with
  | object href ty rel anchor sizes hreflang =>
    refine ⟨?_, ?_⟩
    · intro hs
      cases e : l.sizes with
      | none => exact absurd e hs
      | some s =>
        obtain ⟨w, -, -, ⟨-, hr⟩, -⟩ := given sizes e hf hv.sizes
        generalize l.rel = o at rel
        cases rel with
        | absent h => rw [member_occ, h] at hr; cases hr
        | given h h0 =>
          rw [member_occ, h] at hr
          cases hr
          cases h0 with
          | value _ e => cases e; rfl
    · intro ks e k hk
      obtain ⟨w, -, -, hw, hi⟩ := given hreflang e hf hv.hreflang
      have key : ∀ w, Str F.tag w → Doc.IsTag env w k → F.tag k := by
        rintro w ⟨s, rfl, hs⟩ ⟨s', e, h⟩
        cases e
        exact hF.tag _ _ hs h
      cases hi with
      | one hi =>
        cases List.mem_singleton.1 hk
        rcases hw with hw | ⟨l, rfl, -⟩
        · exact key w hw hi
        · obtain ⟨_, e, -⟩ := hi; cases e
      | many hi =>
        obtain ⟨hi⟩ := hi
        obtain ⟨x, hx, hi⟩ := pointwise_source hi hk
        rcases hw with ⟨_, e, -⟩ | ⟨l, e, hw⟩
        · cases e
        · cases e
          exact key x (hw x hx) hi
  | array => obtain ⟨_, e⟩ := hv.object; cases e
  | short => obtain ⟨_, e⟩ := hv.object; cases e

theorem place_kept {d l : SecLocation} (hd : d ≠ .uri) (h : Doc.Else "in" d (Doc.IsNamed SecLocation.text) es l)
    (hv : May "in" (Str (· ∈ places)) (.obj es)) : l ≠ .uri := by
  cases h with
  | absent => exact hd
  | given h hi =>
    obtain ⟨s, rfl, hs⟩ := hv _ (by rw [member_occ, h]; rfl)
    rcases hi with e | e | e
    · cases e
      rintro rfl
      exact absurd hs (by decide)
    · cases e
    · cases e

theorem combo_kept {l : List String} (h : Doc.IsOneOrManyStrings v l) (hv : ArrayMin 2 (Str D) v) :
    2 ≤ l.length ∧ ∀ n ∈ l, D n := by
  obtain ⟨ws, rfl, hl, hD⟩ := hv
  cases h with
  | one h => cases h
  | many h =>
    obtain ⟨h⟩ := h
    refine ⟨?_, fun n hn => ?_⟩
    · have : ws.length = l.length := by
        clear hl hD
        induction h with
        | nil => rfl
        | cons _ _ ih => simp [ih]
      omega
    · obtain ⟨w, hw, h⟩ := pointwise_source h hn
      obtain ⟨s, e, hs⟩ := hD w hw
      cases h
      cases e
      exact hs

theorem absent_iff {A : Type} {Is : Json → A → Prop} {P : Json → Prop} {k : String} {o : Option A} (h : Doc.May k Is es o)
    (hv : May k P (.obj es)) (hP : ¬ P .null) : o = none ↔ (Json.obj es).member k = none := by
  cases h with
  | absent h => exact iff_of_true rfl (by rw [member_occ, h]; rfl)
  | @given _ w _ h h0 =>
    have hm : (Json.obj es).member k = some w := by rw [member_occ, h]; rfl
    cases h0 with
    | null => exact absurd (hv _ hm) hP
    | value => exact iff_of_false nofun (by rw [hm]; nofun)

/-- Members whose values are normalised. -/
theorem scheme_norm {n : String} {v w : Json} (h : ∀ k ∈ schemeNames, w.member k = (v.member k).map Json.norm)
    (hs : Scheme D n v) : Scheme D n w := by
  have hm : ∀ {k : String} {P : Json → Prop}, k ∈ schemeNames → (∀ x, P x → P x.norm) → May k P v → May k P w := by
    intro k P hk hP hp x hx
    rw [h k hk] at hx
    cases e : v.member k with
    | none => rw [e] at hx; cases hx
    | some y => rw [e] at hx; cases hx; exact hP y (hp y e)
  have hstr : ∀ {P : String → Prop} x, Str P x → Str P x.norm := by
    rintro P x ⟨s, rfl, hs⟩
    exact ⟨s, rfl, hs⟩
  have hmin : ∀ {n : Nat} {P : String → Prop} x, ArrayMin n (Str P) x → ArrayMin n (Str P) x.norm := by
    rintro n P x ⟨l, rfl, hl, hs⟩
    refine ⟨_, by rw [Json.norm, normList_eq], by simpa using hl, fun w hw => ?_⟩
    obtain ⟨x, hx, rfl⟩ := List.mem_map.1 hw
    exact hstr x (hs x hx)
  have hmany : ∀ {P : String → Prop} x, OneOrMany (Str P) x → OneOrMany (Str P) x.norm := by
    rintro P x (hx | ⟨l, rfl, hs⟩)
    · exact .inl (hstr x hx)
    · refine .inr ⟨_, by rw [Json.norm, normList_eq], fun w hw => ?_⟩
      obtain ⟨x, hx, rfl⟩ := List.mem_map.1 hw
      exact hstr x (hs x hx)
  have hnone : ∀ {k : String}, k ∈ schemeNames → (w.member k = none ↔ v.member k = none) := by
    intro k hk
    rw [h k hk]
    exact Option.map_eq_none_iff
  have hmust : ∀ {k : String} {P : Json → Prop}, k ∈ schemeNames → (∀ x, P x → P x.norm) → Must k P v → Must k P w := by
    rintro k P hk hP ⟨x, e, hx⟩
    exact ⟨x.norm, by rw [h k hk, e]; rfl, hP x hx⟩
  have hl : ∀ {ps : List String}, Located ps v → Located ps w :=
    fun hp => ⟨hm (by decide) hstr hp.place, hm (by decide) hstr hp.name⟩
  cases hs with
  | nosec => exact .nosec
  | auto => exact .auto
  | oneOf h1 h2 => exact .oneOf (hmust (by decide) hmin h1) ((hnone (by decide)).2 h2)
  | allOf h1 h2 => exact .allOf (hmust (by decide) hmin h1) ((hnone (by decide)).2 h2)
  | basic h1 => exact .basic (hl h1)
  | digest h1 h2 => exact .digest (hl h1) (hm (by decide) hstr h2)
  | apikey h1 => exact .apikey (hl h1)
  | bearer h1 h2 h3 h4 => exact .bearer (hl h1) (hm (by decide) hstr h2) (hm (by decide) hstr h3) (hm (by decide) hstr h4)
  | psk h1 => exact .psk (hm (by decide) hstr h1)
  | oauth2 h0 h1 h2 h3 h4 q1 q2 q3 =>
    exact .oauth2 (by rw [h _ (by decide), h0]; rfl) (hm (by decide) hstr h1) (hm (by decide) hstr h2)
      (hm (by decide) hstr h3) (hm (by decide) hmany h4) (fun q e => q1 q ((hnone (by decide)).1 e))
      (fun q e => q2 q ((hnone (by decide)).1 e)) (fun q => (hnone (by decide)).2 (q3 q))
  | other h1 => exact .other h1

theorem may_scheme {A : Type} {Is : Json → A → Prop} {k : String} {o : Option A} (hk : k ∉ "scheme" :: Names.security)
    (h : Doc.May k Is (Doc.schemeMembers es) o) : Doc.May k Is es o := by
  cases h with
  | absent h => exact .absent (by rw [← occ_scheme hk]; exact h)
  | given h h0 => exact .given (by rw [← occ_scheme hk]; exact h) h0

theorem else_scheme {A : Type} {Is : Json → A → Prop} {k : String} {d x : A} (hk : k ∉ "scheme" :: Names.security)
    (h : Doc.Else k d Is (Doc.schemeMembers es) x) : Doc.Else k d Is es x := by
  cases h with
  | absent h => exact .absent (by rw [← occ_scheme hk]; exact h)
  | given h h0 => exact .given (by rw [← occ_scheme hk]; exact h) h0

theorem predefined_kept {name : String} {k : KnownScheme} (h : Doc.IsPredefined name (Doc.schemeMembers es) k)
    (hs : Scheme D name (.obj es)) : SchemeProper D (.known k) := by
  have hnull : ¬ Text .null := by rintro ⟨_, e, -⟩; cases e
  generalize em : Doc.schemeMembers es = m at h
  cases h with
  | nosec => trivial
  | auto => trivial
  | psk => trivial
  | apikey => trivial
  | @oneOf v l h =>
    have ho : (Json.obj es).member "oneOf" = some v := by
      rw [member_occ, ← occ_scheme (by decide), em]; rfl
    generalize e0 : "combo" = name at hs
    cases hs with
    | oneOf hs _ => exact combo_kept h ((must_iff ho).1 hs)
    | allOf _ hs => rw [ho] at hs; cases hs
    | other hs => subst e0; exact absurd (by decide) hs
    | _ => exact absurd e0 (by decide)
  | @allOf v l h =>
    have ho : (Json.obj es).member "allOf" = some v := by
      rw [member_occ, ← occ_scheme (by decide), em]; rfl
    generalize e0 : "combo" = name at hs
    cases hs with
    | allOf hs _ => exact combo_kept h ((must_iff ho).1 hs)
    | oneOf _ hs => rw [ho] at hs; cases hs
    | other hs => subst e0; exact absurd (by decide) hs
    | _ => exact absurd e0 (by decide)
  | basic h1 h2 =>
    subst em
    generalize e0 : "basic" = name at hs
    cases hs with
    | basic hs => exact place_kept (by decide) (else_scheme (by decide) h1) hs.place
    | other hs => subst e0; exact absurd (by decide) hs
    | _ => exact absurd e0 (by decide)
  | digest _ h1 h2 =>
    subst em
    generalize e0 : "digest" = name at hs
    cases hs with
    | digest hs => exact place_kept (by decide) (else_scheme (by decide) h1) hs.place
    | other hs => subst e0; exact absurd (by decide) hs
    | _ => exact absurd e0 (by decide)
  | bearer _ _ _ h1 _ =>
    subst em
    generalize e0 : "bearer" = name at hs
    cases hs with
    | bearer hs => exact place_kept (by decide) (else_scheme (by decide) h1) hs.place
    | other hs => subst e0; exact absurd (by decide) hs
    | _ => exact absurd e0 (by decide)
  | oauth2 h1 h2 h3 h4 h5 =>
    subst em
    generalize e0 : "oauth2" = name at hs
    cases hs with
    | oauth2 h0 q1 q2 _ _ p1 p2 p3 =>
      have e1 := absent_iff (may_scheme (by decide) h1) q1 hnull
      have e2 := absent_iff (may_scheme (by decide) h2) q2 hnull
      obtain ⟨hf, hi⟩ := h5
      rw [occ_scheme (by decide)] at hf
      rw [member_occ, hf] at h0
      cases h0
      cases hi
      exact ⟨fun hf e => p1 hf (e2.1 e), fun hf e => p2 hf (e1.1 e), fun hf => e1.2 (p3 hf)⟩
    | other hs => subst e0; exact absurd (by decide) hs
    | _ => exact absurd e0 (by decide)

theorem security_kept (hF : F.KeptBy env) {s : SecurityScheme} (h : Doc.IsSecurity env v s) (hv : Security F D v)
    (hf : Fine v) : SchemeProper D s.subtype ∧ TagsIn F s.descriptions := by
  obtain ⟨h⟩ := h
  rename_i es
  refine ⟨?_, tags_kept hF h.descriptions hf hv.descriptions⟩
  obtain ⟨w, hw, n, rfl, hs⟩ := hv.scheme
  have hst := h.subtype
  generalize s.subtype = st at hst
  cases hst with
  | known ho hn hp =>
    rw [member_occ, ho] at hw
    cases hw
    rcases hn with e | ⟨_, e, _⟩
    · cases e
      exact predefined_kept hp hs
    · cases e
  | @custom name data ho _ hd =>
    rw [member_occ, ho] at hw
    cases hw
    show Scheme D _ data.norm
    rw [hd, norm_norm]
    refine scheme_norm (fun k hk => ?_) hs
    have hk' : k ∉ "scheme" :: Names.security := by revert k; decide
    rw [member_norm, written, occ_scheme hk', occ_get? hf.1.1]
    rfl

end

/-! ### Affordances and Things -/

section
variable {F : Formats} {env : SerdeEnv} {X : ExtTypes} {C : ExtCodecs X} {es : Members} {D S : String → Prop}

theorem map_mono {P Q : Json → Prop} {v : Json} (h : Map P v) (hq : ∀ w, P w → Q w) : Map Q v :=
  ⟨h.1, fun k w e => hq w (h.2 k w e)⟩

/-- What is needed of an affordance, if its forms are not without operations. -/
theorem interaction_kept (hF : F.KeptBy env) {K : List String} {ctx : FormContext} {i : Wot.Interaction X}
    (h : Doc.IsInteraction env C K es i) (hv : Interaction F ctx D S (.obj es)) (hf : Fine (.obj es))
    (hop : ∀ f ∈ i.forms, f.op ≠ .custom []) : InteractionProper F ctx D S i := by
  obtain ⟨w, hw, hfw, ⟨ws, rfl, hl, hp⟩, hi⟩ := mustGiven h.forms hf (must_may hv.forms)
  obtain ⟨hi⟩ := hi
  refine ⟨tags_kept hF h.titles hf hv.info.titles, tags_kept hF h.descriptions hf hv.info.descriptions, ?_, ?_, ?_⟩
  · intro e
    rw [e] at hi
    cases hi
    exact absurd hl (by decide)
  · intro f hf'
    obtain ⟨x, hx, hi⟩ := pointwise_source hi hf'
    exact form_kept hi (hp x hx) (hfw.elem hx) (hop f hf')
  · intro m e k s hs
    obtain ⟨w, -, hfw, hm, hi⟩ := given h.uriVariables e hf hv.uriVariables
    obtain ⟨x, -, hfx, hx, hi⟩ := entry hi hfw hm hs
    exact ⟨schema_kept hF hx.1 hi hfx, uriVariable_kept hx hi⟩

theorem context_norm {v : Json} (h : Context v) : Context v.norm := by
  have key : ∀ w : Json, Text w ∨ w.IsObject → Text w.norm ∨ w.norm.IsObject := by
    rintro w (⟨s, rfl, -⟩ | ⟨es, rfl⟩)
    · exact .inl ⟨s, rfl, trivial⟩
    · exact .inr ⟨_, rfl⟩
  have hl : ∀ {l : List Json}, (∀ w ∈ l, Text w ∨ w.IsObject) → ∀ w ∈ Json.normList l, Text w ∨ w.IsObject := by
    intro l h w hw
    rw [normList_eq] at hw
    obtain ⟨x, hx, rfl⟩ := List.mem_map.1 hw
    exact key x (h x hx)
  cases h with
  | single => exact .single
  | many h => exact .many (hl h)
  | both h => exact .both (hl h)

theorem form_mono {D' S' : String → Prop} (hD : ∀ n, D n → D' n) (hS : ∀ n, S n → S' n) {ctx : FormContext} {f : Wot.Form X}
    (h : FormProper ctx D S f) : FormProper ctx D' S' f :=
  ⟨h.default, h.ops, fun l e => ⟨(h.security l e).1, fun n hn => hD n ((h.security l e).2 n hn)⟩,
    fun l r n e hr hn => hS n (h.schemas l r n e hr hn)⟩

theorem interaction_mono {D' S' : String → Prop} (hD : ∀ n, D n → D' n) (hS : ∀ n, S n → S' n) {ctx : FormContext}
    {i : Wot.Interaction X} (h : InteractionProper F ctx D S i) : InteractionProper F ctx D' S' i :=
  ⟨h.titles, h.descriptions, h.present, fun f hf => form_mono hD hS (h.forms f hf), h.uriVariables⟩

theorem arrayMin_mono {D' : String → Prop} (hD : ∀ n, D n → D' n) {n : Nat} {k : String} {v : Json}
    (h : Must k (ArrayMin n (Str D)) v) : Must k (ArrayMin n (Str D')) v := by
  obtain ⟨w, e, l, rfl, hl, h⟩ := h
  refine ⟨_, e, l, rfl, hl, fun x hx => ?_⟩
  obtain ⟨s, e, hs⟩ := h x hx
  exact ⟨s, e, hD s hs⟩

theorem scheme_mono {D' : String → Prop} (hD : ∀ n, D n → D' n) {st : SchemeSubtype} (h : SchemeProper D st) :
    SchemeProper D' st := by
  revert h
  unfold SchemeProper
  split
  · exact fun h => ⟨h.1, fun n hn => hD n (h.2 n hn)⟩
  · exact fun h => ⟨h.1, fun n hn => hD n (h.2 n hn)⟩
  · exact id
  · exact id
  · exact id
  · exact id
  · intro h
    cases h with
    | nosec => exact .nosec
    | auto => exact .auto
    | oneOf h1 h2 => exact .oneOf (arrayMin_mono hD h1) h2
    | allOf h1 h2 => exact .allOf (arrayMin_mono hD h1) h2
    | basic h1 => exact .basic h1
    | digest h1 h2 => exact .digest h1 h2
    | apikey h1 => exact .apikey h1
    | bearer h1 h2 h3 h4 => exact .bearer h1 h2 h3 h4
    | psk h1 => exact .psk h1
    | oauth2 h0 h1 h2 h3 h4 q1 q2 q3 => exact .oauth2 h0 h1 h2 h3 h4 q1 q2 q3
    | other h1 => exact .other h1
  · exact id

theorem instant_kept (hF : F.KeptBy env) {k : String} {o : Option OffsetDateTime} (h : Doc.May k (Doc.IsInstant env) es o)
    (hf : Fine (.obj es)) (hv : May k (Str F.instant) (.obj es)) : ∀ d s, o = some d → env.timeFormat d = some s → F.instant s := by
  intro d s e hs
  obtain ⟨w, -, -, ⟨x, rfl, hx⟩, y, e, hy⟩ := given h e hf hv
  cases e
  exact hF.instant _ _ _ hx hy hs

theorem maySchema_kept (hF : F.KeptBy env) {k : String} {o : Option (DS X)} (h : Doc.May k (Doc.IsDS env C) es o)
    (hf : Fine (.obj es)) (hv : May k (Schema F) (.obj es)) : ∀ s, o = some s → AllProper F s := by
  intro s e
  obtain ⟨w, -, hfw, hw, hi⟩ := given h e hf hv
  exact schema_kept hF hw hi hfw

/-- A Thing that has been read from a document that conforms is proper, but for the two conditions. -/
theorem thing_kept (hF : F.KeptBy env) {d : Json} {t : Wot.Thing X} (h : Doc.IsThing env C d t) (hv : Thing F d)
    (hf : Fine d) (hver : ∀ i, t.version = some i → i.model ≠ none)
    (hop : ∀ ctx f, t.HasForm ctx f → f.op ≠ .custom []) : t.Proper F env := by
  obtain ⟨h⟩ := h
  rename_i es
  have hD : ∀ n, Defined "securityDefinitions" (.obj es) n → t.Defines n := by
    rintro n ⟨o, ho, hn⟩
    obtain ⟨w, hw, hfw, -, hi⟩ := mustGiven h.securityDefinitions hf (must_may hv.securityDefinitions)
    rw [hw] at ho
    cases ho
    exact entry_defined hi hfw.1 hn
  have hS : ∀ n, Defined "schemaDefinitions" (.obj es) n → t.Declares n := by
    rintro n ⟨o, ho, hn⟩
    have hm := h.schemaDefinitions
    generalize e : t.schemaDefinitions = x at hm
    cases hm with
    | absent hm => rw [member_occ, hm] at ho; cases ho
    | @given _ w _ hm h0 =>
      have hw : (Json.obj es).member "schemaDefinitions" = some w := by rw [member_occ, hm]; rfl
      rw [hw] at ho
      cases ho
      cases h0 with
      | null => obtain ⟨⟨_, e⟩, -⟩ := hv.schemaDefinitions _ hw; cases e
      | value _ hi => exact ⟨_, e, entry_defined hi (hf.member hw).1 hn⟩
  have hprop : ∀ m n p, t.properties = some m → (n, p) ∈ m →
      InteractionProper F .property t.Defines t.Declares p.interaction ∧ AllProper F p.dataSchema := by
    intro m n p e hp
    obtain ⟨w, -, hfw, hm, hi⟩ := given h.properties e hf hv.properties
    obtain ⟨x, -, hfx, hx, hi⟩ := entry hi hfw hm hp
    obtain ⟨hi⟩ := hi
    exact ⟨interaction_mono hD hS (interaction_kept hF hi.interaction hx.interaction hfx
      fun f hf' => hop _ f (.property e hp hf')), members_kept hF hx.schema hi.dataSchema hfx⟩
  have hact : ∀ m n a, t.actions = some m → (n, a) ∈ m → InteractionProper F .action t.Defines t.Declares a.interaction ∧
      (∀ s, a.input = some s → AllProper F s) ∧ ∀ s, a.output = some s → AllProper F s := by
    intro m n p e hp
    obtain ⟨w, -, hfw, hm, hi⟩ := given h.actions e hf hv.actions
    obtain ⟨x, -, hfx, hx, hi⟩ := entry hi hfw hm hp
    obtain ⟨hi⟩ := hi
    exact ⟨interaction_mono hD hS (interaction_kept hF hi.interaction hx.interaction hfx
      fun f hf' => hop _ f (.action e hp hf')), maySchema_kept hF hi.input hfx hx.input,
      maySchema_kept hF hi.output hfx hx.output⟩
  have hev : ∀ m n a, t.events = some m → (n, a) ∈ m → InteractionProper F .event t.Defines t.Declares a.interaction ∧
      (∀ s, a.subscription = some s → AllProper F s) ∧ (∀ s, a.data = some s → AllProper F s) ∧
      ∀ s, a.cancellation = some s → AllProper F s := by
    intro m n p e hp
    obtain ⟨w, -, hfw, hm, hi⟩ := given h.events e hf hv.events
    obtain ⟨x, -, hfx, hx, hi⟩ := entry hi hfw hm hp
    obtain ⟨hi⟩ := hi
    exact ⟨interaction_mono hD hS (interaction_kept hF hi.interaction hx.interaction hfx
      fun f hf' => hop _ f (.event e hp hf')), maySchema_kept hF hi.subscription hfx hx.subscription,
      maySchema_kept hF hi.data hfx hx.data, maySchema_kept hF hi.cancellation hfx hx.cancellation⟩
  have huri : ∀ m k s, t.uriVariables = some m → (k, s) ∈ m → UriProper F s := by
    intro m k s e hs
    obtain ⟨w, -, hfw, hm, hi⟩ := given h.uriVariables e hf hv.uriVariables
    obtain ⟨x, -, hfx, hx, hi⟩ := entry hi hfw hm hs
    exact ⟨schema_kept hF hx.1 hi hfx, uriVariable_kept hx hi⟩
  have hdef : ∀ m k s, t.schemaDefinitions = some m → (k, s) ∈ m → AllProper F s := by
    intro m k s e hs
    obtain ⟨w, -, hfw, hm, hi⟩ := given h.schemaDefinitions e hf hv.schemaDefinitions
    obtain ⟨x, -, hfx, hx, hi⟩ := entry hi hfw hm hs
    exact schema_kept hF hx hi hfx
  refine ⟨?_, tags_kept hF h.titles hf hv.info.titles, tags_kept hF h.descriptions hf hv.info.descriptions, hver,
    instant_kept hF h.created hf hv.created, instant_kept hF h.modified hf hv.modified, ?_, ?_, ?_, ?_, ?_, ?_, ?_⟩
  · obtain ⟨w, hw, hc⟩ := hv.context
    have h0 := h.context
    generalize t.context = c at h0
    cases h0 with
    | absent e => rw [member_occ, e] at hw; cases hw
    | given e hi =>
      rw [member_occ, e] at hw
      cases hw
      rw [hi, norm_norm]
      exact context_norm hc
  · intro ls l e hl
    obtain ⟨w, -, hfw, ⟨ws, rfl, hw⟩, hi⟩ := given h.links e hf hv.links
    obtain ⟨hi⟩ := hi
    obtain ⟨x, hx, hi⟩ := pointwise_source hi hl
    exact link_kept hF hi (hw x hx) (hfw.elem hx)
  · obtain ⟨w, -, -, hw, hi⟩ := mustGiven h.security hf (must_may hv.security)
    obtain ⟨h1, h2⟩ := names_kept hi hw
    exact ⟨h1, fun n hn => hD n (h2 n hn)⟩
  · intro n s hs
    obtain ⟨w, -, hfw, hm, hi⟩ := mustGiven h.securityDefinitions hf (must_may hv.securityDefinitions)
    obtain ⟨x, -, hfx, hx, hi⟩ := entry hi hfw hm hs
    obtain ⟨h1, h2⟩ := security_kept hF hi hx hfx
    exact ⟨scheme_mono hD h1, h2⟩
  · intro ctx f hf'
    cases hf' with
    | thing e hf'' =>
      obtain ⟨w, -, hfw, ⟨ws, rfl, hw⟩, hi⟩ := given h.forms e hf hv.forms
      obtain ⟨hi⟩ := hi
      obtain ⟨x, hx, hi⟩ := pointwise_source hi hf''
      exact form_mono hD hS (form_kept hi (hw x hx) (hfw.elem hx) (hop _ f (.thing e hf'')))
    | property e hp hf' => exact (hprop _ _ _ e hp).1.forms f hf'
    | action e hp hf' => exact (hact _ _ _ e hp).1.forms f hf'
    | event e hp hf' => exact (hev _ _ _ e hp).1.forms f hf'
  · intro i hi
    cases hi with
    | property e hp => have := (hprop _ _ _ e hp).1; exact ⟨this.present, this.titles, this.descriptions⟩
    | action e hp => have := (hact _ _ _ e hp).1; exact ⟨this.present, this.titles, this.descriptions⟩
    | event e hp => have := (hev _ _ _ e hp).1; exact ⟨this.present, this.titles, this.descriptions⟩
  · intro s hs
    generalize hq : Position.uriVariable = p at hs
    cases hs with
    | uriVariable e hs => exact (huri _ _ _ e hs).2
    | propertyUriVariable e hp hu hs => exact ((hprop _ _ _ e hp).1.uriVariables _ hu _ _ hs).2
    | actionUriVariable e hp hu hs => exact ((hact _ _ _ e hp).1.uriVariables _ hu _ _ hs).2
    | eventUriVariable e hp hu hs => exact ((hev _ _ _ e hp).1.uriVariables _ hu _ _ hs).2
    | _ => cases hq
  · intro p s x hq hs
    revert x
    cases hs with
    | property e hp => exact (hprop _ _ _ e hp).2
    | input e hp hs => exact (hact _ _ _ e hp).2.1 _ hs
    | output e hp hs => exact (hact _ _ _ e hp).2.2 _ hs
    | subscription e hp hs => exact (hev _ _ _ e hp).2.1 _ hs
    | data e hp hs => exact (hev _ _ _ e hp).2.2.1 _ hs
    | cancellation e hp hs => exact (hev _ _ _ e hp).2.2.2 _ hs
    | dataResponse => exact absurd rfl hq
    | uriVariable e hs => exact (huri _ _ _ e hs).1
    | propertyUriVariable e hp hu hs => exact ((hprop _ _ _ e hp).1.uriVariables _ hu _ _ hs).1
    | actionUriVariable e hp hu hs => exact ((hact _ _ _ e hp).1.uriVariables _ hu _ _ hs).1
    | eventUriVariable e hp hu hs => exact ((hev _ _ _ e hp).1.uriVariables _ hu _ _ hs).1
    | schemaDefinition e hs => exact hdef _ _ _ e hs

/-! ### From documents to Things -/

theorem taken {A : Type} {Is : Json → A → Prop} {P : Json → Prop} {k : String} {o : Option A} {w : Json}
    (h : Doc.May k Is es o) (hv : May k P (.obj es)) (hP : ¬ P .null) (hw : (Json.obj es).member k = some w) :
    ∃ x, o = some x ∧ Is w x := by
  have h0 := hv w hw
  cases h with
  | absent h => rw [member_occ, h] at hw; cases hw
  | given h ho =>
    rw [member_occ, h] at hw
    cases hw
    cases ho with
    | null => exact absurd h0 hP
    | value _ hi => exact ⟨_, rfl, hi⟩

theorem pointwise_target {A : Type} {Is : Json → A → Prop} {l : List Json} {xs : List A} (h : Pointwise Is l xs) {w : Json}
    (hw : w ∈ l) : ∃ x ∈ xs, Is w x := by
  induction h with
  | nil => cases hw
  | cons h _ ih =>
    rcases List.mem_cons.1 hw with rfl | hw
    · exact ⟨_, List.mem_cons_self, h⟩
    · obtain ⟨x, hx, h⟩ := ih hw
      exact ⟨x, List.mem_cons_of_mem _ hx, h⟩

theorem entry_target {A : Type} {Is : Json → A → Prop} {v w : Json} {k : String} {m : HMap A} (h : Doc.IsMapOf Is v m)
    (hd : v.NoDup) (hw : v.member k = some w) : ∃ x, (k, x) ∈ m ∧ Is w x := by
  obtain ⟨_, _, h⟩ := h
  have := h k
  rw [occ_get? hd.1] at this
  unfold Json.member at hw
  simp only at hw
  rw [hw] at this
  generalize e : m.get? k = y at this
  cases this with
  | some r => exact ⟨_, HMap.mem_of_get? e, r⟩

theorem map_null {P : Json → Prop} : ¬ Map P .null := by rintro ⟨⟨_, e⟩, -⟩; cases e

theorem array_null {P : Json → Prop} : ¬ Array P .null := by rintro ⟨_, e, -⟩; cases e

/-- A form has an empty list of operations if and only if the document says so. -/
theorem op_empty {ctx : FormContext} {v : Json} {f : Wot.Form X} (h : Doc.IsForm C v f) (hv : Form ctx D S v) :
    f.op = .custom [] ↔ v.member "op" = some (.arr []) := by
  obtain ⟨h⟩ := h
  rename_i es
  have ho := h.op
  constructor
  · intro e
    rw [e] at ho
    cases ho with
    | custom ho =>
      obtain ⟨w, hw, hi⟩ := may_member ho rfl
      rw [hw]
      cases hi with
      | many hi => obtain ⟨hi⟩ := hi; cases hi; rfl
  · intro e
    have hn : ¬ OneOrMany (Str (· ∈ operations ctx)) .null := by
      rintro (⟨_, e, -⟩ | ⟨_, e, -⟩) <;> cases e
    generalize f.op = op at ho
    cases ho with
    | default ho =>
      obtain ⟨_, e', -⟩ := taken ho hv.op hn e
      cases e'
    | custom ho =>
      obtain ⟨l, e', hi⟩ := taken ho hv.op hn e
      cases e'
      generalize ew : Json.arr [] = w at hi
      cases hi with
      | one hi => subst ew; rcases hi with e | e <;> cases e
      | many hi => obtain ⟨hi⟩ := hi; cases ew; cases hi; rfl

theorem forms_empty {d : Json} {t : Wot.Thing X} (h : Doc.IsThing env C d t) (hv : Thing F d) (hf : Fine d) :
    (∀ ctx f, t.HasForm ctx f → f.op ≠ .custom []) ↔ ∀ f, FormIn d f → f.member "op" ≠ some (.arr []) := by
  obtain ⟨h⟩ := h
  rename_i es
  have hi : ∀ {K : List String} {ctx : FormContext} {D S : String → Prop} {es : Members} {i : Wot.Interaction X} {f : Wot.Form X},
      Doc.IsInteraction env C K es i → Interaction F ctx D S (.obj es) → Fine (.obj es) → f ∈ i.forms →
      ∃ v, (Json.obj es).Element "forms" v ∧ Form ctx D S v ∧ Doc.IsForm C v f := by
    intro K ctx D S es i f h hv hf hfi
    obtain ⟨w, hw, -, ⟨ws, rfl, -, hp⟩, ⟨hi⟩⟩ := mustGiven h.forms hf (must_may hv.forms)
    obtain ⟨x, hx, hi⟩ := pointwise_source hi hfi
    exact ⟨x, ⟨_, hw, hx⟩, hp x hx, hi⟩
  have hj : ∀ {K : List String} {ctx : FormContext} {D S : String → Prop} {es : Members} {i : Wot.Interaction X} {v : Json},
      Doc.IsInteraction env C K es i → Interaction F ctx D S (.obj es) → Fine (.obj es) → (Json.obj es).Element "forms" v →
      ∃ f ∈ i.forms, Form ctx D S v ∧ Doc.IsForm C v f := by
    rintro K ctx D S es i v h hv hf ⟨l, hl, hvl⟩
    obtain ⟨w, hw, -, ⟨ws, rfl, -, hp⟩, ⟨hi⟩⟩ := mustGiven h.forms hf (must_may hv.forms)
    rw [hw] at hl
    cases hl
    obtain ⟨x, hx, hi⟩ := pointwise_target hi hvl
    exact ⟨x, hx, hp v hvl, hi⟩
  constructor
  · intro hop f hin
    cases hin with
    | thing hin =>
      obtain ⟨l, hl, hfl⟩ := hin
      obtain ⟨x, e, ⟨hi⟩⟩ := taken h.forms hv.forms array_null hl
      obtain ⟨y, hy, hi⟩ := pointwise_target hi hfl
      obtain ⟨l', e', hp⟩ := hv.forms _ hl
      cases e'
      exact fun e'' => hop _ y (.thing e hy) ((op_empty hi (hp f hfl)).2 e'')
    | property ha hin =>
      obtain ⟨o, n, ho, hn⟩ := ha
      obtain ⟨m, e, hm⟩ := taken h.properties hv.properties map_null ho
      obtain ⟨x, hx, ⟨hx'⟩⟩ := entry_target hm (hf.member ho).1 hn
      obtain ⟨y, hy, h1, h2⟩ := hj hx'.interaction ((hv.properties o ho).2 n _ hn).interaction ((hf.member ho).member hn) hin
      exact fun e'' => hop _ y (.property e hx hy) ((op_empty h2 h1).2 e'')
    | action ha hin =>
      obtain ⟨o, n, ho, hn⟩ := ha
      obtain ⟨m, e, hm⟩ := taken h.actions hv.actions map_null ho
      obtain ⟨x, hx, ⟨hx'⟩⟩ := entry_target hm (hf.member ho).1 hn
      obtain ⟨y, hy, h1, h2⟩ := hj hx'.interaction ((hv.actions o ho).2 n _ hn).interaction ((hf.member ho).member hn) hin
      exact fun e'' => hop _ y (.action e hx hy) ((op_empty h2 h1).2 e'')
    | event ha hin =>
      obtain ⟨o, n, ho, hn⟩ := ha
      obtain ⟨m, e, hm⟩ := taken h.events hv.events map_null ho
      obtain ⟨x, hx, ⟨hx'⟩⟩ := entry_target hm (hf.member ho).1 hn
      obtain ⟨y, hy, h1, h2⟩ := hj hx'.interaction ((hv.events o ho).2 n _ hn).interaction ((hf.member ho).member hn) hin
      exact fun e'' => hop _ y (.event e hx hy) ((op_empty h2 h1).2 e'')
  · intro hop ctx f hin
    cases hin with
    | thing e hf' =>
      obtain ⟨w, hw, -, ⟨ws, rfl, hp⟩, ⟨hi⟩⟩ := given h.forms e hf hv.forms
      obtain ⟨x, hx, hi⟩ := pointwise_source hi hf'
      exact fun e' => hop x (.thing ⟨_, hw, hx⟩) ((op_empty hi (hp x hx)).1 e')
    | property e hp hf' =>
      obtain ⟨w, hw, hfw, hm, hi'⟩ := given h.properties e hf hv.properties
      obtain ⟨x, hx, hfx, hc, ⟨hi'⟩⟩ := entry hi' hfw hm hp
      obtain ⟨v, h1, h2, h3⟩ := hi hi'.interaction hc.interaction hfx hf'
      exact fun e' => hop v (.property ⟨_, _, hw, hx⟩ h1) ((op_empty h3 h2).1 e')
    | action e hp hf' =>
      obtain ⟨w, hw, hfw, hm, hi'⟩ := given h.actions e hf hv.actions
      obtain ⟨x, hx, hfx, hc, ⟨hi'⟩⟩ := entry hi' hfw hm hp
      obtain ⟨v, h1, h2, h3⟩ := hi hi'.interaction hc.interaction hfx hf'
      exact fun e' => hop v (.action ⟨_, _, hw, hx⟩ h1) ((op_empty h3 h2).1 e')
    | event e hp hf' =>
      obtain ⟨w, hw, hfw, hm, hi'⟩ := given h.events e hf hv.events
      obtain ⟨x, hx, hfx, hc, ⟨hi'⟩⟩ := entry hi' hfw hm hp
      obtain ⟨v, h1, h2, h3⟩ := hi hi'.interaction hc.interaction hfx hf'
      exact fun e' => hop v (.event ⟨_, _, hw, hx⟩ h1) ((op_empty h3 h2).1 e')

theorem version_model {d : Json} {t : Wot.Thing X} (h : Doc.IsThing env C d t) (hv : Thing F d) (hf : Fine d) :
    (∀ i, t.version = some i → i.model ≠ none) ↔ ∀ w, d.member "version" = some w → w.member "model" ≠ none := by
  obtain ⟨h⟩ := h
  rename_i es
  have hnull : ¬ Text .null := by rintro ⟨_, e, -⟩; cases e
  have key : ∀ {w : Json} {i : VersionInfo}, Version w → Doc.IsVersion w i → (i.model = none ↔ w.member "model" = none) := by
    rintro w i ⟨⟨es, rfl⟩, -, hm⟩ hi
    cases hi with
    | object _ h => exact absent_iff h hm hnull
  constructor
  · intro hi w hw
    obtain ⟨i, e, h'⟩ := taken h.version hv.version (by rintro ⟨⟨_, e⟩, -⟩; cases e) hw
    exact fun e' => hi i e ((key (hv.version w hw) h').2 e')
  · intro hw i e
    obtain ⟨w, h1, -, h2, h3⟩ := given h.version e hf hv.version
    exact fun e' => hw w h1 ((key h2 h3).1 e')

end
end Conform
end Wot
