import Verif.Lemmas.Convert
import Verif.Spec.Phases
/-
The parts of `build`, characterised one by one.
-/
namespace Wot

variable {X : ExtTypes}

theorem nonEmpty_eq {α : Type} (l : List α) : nonEmpty l = if l = [] then none else some l := by
  cases l <;> simp [nonEmpty]

/-! ### Security definitions -/

theorem outcome_scheme (env : Env) (s : UncheckedSecurityScheme) :
    Outcome (s.tryInto env) (LangViolation env (KeyOf s.descriptions)) (schemeResult env s) :=
  (outcome_buildLang env s.descriptions).map _

/-- `n` would be inserted twice. -/
def DupIn {A : Type} (keys : List String) (l : List (String × A)) (n : String) : Prop :=
  (n ∈ keys ∧ n ∈ l.map (·.1)) ∨ Twice (l.map (·.1)) n

theorem dupIn_nil_left {A : Type} {l : List (String × A)} {n : String} :
    DupIn [] l n ↔ Twice (l.map (·.1)) n := by simp [DupIn]

theorem dupIn_nil_right {A : Type} {ks : List String} {n : String} :
    ¬ DupIn ks ([] : List (String × A)) n := by simp [DupIn, Twice]

theorem keys_insert_mem {V : Type} (m : HMap V) (k n : String) (v : V) :
    n ∈ (m.insert k v).keys ↔ n = k ∨ n ∈ m.keys := by
  rw [← HMap.contains_iff, HMap.contains_insert, ← HMap.contains_iff]
  by_cases h : n = k <;> simp [h]

theorem dupIn_cons {A V : Type} {acc : HMap V} {k : String} {a : A} {v : V} {l : List (String × A)}
    (hk : k ∉ acc.keys) (n : String) :
    DupIn (acc.insert k v).keys l n ↔ DupIn acc.keys ((k, a) :: l) n := by
  simp only [DupIn, Twice, keys_insert_mem, List.map_cons, List.count_cons, List.mem_cons]
  by_cases hn : n = k
  · subst hn
    simp only [true_or, true_and, hk, false_and, false_or, beq_self_eq_true, if_true]
    constructor
    · rintro (h | h)
      · have := List.count_pos_iff.2 h; omega
      · omega
    · intro h
      exact .inl (List.count_pos_iff.1 (by omega))
  · have : (k == n) = false := by simpa using fun h => hn h.symm
    simp [hn, this]

theorem outcome_buildSecDefs (env : Env) (l : List (String × UncheckedSecurityScheme)) :
    ∀ acc : HMap SecurityScheme, Outcome (buildSecDefs env acc l)
      (fun e => (∃ kv ∈ l, LangViolation env (KeyOf kv.2.descriptions) e) ∨
        ∃ n, e = .duplicatedSecurityDefinition n ∧ DupIn acc.keys l n)
      ((l.map fun kv => (kv.1, schemeResult env kv.2)).foldl (fun m kv => m.insert kv.1 kv.2) acc) := by
  induction l with
  | nil =>
    intro acc
    exact ⟨rfl, by simp [dupIn_nil_right]⟩
  | cons kv l ih =>
    intro acc
    obtain ⟨name, s⟩ := kv
    rw [buildSecDefs]
    rcases (outcome_scheme env s).ok_or with ⟨h1, h2⟩ | ⟨e, h1, h2⟩
    · rw [h1]
      show Outcome (if acc.contains name then _ else _) _ _
      by_cases hc : acc.contains name = true
      · rw [if_pos hc]
        refine Or.inr ⟨name, rfl, .inl ⟨(HMap.contains_iff _ _).1 hc, by simp⟩⟩
      · rw [if_neg hc]
        have hk : name ∉ acc.keys := fun h => hc ((HMap.contains_iff _ _).2 h)
        refine (ih (acc.insert name (schemeResult env s))).congrV fun e => ?_
        constructor
        · rintro (⟨kv, hkv, hv⟩ | ⟨n, he, hd⟩)
          · exact .inl ⟨kv, by simp [hkv], hv⟩
          · exact .inr ⟨n, he, (dupIn_cons hk n).1 hd⟩
        · rintro (⟨kv, hkv, hv⟩ | ⟨n, he, hd⟩)
          · rcases List.mem_cons.1 hkv with rfl | hkv
            · exact (h2 e hv).elim
            · exact .inl ⟨kv, hkv, hv⟩
          · exact .inr ⟨n, he, (dupIn_cons hk n).2 hd⟩
    · rw [h1]
      exact Or.inl ⟨(name, s), by simp, h2⟩

theorem not_twice_iff (l : List String) : (∀ n, ¬ Twice l n) ↔ l.Nodup := by
  rw [List.nodup_iff_count]
  constructor
  · intro h n; have := h n; unfold Twice at this; omega
  · intro h n ht; have := h n; unfold Twice at ht; omega

/-- The security definitions as `build` makes them. -/
theorem outcome_secDefs (env : Env) (l : List (String × UncheckedSecurityScheme)) :
    Outcome (buildSecDefs env [] l)
      (fun e => (∃ kv ∈ l, LangViolation env (KeyOf kv.2.descriptions) e) ∨
        ∃ n, e = .duplicatedSecurityDefinition n ∧ Twice (l.map (·.1)) n)
      (HMap.collect (l.map fun kv => (kv.1, schemeResult env kv.2))) := by
  refine (outcome_buildSecDefs env l []).congrV fun e => ?_
  simp only [HMap.keys, List.map_nil, dupIn_nil_left]

theorem contains_collect {A T : Type} (f : A → T) (l : List (String × A)) (n : String) :
    (HMap.collect (l.map fun kv => (kv.1, f kv.2))).contains n = true ↔ n ∈ l.map (·.1) := by
  rw [HMap.contains_iff, HMap.mem_keys_collect, List.map_map]
  rfl

theorem mem_collect {A T : Type} (f : A → T) {l : List (String × A)} (hn : (l.map (·.1)).Nodup)
    (k : String) (t : T) :
    (k, t) ∈ HMap.collect (l.map fun kv => (kv.1, f kv.2)) ↔ ∃ a, (k, a) ∈ l ∧ t = f a := by
  have hs := HMap.collect_sorted (l.map fun kv => (kv.1, f kv.2))
  have hn' : ((l.map fun kv => (kv.1, f kv.2)).map (·.1)).Nodup := by
    rw [List.map_map]; exact hn
  rw [← HMap.get?_eq_some_iff hs.nodup, HMap.collect_get?_nodup hn', HMap.get?_eq_some_iff hn']
  simp only [List.mem_map, Prod.mk.injEq, Prod.exists]
  constructor
  · rintro ⟨k', a, h, rfl, rfl⟩; exact ⟨a, h, rfl⟩
  · rintro ⟨a, h, rfl⟩; exact ⟨k, a, h, rfl, rfl⟩

theorem mem_comboNames {s : SchemeSubtype} {n : String} : n ∈ s.comboNames ↔ s.References n := by
  unfold SchemeSubtype.comboNames SchemeSubtype.References
  split <;> simp_all

theorem outcome_checkCombos (env : Env) (b : ThingBuilder X)
    (hn : (b.securityDefinitions.map (·.1)).Nodup) :
    Outcome (checkCombos env
        (HMap.collect (b.securityDefinitions.map fun kv => (kv.1, schemeResult env kv.2))))
      (fun e => ∃ n, b.ComboReference n ∧ ¬ b.Defined n ∧ e = .missingSchemaDefinition n) () := by
  refine (Outcome.tryForEach fun n _ => Outcome.ite').congrV fun e => ?_
  simp only [contains_collect, List.mem_flatMap, mem_comboNames]
  constructor
  · rintro ⟨n, ⟨kv, hkv, hr⟩, hd, he⟩
    obtain ⟨k, s⟩ := kv
    obtain ⟨a, ha, rfl⟩ := (mem_collect _ hn k s).1 ((Env.mem_iter env _ _).1 hkv)
    exact ⟨n, ⟨k, a, ha, hr⟩, hd, he⟩
  · rintro ⟨n, ⟨k, s, hs, hr⟩, hd, he⟩
    exact ⟨n, ⟨(k, schemeResult env s), (Env.mem_iter env _ _).2 ((mem_collect _ hn k _).2 ⟨s, hs, rfl⟩),
      hr⟩, hd, he⟩

/-! ### Forms -/

theorem toForm_eq (f : FormBuilder X) : f.toForm = f.result := by
  simp [FormBuilder.toForm, FormBuilder.result, nonEmpty_eq]

theorem toForm_eq' : (FormBuilder.toForm : FormBuilder X → Form X) = FormBuilder.result :=
  funext toForm_eq

theorem outcome_checkSecurityNames {V : Type} {secDefs : HMap V} {D : String → Prop}
    (hd : ∀ n, secDefs.contains n = true ↔ D n) (f : FormBuilder X) :
    Outcome (checkSecurityNames secDefs f.security)
      (fun e => ∃ n, f.UsesSecurity n ∧ ¬ D n ∧ e = .undefinedSecurity n) () := by
  unfold checkSecurityNames
  cases h : f.security with
  | none => exact ⟨rfl, by simp [FormBuilderF.UsesSecurity, h]⟩
  | some names =>
    refine (Outcome.tryForEach fun n _ => Outcome.ite').congrV fun e => ?_
    simp [FormBuilderF.UsesSecurity, h, hd]

theorem outcome_checkOps {ctx : FormContext} {allowed : FormOperation → Bool}
    (ha : ∀ o, allowed o = true ↔ o ∈ operationsOf ctx) (ops : List FormOperation) :
    Outcome (checkOps ctx allowed ops)
      (fun e => ∃ o ∈ ops, o ∉ operationsOf ctx ∧ e = .invalidOpInForm ctx o) () := by
  unfold checkOps
  cases h : ops.find? (fun o => !allowed o) with
  | some o =>
    have h1 := List.find?_some h
    have h2 := List.mem_of_find?_eq_some h
    refine ⟨o, h2, fun ho => ?_, rfl⟩
    rw [(ha o).2 ho] at h1
    simp at h1
  | none =>
    refine ⟨rfl, ?_⟩
    rintro e ⟨o, ho, hna, _⟩
    have := List.find?_eq_none.1 h o ho
    simp only [Bool.not_eq_true', Bool.not_eq_false] at this
    exact hna ((ha o).1 this)

theorem isThingOp_iff (o : FormOperation) : isThingOp o = true ↔ o ∈ operationsOf .thing := by
  cases o <;> decide
theorem isPropertyOp_iff (o : FormOperation) : isPropertyOp o = true ↔ o ∈ operationsOf .property := by
  cases o <;> decide
theorem isActionOp_iff (o : FormOperation) : isActionOp o = true ↔ o ∈ operationsOf .action := by
  cases o <;> decide
theorem isEventOp_iff (o : FormOperation) : isEventOp o = true ↔ o ∈ operationsOf .event := by
  cases o <;> decide

theorem outcome_buildThingForm {V W : Type} {secDefs : HMap V} {schemaDefs : HMap W}
    {Def Dec : String → Prop} (hd : ∀ n, secDefs.contains n = true ↔ Def n)
    (hs : ∀ n, schemaDefs.contains n = true ↔ Dec n) (f : FormBuilder X) :
    Outcome (buildThingForm secDefs schemaDefs f) (ThingFormViolation Def Dec f) f.result := by
  have h2 : Outcome (checkThingOps f.op)
      (fun e => (f.op = .default ∧ e = .missingOpInForm) ∨
        ∃ o, f.HasOp o ∧ o ∉ operationsOf .thing ∧ e = .invalidOpInForm .thing o) () := by
    unfold checkThingOps
    cases h : f.op with
    | default => exact Or.inl ⟨rfl, rfl⟩
    | custom ops =>
      refine (outcome_checkOps isThingOp_iff ops).congrV fun e => ?_
      simp [FormBuilderF.HasOp, h]
  have h3 : Outcome (checkResponses schemaDefs f.additionalResponses)
      (fun e => ∃ n, f.UsesSchema n ∧ ¬ Dec n ∧ e = .missingSchemaDefinition n) () := by
    refine (Outcome.tryForEach fun n _ => Outcome.ite').congrV fun e => ?_
    simp only [hs, List.mem_filterMap, FormBuilderF.UsesSchema]
  unfold buildThingForm
  rw [← toForm_eq]
  refine ((outcome_checkSecurityNames hd f).bind fun _ => h2.bind fun _ => h3.map _).congrV fun e => ?_
  simp only [ThingFormViolation, or_assoc]

theorem outcome_checkFormBuilders {V : Type} {secDefs : HMap V} {Def : String → Prop}
    (hd : ∀ n, secDefs.contains n = true ↔ Def n) {ty : AffordanceType}
    {allowed : FormOperation → Bool} (ha : ∀ o, allowed o = true ↔ o ∈ operationsOf ty.toContext)
    (fs : List (FormBuilder X)) :
    Outcome (checkFormBuilders secDefs ty allowed fs)
      (fun e => ∃ f ∈ fs, AffFormViolation Def ty f e) () := by
  refine Outcome.tryForEach fun f _ => ?_
  have h1 : Outcome (checkAffordanceOps ty.toContext allowed f.op)
      (fun e => ∃ o, f.HasOp o ∧ o ∉ operationsOf ty.toContext ∧ e = .invalidOpInForm ty.toContext o)
      () := by
    unfold checkAffordanceOps
    cases h : f.op with
    | default => exact ⟨rfl, by simp [FormBuilderF.HasOp, h]⟩
    | custom ops =>
      refine (outcome_checkOps ha ops).congrV fun e => ?_
      simp [FormBuilderF.HasOp, h]
  exact h1.bind fun _ => outcome_checkSecurityNames hd f

/-! ### Schemas -/

section
variable {L D A O : Type}

theorem not_violation_iff (x : Schema L D A O) : (∀ e, ¬ SchemaViolation x e) ↔ SchemaRule x := by
  have h0 : (∀ e, ¬ SchemaViolation x e) ↔ ¬ BadBounds x ∧ ¬ NanBound x ∧ ¬ BadMultipleOf x := by
    constructor
    · intro h
      exact ⟨fun hb => h .invalidMinMax (.inl ⟨rfl, hb⟩), fun hb => h .nanMinMax (.inr (.inl ⟨rfl, hb⟩)),
        fun hb => h .invalidMultipleOf (.inr (.inr ⟨rfl, hb⟩))⟩
    · rintro ⟨h1, h2, h3⟩ e (⟨_, h⟩ | ⟨_, h⟩ | ⟨_, h⟩)
      · exact h1 h
      · exact h2 h
      · exact h3 h
  rw [h0]
  unfold SchemaRule BadBounds NanBound BadMultipleOf
  cases hs : x.subtype with
  | none => simp
  | some st =>
    cases st with
    | array a => simp
    | integer n => simp
    | number n =>
      simp only [Option.some.injEq, reduceCtorEq, false_and, exists_false, false_or,
        SubtypeF.number.injEq]
      constructor
      · rintro ⟨h1, h2, h3⟩
        have a1 : ∀ lo, n.minimum = some lo → lo.bound.isNan = false := by
          intro lo hlo
          cases hb : lo.bound.isNan with
          | false => rfl
          | true => exact (h2 ⟨n, rfl, .inl ⟨lo, hlo, hb⟩⟩).elim
        have a2 : ∀ lo, n.maximum = some lo → lo.bound.isNan = false := by
          intro lo hlo
          cases hb : lo.bound.isNan with
          | false => rfl
          | true => exact (h2 ⟨n, rfl, .inr ⟨lo, hlo, hb⟩⟩).elim
        refine ⟨a1, a2, fun lo hi hlo hhi => ?_, fun y hy hle => h3 ⟨n, y, rfl, hy, hle⟩⟩
        exact Classical.byContradiction fun hc =>
          h1 ⟨n, lo, hi, rfl, hlo, hhi, a1 lo hlo, a2 hi hhi, hc⟩
      · rintro ⟨h1, h2, h3, h4⟩
        refine ⟨?_, ?_, ?_⟩
        · rintro ⟨_, lo, hi, rfl, hlo, hhi, _, _, hn⟩
          exact hn (h3 lo hi hlo hhi)
        · rintro ⟨_, rfl, ⟨lo, hlo, hb⟩ | ⟨hi, hhi, hb⟩⟩
          · rw [h1 lo hlo] at hb; simp at hb
          · rw [h2 hi hhi] at hb; simp at hb
        · rintro ⟨_, y, rfl, hy, hle⟩
          exact h4 y hy hle
    | object o => simp
    | string s => simp
    | boolean => simp
    | null => simp

theorem checkLocal_error {x : Schema L D A O} {e : Error} (h : checkLocal x.subtype = .error e) :
    SchemaViolation x e := by
  cases hs : x.subtype with
  | none => simp [hs, checkLocal] at h
  | some st =>
    rw [hs] at h
    cases st with
    | array a =>
      simp only [checkLocal] at h
      split at h
      · rename_i hb
        simp only [Except.error.injEq] at h
        refine .inl ⟨h.symm, .inl ⟨a, hs, fun hr => ?_⟩⟩
        have := (localPass_iff x).2 (by unfold SchemaRule; rw [hs]; exact hr)
        simp [LocalPass, hs, checkLocal, hb] at this
      · simp at h
    | integer n =>
      simp only [checkLocal] at h
      split at h
      · rename_i hb
        simp only [Except.error.injEq] at h
        refine .inl ⟨h.symm, .inr (.inl ⟨n, hs, fun hr => ?_⟩)⟩
        have := (localPass_iff x).2 (by unfold SchemaRule; rw [hs]; exact hr)
        simp [LocalPass, hs, checkLocal, hb] at this
      · simp at h
    | number n =>
      simp only [checkLocal] at h
      by_cases h1 : (n.minimum.map Minimum.isNan).getD false = true
      · simp only [h1, if_true, Except.error.injEq] at h
        cases hm : n.minimum with
        | none => simp [hm] at h1
        | some lo =>
          simp only [hm, Option.map, Option.getD, isNan_min] at h1
          exact .inr (.inl ⟨h.symm, n, hs, .inl ⟨lo, hm, h1⟩⟩)
      rw [if_neg h1] at h
      by_cases h2 : (n.maximum.map Maximum.isNan).getD false = true
      · simp only [h2, if_true, Except.error.injEq] at h
        cases hm : n.maximum with
        | none => simp [hm] at h2
        | some lo =>
          simp only [hm, Option.map, Option.getD, isNan_max] at h2
          exact .inr (.inl ⟨h.symm, n, hs, .inr ⟨lo, hm, h2⟩⟩)
      rw [if_neg h2] at h
      by_cases h3 : badRange Minimum.cmpMax n.minimum n.maximum = true
      · simp only [h3, if_true, Except.error.injEq] at h
        cases hm : n.minimum with
        | none => simp [hm, badRange] at h3
        | some lo =>
          cases hM : n.maximum with
          | none => simp [hm, hM, badRange] at h3
          | some hi =>
            refine .inl ⟨h.symm, .inr (.inr ⟨n, lo, hi, hs, hm, hM, ?_, ?_, ?_⟩)⟩
            · simpa [hm, isNan_min] using h1
            · simpa [hM, isNan_max] using h2
            · intro hc
              have := (noneOrGreater_cmpMax lo hi).2 ⟨hc.1, (noneOrGreater_f64 _ _).2 hc.2⟩
              simp [hm, hM, badRange, this] at h3
      rw [if_neg h3] at h
      by_cases h4 : (n.multipleOf.map F64.leZero).getD false = true
      · simp only [h4, if_true, Except.error.injEq] at h
        cases hm : n.multipleOf with
        | none => simp [hm] at h4
        | some y =>
          refine .inr (.inr ⟨h.symm, n, y, hs, hm, ?_⟩)
          simp only [hm, Option.map, Option.getD] at h4
          exact Classical.byContradiction fun hc => by
            rw [(leZero_eq_false y).2 hc] at h4; simp at h4
      · simp [h4] at h
    | object o => simp [checkLocal] at h
    | string s => simp [checkLocal] at h
    | boolean => simp [checkLocal] at h
    | null => simp [checkLocal] at h

theorem outcome_check (env : Env) (s : Schema L D A O) :
    Outcome (s.check env) (fun e => ∃ x, Within x s ∧ SchemaViolation x e) () := by
  cases h : s.check env with
  | ok u =>
    refine ⟨rfl, ?_⟩
    rintro e ⟨x, hx, hv⟩
    exact (not_violation_iff x).2 ((check_ok_iff_rules env s).1 h x hx) e hv
  | error e =>
    obtain ⟨x, hx, he⟩ := check_error env s h
    exact ⟨x, hx, checkLocal_error he⟩

end

theorem partial_check {I O : Type} (env : Env)
    (p : PropertyBuilderF X (PartialDataSchema X.dataSchema X.arraySchema X.objectSchema) I O) :
    p.dataSchema.check env = p.schema.check env := by
  rw [check_eq]
  unfold PartialDataSchema.check
  simp only [PropertyBuilderF.schema, Schema.subtype, Schema.oneOf]
  cases checkSubtype env p.dataSchema.subtype <;> rfl

theorem outcome_checkPartial {I O : Type} (env : Env)
    (p : PropertyBuilderF X (PartialDataSchema X.dataSchema X.arraySchema X.objectSchema) I O) :
    Outcome (p.dataSchema.check env) (fun e => ∃ x, Within x p.schema ∧ SchemaViolation x e) () := by
  rw [partial_check]
  exact outcome_check env _

theorem outcome_checkSchemas (env : Env) (l : List (Option (UDS X))) :
    Outcome (checkSchemas env l) (fun e => ∃ s x, some s ∈ l ∧ Within x s ∧ SchemaViolation x e) () := by
  refine (Outcome.tryForEach fun s _ => outcome_check env s).congrV fun e => ?_
  simp only [List.mem_filterMap, id]
  constructor
  · rintro ⟨s, ⟨o, ho, rfl⟩, x, hx, hv⟩; exact ⟨s, x, ho, hx, hv⟩
  · rintro ⟨s, x, hs, hx, hv⟩; exact ⟨s, ⟨_, hs, rfl⟩, x, hx, hv⟩

theorem isArrayOrObject_iff {L D A O : Type} (s : Schema L D A O) :
    isArrayOrObject s.subtype = true ↔ s.ArrayOrObject := by
  unfold Schema.ArrayOrObject isArrayOrObject
  split <;> simp_all

theorem uriVars_iff (env : Env) (m : HMap (UDS X)) :
    uriVarsContainArraysObjects env m = true ↔ ∃ kv ∈ m, kv.2.ArrayOrObject := by
  unfold uriVarsContainArraysObjects
  rw [List.any_eq_true]
  constructor
  · rintro ⟨kv, hkv, h⟩; exact ⟨kv, (Env.mem_iter env _ _).1 hkv, (isArrayOrObject_iff _).1 h⟩
  · rintro ⟨kv, hkv, h⟩; exact ⟨kv, (Env.mem_iter env _ _).2 hkv, (isArrayOrObject_iff _).2 h⟩

theorem outcome_checkUriVariables (env : Env) (o : Option (HMap (UDS X))) :
    Outcome (checkUriVariables env o)
      (fun e => e = .invalidUriVariables ∧ ∃ m, o = some m ∧ ∃ kv ∈ m, kv.2.ArrayOrObject) () := by
  refine Outcome.ite.congrV fun e => ?_
  cases o with
  | none => simp
  | some m => simp [uriVars_iff, and_comm]

/-- The conversion of an optional map of schemas. -/
theorem outcome_tryIntoMap (env : Env) (o : Option (HMap (UDS X)))
    (hs : ∀ m, o = some m → HMap.Sorted m ∧ ∀ kv ∈ m, SchemaRep kv.2) :
    Outcome (tryIntoMap env o)
      (fun e => ∃ m, o = some m ∧ ∃ kv ∈ m, LangViolation env (SchemaKey kv.2) e)
      (o.map (HMap.mapVals (Schema.mapLang (langResult env)))) :=
  Outcome.tryOpt fun m hm => outcome_tryMapVals (Vi := fun s => LangViolation env (SchemaKey s)) env (hs m hm).1
    fun kv hkv => outcome_tryInto env kv.2 ((hs m hm).2 kv hkv)

theorem outcome_tryIntoNonEmpty (env : Env) (m : HMap (UDS X)) (hs : HMap.Sorted m)
    (hr : ∀ kv ∈ m, SchemaRep kv.2) :
    Outcome (tryIntoMap env (nonEmpty m))
      (fun e => ∃ kv ∈ m, LangViolation env (SchemaKey kv.2) e)
      (if m = [] then none else some (HMap.mapVals (Schema.mapLang (langResult env)) m)) := by
  refine (outcome_tryIntoMap env (nonEmpty m) ?_).congr (fun e => ?_) fun _ => ?_
  · intro m' hm'
    obtain ⟨rfl, _⟩ := nonEmpty_eq_some.1 hm'
    exact ⟨hs, hr⟩
  · constructor
    · rintro ⟨m', hm', h⟩
      obtain ⟨rfl, _⟩ := nonEmpty_eq_some.1 hm'
      exact h
    · rintro ⟨kv, hkv, h⟩
      refine ⟨m, nonEmpty_eq_some.2 ⟨rfl, ?_⟩, kv, hkv, h⟩
      rintro rfl; simp at hkv
  · rw [nonEmpty_eq]; split <;> rfl

theorem outcome_tryIntoOpt (env : Env) (o : Option (UDS X)) (hr : ∀ s, o = some s → SchemaRep s) :
    Outcome (tryOpt (Schema.tryInto env) o)
      (fun e => ∃ s, o = some s ∧ LangViolation env (SchemaKey s) e)
      (o.map (Schema.mapLang (langResult env))) :=
  Outcome.tryOpt fun s hs => outcome_tryInto env s (hr s hs)

/-! ### Affordances -/

theorem outcome_interactionCheck {V : Type} (env : Env) {secDefs : HMap V} {Def : String → Prop}
    (hd : ∀ n, secDefs.contains n = true ↔ Def n) {ty : AffordanceType}
    {allowed : FormOperation → Bool} (ha : ∀ o, allowed o = true ↔ o ∈ operationsOf ty.toContext)
    (i : PartialInteraction X X.interaction) :
    Outcome (i.check env secDefs ty allowed)
      (fun e => (∃ f ∈ i.forms, AffFormViolation Def ty f e) ∨
        ((∃ kv ∈ i.uriVariables, kv.2.ArrayOrObject) ∧ e = .invalidUriVariables)) () := by
  refine ((outcome_checkFormBuilders hd ha i.forms).bind fun _ => Outcome.ite).congrV fun e => ?_
  rw [uriVars_iff]

theorem outcome_interaction (env : Env) (b : InteractionBuilder X X.interaction)
    (hs : HMap.Sorted b.part.uriVariables) (hr : ∀ kv ∈ b.part.uriVariables, SchemaRep kv.2) :
    Outcome (b.tryInto env) (LangViolation env (InteractionKey b.info b.part))
      (interactionResult env b.info b.part) := by
  unfold InteractionBuilder.tryInto
  refine ((outcome_buildLang env b.info.titles).bind fun _ =>
    (outcome_buildLang env b.info.descriptions).bind fun _ =>
    (outcome_tryIntoNonEmpty env b.part.uriVariables hs hr).map _).congr (fun e => ?_) fun _ => ?_
  · unfold LangViolation InteractionKey
    constructor
    · rintro (⟨k, h, h'⟩ | ⟨k, h, h'⟩ | ⟨kv, hkv, k, h, h'⟩)
      · exact ⟨k, .inl h, h'⟩
      · exact ⟨k, .inr (.inl h), h'⟩
      · exact ⟨k, .inr (.inr ⟨kv, hkv, h⟩), h'⟩
    · rintro ⟨k, h | h | ⟨kv, hkv, h⟩, h'⟩
      · exact .inl ⟨k, h, h'⟩
      · exact .inr (.inl ⟨k, h, h'⟩)
      · exact .inr (.inr ⟨kv, hkv, k, h, h'⟩)
  · simp [interactionResult, toForm_eq']

theorem outcome_property (env : Env) (p : PropertyBuilder X)
    (hs : HMap.Sorted p.interaction.uriVariables)
    (hr : ∀ kv ∈ p.interaction.uriVariables, SchemaRep kv.2) (hsch : SchemaRep p.schema) :
    Outcome (PropertyBuilder.build env p) (LangViolation env (PropertyKey p)) (p.result env) := by
  obtain ⟨⟨_, _, hm⟩, hr1, hr2⟩ := schemaRep_iff.1 hsch
  have ho : Outcome (tryOpt (tryMap (Schema.tryInto env)) p.dataSchema.oneOf)
      (fun e => ∃ l, p.dataSchema.oneOf = some l ∧ ∃ c ∈ l, LangViolation env (SchemaKey c) e)
      (p.dataSchema.oneOf.map (List.map (Schema.mapLang (langResult env)))) :=
    Outcome.tryOpt fun l hl => Outcome.tryMap fun c hc => outcome_tryInto env c (hr1 l hl c hc)
  have hst : Outcome (tryOpt (subtypeTryInto env) p.dataSchema.subtype)
      (fun e => ∃ st, p.dataSchema.subtype = some st ∧ ∃ c ∈ st.children,
        LangViolation env (SchemaKey c) e)
      (p.dataSchema.subtype.map (SubtypeF.map (Schema.mapLang (langResult env)))) :=
    Outcome.tryOpt fun st hst => outcome_tryIntoSub env st
      (fun c hc => outcome_tryInto env c (hr2 st hst c hc))
      (fun o m h1 h2 => hm o m (by rw [← h1]; exact hst) h2)
  unfold PropertyBuilder.build
  refine ((outcome_buildLang env p.info.titles).bind fun _ =>
    (outcome_buildLang env p.info.descriptions).bind fun _ =>
    (outcome_tryIntoNonEmpty env p.interaction.uriVariables hs hr).bind fun _ =>
    ho.bind fun _ => hst.map _).congr (fun e => ?_) fun _ => ?_
  · unfold LangViolation PropertyKey
    constructor
    · rintro (⟨k, h, h'⟩ | ⟨k, h, h'⟩ | ⟨kv, hkv, k, h, h'⟩ | ⟨l, hl, c, hc, k, h, h'⟩ |
        ⟨st, hst, c, hc, k, h, h'⟩)
      · exact ⟨k, .inl (schemaKey_iff.2 (.inl h)), h'⟩
      · exact ⟨k, .inl (schemaKey_iff.2 (.inr (.inl h))), h'⟩
      · exact ⟨k, .inr ⟨kv, hkv, h⟩, h'⟩
      · exact ⟨k, .inl (schemaKey_iff.2 (.inr (.inr (.inl ⟨l, hl, c, hc, h⟩)))), h'⟩
      · exact ⟨k, .inl (schemaKey_iff.2 (.inr (.inr (.inr ⟨st, hst, c, hc, h⟩)))), h'⟩
    · rintro ⟨k, h | ⟨kv, hkv, h⟩, h'⟩
      · rcases schemaKey_iff.1 h with h | h | ⟨l, hl, c, hc, h⟩ | ⟨st, hst, c, hc, h⟩
        · exact .inl ⟨k, h, h'⟩
        · exact .inr (.inl ⟨k, h, h'⟩)
        · exact .inr (.inr (.inr (.inl ⟨l, hl, c, hc, k, h, h'⟩)))
        · exact .inr (.inr (.inr (.inr ⟨st, hst, c, hc, k, h, h'⟩)))
      · exact .inr (.inr (.inl ⟨kv, hkv, k, h, h'⟩))
  · simp only [PropertyBuilder.result, interactionResult, PropertyBuilderF.schema, mapLang_mk,
      toForm_eq']

theorem outcome_action (env : Env) (a : ActionBuilder X)
    (hs : HMap.Sorted a.interaction.part.uriVariables)
    (hr : ∀ kv ∈ a.interaction.part.uriVariables, SchemaRep kv.2)
    (h1 : ∀ s, a.input = some s → SchemaRep s) (h2 : ∀ s, a.output = some s → SchemaRep s) :
    Outcome (ActionBuilder.build env a) (LangViolation env (ActionKey a)) (a.result env) := by
  unfold ActionBuilder.build
  refine ((outcome_interaction env a.interaction hs hr).bind fun _ =>
    (outcome_tryIntoOpt env a.input h1).bind fun _ =>
    (outcome_tryIntoOpt env a.output h2).map _).congr (fun e => ?_) fun _ => rfl
  unfold LangViolation ActionKey
  constructor
  · rintro (⟨k, h, h'⟩ | ⟨s, hs, k, h, h'⟩ | ⟨s, hs, k, h, h'⟩)
    · exact ⟨k, .inl h, h'⟩
    · exact ⟨k, .inr ⟨s, .inl hs, h⟩, h'⟩
    · exact ⟨k, .inr ⟨s, .inr hs, h⟩, h'⟩
  · rintro ⟨k, h | ⟨s, hs | hs, h⟩, h'⟩
    · exact .inl ⟨k, h, h'⟩
    · exact .inr (.inl ⟨s, hs, k, h, h'⟩)
    · exact .inr (.inr ⟨s, hs, k, h, h'⟩)

theorem outcome_event (env : Env) (a : EventBuilder X)
    (hs : HMap.Sorted a.interaction.part.uriVariables)
    (hr : ∀ kv ∈ a.interaction.part.uriVariables, SchemaRep kv.2)
    (h1 : ∀ s, a.subscription = some s → SchemaRep s) (h2 : ∀ s, a.data = some s → SchemaRep s)
    (h3 : ∀ s, a.cancellation = some s → SchemaRep s)
    (h4 : ∀ s, a.dataResponse = some s → SchemaRep s) :
    Outcome (EventBuilder.build env a) (LangViolation env (EventKey a)) (a.result env) := by
  unfold EventBuilder.build
  refine ((outcome_interaction env a.interaction hs hr).bind fun _ =>
    (outcome_tryIntoOpt env a.subscription h1).bind fun _ =>
    (outcome_tryIntoOpt env a.data h2).bind fun _ =>
    (outcome_tryIntoOpt env a.cancellation h3).bind fun _ =>
    (outcome_tryIntoOpt env a.dataResponse h4).map _).congr (fun e => ?_) fun _ => rfl
  unfold LangViolation EventKey
  constructor
  · rintro (⟨k, h, h'⟩ | ⟨s, hs, k, h, h'⟩ | ⟨s, hs, k, h, h'⟩ | ⟨s, hs, k, h, h'⟩ | ⟨s, hs, k, h, h'⟩)
    · exact ⟨k, .inl h, h'⟩
    · exact ⟨k, .inr ⟨s, .inl hs, h⟩, h'⟩
    · exact ⟨k, .inr ⟨s, .inr (.inl hs), h⟩, h'⟩
    · exact ⟨k, .inr ⟨s, .inr (.inr (.inl hs)), h⟩, h'⟩
    · exact ⟨k, .inr ⟨s, .inr (.inr (.inr hs)), h⟩, h'⟩
  · rintro ⟨k, h | ⟨s, hs | hs | hs | hs, h⟩, h'⟩
    · exact .inl ⟨k, h, h'⟩
    · exact .inr (.inl ⟨s, hs, k, h, h'⟩)
    · exact .inr (.inr (.inl ⟨s, hs, k, h, h'⟩))
    · exact .inr (.inr (.inr (.inl ⟨s, hs, k, h, h'⟩)))
    · exact .inr (.inr (.inr (.inr ⟨s, hs, k, h, h'⟩)))

theorem outcome_buildAffordances {A T : Type} {ty : AffordanceType}
    {ci cs : A → Except Error Unit} {bu : A → Except Error T} {V1 V2 V3 : A → Error → Prop} {r : A → T}
    (l : List (String × A)) (h1 : ∀ kv ∈ l, Outcome (ci kv.2) (V1 kv.2) ())
    (h2 : ∀ kv ∈ l, Outcome (cs kv.2) (V2 kv.2) ())
    (h3 : ∀ kv ∈ l, Outcome (bu kv.2) (V3 kv.2) (r kv.2)) :
    ∀ acc : HMap T, Outcome (buildAffordances ty ci cs bu acc l)
      (fun e => (∃ kv ∈ l, V1 kv.2 e ∨ V2 kv.2 e ∨ V3 kv.2 e) ∨
        ∃ n, e = .duplicatedAffordance ty n ∧ DupIn acc.keys l n)
      ((l.map fun kv => (kv.1, r kv.2)).foldl (fun m kv => m.insert kv.1 kv.2) acc) := by
  induction l with
  | nil =>
    intro acc
    exact ⟨rfl, by simp [dupIn_nil_right]⟩
  | cons kv l ih =>
    intro acc
    obtain ⟨name, a⟩ := kv
    rw [buildAffordances]
    rcases (h1 (name, a) (by simp)).ok_or with ⟨hc1, hv1⟩ | ⟨e, hc1, hv1⟩
    · rw [hc1]
      show Outcome (do cs a; if acc.contains name then _ else _) _ _
      rcases (h2 (name, a) (by simp)).ok_or with ⟨hc2, hv2⟩ | ⟨e, hc2, hv2⟩
      · rw [hc2]
        show Outcome (if acc.contains name then _ else _) _ _
        by_cases hc : acc.contains name = true
        · rw [if_pos hc]
          exact Or.inr ⟨name, rfl, .inl ⟨(HMap.contains_iff _ _).1 hc, by simp⟩⟩
        · rw [if_neg hc]
          have hk : name ∉ acc.keys := fun h => hc ((HMap.contains_iff _ _).2 h)
          rcases (h3 (name, a) (by simp)).ok_or with ⟨hc3, hv3⟩ | ⟨e, hc3, hv3⟩
          · rw [hc3]
            refine Outcome.congrV (ih (fun kv hkv => h1 kv (by simp [hkv]))
              (fun kv hkv => h2 kv (by simp [hkv])) (fun kv hkv => h3 kv (by simp [hkv]))
              (acc.insert name (r a))) fun e => ?_
            constructor
            · rintro (⟨kv, hkv, hv⟩ | ⟨n, he, hd⟩)
              · exact .inl ⟨kv, by simp [hkv], hv⟩
              · exact .inr ⟨n, he, (dupIn_cons hk n).1 hd⟩
            · rintro (⟨kv, hkv, hv⟩ | ⟨n, he, hd⟩)
              · rcases List.mem_cons.1 hkv with rfl | hkv
                · exact (hv.elim (hv1 e) (fun h => h.elim (hv2 e) (hv3 e))).elim
                · exact .inl ⟨kv, hkv, hv⟩
              · exact .inr ⟨n, he, (dupIn_cons hk n).2 hd⟩
          · rw [hc3]
            exact Or.inl ⟨(name, a), by simp, .inr (.inr hv3)⟩
      · rw [hc2]
        exact Or.inl ⟨(name, a), by simp, .inr (.inl hv2)⟩
    · rw [hc1]
      exact Or.inl ⟨(name, a), by simp, .inl hv1⟩

theorem outcome_tryBuildAffordance {A T : Type} {ty : AffordanceType}
    {ci cs : A → Except Error Unit} {bu : A → Except Error T} {V1 V2 V3 : A → Error → Prop} {r : A → T}
    (l : List (String × A)) (h1 : ∀ kv ∈ l, Outcome (ci kv.2) (V1 kv.2) ())
    (h2 : ∀ kv ∈ l, Outcome (cs kv.2) (V2 kv.2) ())
    (h3 : ∀ kv ∈ l, Outcome (bu kv.2) (V3 kv.2) (r kv.2)) :
    Outcome (tryBuildAffordance ty ci cs bu l)
      (fun e => (∃ kv ∈ l, V1 kv.2 e ∨ V2 kv.2 e ∨ V3 kv.2 e) ∨
        ∃ n, e = .duplicatedAffordance ty n ∧ Twice (l.map (·.1)) n)
      (mapResult r l) := by
  unfold tryBuildAffordance mapResult
  cases l with
  | nil => exact ⟨rfl, by simp [Twice]⟩
  | cons kv l =>
    refine Outcome.congr ((outcome_buildAffordances (kv :: l) h1 h2 h3 []).map some)
      (fun e => ?_) fun _ => ?_
    · simp only [HMap.keys, List.map_nil, dupIn_nil_left]
    · simp [HMap.collect]

/-! ### Links and context -/

theorem outcome_parseHreflang (env : Env) (k : String) :
    Outcome (parseHreflang env k) (fun e => env.langParse k = none ∧ e = .invalidLanguageTag k)
      ((env.langParse k).getD k) := by
  unfold parseHreflang
  cases h : env.langParse k with
  | none => exact ⟨rfl, rfl⟩
  | some t => exact ⟨rfl, by simp⟩

theorem badSizes_iff (l : UncheckedLink) :
    l.badSizes = true ↔ l.sizes ≠ none ∧ l.rel ≠ some "icon" := by
  unfold UncheckedLink.badSizes
  rw [Bool.and_eq_true, Option.isSome_iff_ne_none]
  simp

theorem outcome_link (env : Env) (l : UncheckedLink) :
    Outcome (l.tryInto env) (LinkViolation env l) (linkResult env l) := by
  unfold UncheckedLink.tryInto
  by_cases hb : l.badSizes = true
  · rw [if_pos hb]
    have := (badSizes_iff l).1 hb
    exact Or.inl ⟨this.1, this.2, rfl⟩
  · rw [if_neg hb]
    refine Outcome.congr ((Outcome.tryMap (l := l.hreflang)
      fun k _ => outcome_parseHreflang env k).map fun h =>
        ({ href := l.href, ty := l.ty, rel := l.rel, anchor := l.anchor, sizes := l.sizes,
           hreflang := nonEmpty h } : Link)) (fun e => ?_) fun _ => ?_
    · unfold LinkViolation LangViolation
      constructor
      · rintro ⟨k, hk, h1, h2⟩; exact .inr ⟨k, hk, h1, h2⟩
      · rintro (⟨h1, h2, _⟩ | ⟨k, hk, h1, h2⟩)
        · exact (hb ((badSizes_iff l).2 ⟨h1, h2⟩)).elim
        · exact ⟨k, hk, h1, h2⟩
    · simp only [linkResult, nonEmpty_eq, List.map_eq_nil_iff]

theorem toValue_eq (env : Env) (c : Context) (h : ∀ m, c = .map m → HMap.Sorted m) :
    c.toValue env = match c with
      | .simple s => .str s
      | .map m => .obj (HMap.mapVals Json.str m) := by
  cases c with
  | simple s => rfl
  | map m =>
    have hs := (h m rfl).mapVals Json.str
    have hp : ((env.iter m).map fun kv => (kv.1, Json.str kv.2)).Perm (HMap.mapVals Json.str m) :=
      (env.iter_perm m).map _
    have hnd : (((env.iter m).map fun kv => (kv.1, Json.str kv.2)).map (·.1)).Nodup :=
      (hp.map _).nodup_iff.2 hs.nodup
    simp only [Context.toValue]
    rw [HMap.collect_perm hp hnd, HMap.collect_of_sorted hs]

theorem outcome_context (env : Env) (cs : List Context)
    (h : ∃ rest, cs = .simple tdContext11 :: rest) (hm : ∀ m, Context.map m ∈ cs → HMap.Sorted m) :
    OutcomeF (buildContext env cs) (fun _ => False) (contextResult cs) := by
  obtain ⟨rest, rfl⟩ := h
  cases rest with
  | nil => exact ⟨rfl, fun _ h => h⟩
  | cons c rest =>
    refine ⟨?_, fun _ h => h⟩
    show Json.arr _ = Json.arr _
    congr 1
    apply List.map_congr_left
    intro c' hc'
    rw [toValue_eq env c' fun m he => hm m (he ▸ hc')]
    cases c' <;> rfl

end Wot
