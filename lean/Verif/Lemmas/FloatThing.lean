import Verif.Lemmas.Unordered
import Verif.Lemmas.Nesting
import Verif.Lemmas.Equality
import Verif.Spec.FloatThing
import Verif.Spec.JsonText
/-
What is written for a Thing after a function on its floats.
-/
namespace Wot

open FloatText F64

variable {g : F64 → F64}

/-! ### Documents -/

theorem mapFloatsList_eq (g : F64 → F64) (l : List Json) : Json.mapFloatsList g l = l.map (Json.mapFloats g) := by
  induction l with
  | nil => rfl
  | cons j l ih => simp [Json.mapFloatsList, ih]

theorem mapFloatsMembers_eq (g : F64 → F64) (m : Members) : Json.mapFloatsMembers g m = HMap.mapVals (Json.mapFloats g) m := by
  induction m with
  | nil => rfl
  | cons kv m ih => obtain ⟨k, j⟩ := kv; simp [Json.mapFloatsMembers, ih, HMap.mapVals]

theorem mapFloats_arr (l : List Json) : (Json.arr l).mapFloats g = .arr (l.map (Json.mapFloats g)) := by
  rw [Json.mapFloats, mapFloatsList_eq]

theorem mapFloats_obj (m : Members) : (Json.obj m).mapFloats g = .obj (HMap.mapVals (Json.mapFloats g) m) := by
  rw [Json.mapFloats, mapFloatsMembers_eq]

theorem mapFloats_str (s : String) : (Json.str s).mapFloats g = .str s := rfl

theorem mapFloats_append (a b : Members) :
    HMap.mapVals (Json.mapFloats g) (a ++ b) = HMap.mapVals (Json.mapFloats g) a ++ HMap.mapVals (Json.mapFloats g) b := by
  simp [HMap.mapVals]

theorem mapFloats_members (l : List (String × Option Json)) :
    HMap.mapVals (Json.mapFloats g) (members l) = members (l.map fun kv => (kv.1, kv.2.map (Json.mapFloats g))) := by
  induction l with
  | nil => rfl
  | cons kv l ih =>
    obtain ⟨k, v⟩ := kv
    cases v with
    | none => exact ih
    | some v => exact congrArg ((k, v.mapFloats g) :: ·) ih

theorem float_str {o : Option String} : (o.map Json.str).map (Json.mapFloats g) = o.map Json.str := by cases o <;> rfl

theorem float_bool {o : Option Bool} : (o.map Json.bool).map (Json.mapFloats g) = o.map Json.bool := by cases o <;> rfl

theorem float_oneOrMany {l : List Json} : (serOneOrMany l).mapFloats g = serOneOrMany (l.map (Json.mapFloats g)) := by
  rcases l with _ | ⟨a, _ | ⟨b, l⟩⟩
  · rfl
  · rfl
  · simp only [serOneOrMany, mapFloats_arr, List.map_cons]

theorem float_strings (l : List String) : (serStrings l).mapFloats g = serStrings l := by
  rw [serStrings, float_oneOrMany, List.map_map]; rfl

theorem float_strs {o : Option (List String)} : (o.map serStrings).map (Json.mapFloats g) = o.map serStrings := by
  cases o with
  | none => rfl
  | some l => exact congrArg some (float_strings l)

theorem float_lang {env : Env} {o : Option MultiLanguage} :
    (o.map (serLang env)).map (Json.mapFloats g) = o.map (serLang env) := by
  cases o with
  | none => rfl
  | some m =>
    refine congrArg some ?_
    unfold serLang
    rw [mapFloats_obj, HMap.mapVals, List.map_map]
    rfl

theorem float_mapOpt {α β : Type} {f : α → Option Json} {f' : β → Option Json} {w : α → β} {l : List α} {js : List Json}
    (h : mapOpt f l = some js) (hf : ∀ a ∈ l, ∀ j, f a = some j → f' (w a) = some (j.mapFloats g)) :
    mapOpt f' (l.map w) = some (js.map (Json.mapFloats g)) := by
  have := mapOpt_eq_some.1 h
  clear h
  refine mapOpt_eq_some.2 ?_
  induction this with
  | nil => exact .nil
  | cons hab _ ih => exact .cons (hf _ (by simp) _ hab) (ih fun a ha => hf a (by simp [ha]))

theorem float_optOpt {α β : Type} {f : α → Option Json} {f' : β → Option Json} {w : α → β} {o : Option α} {r : Option Json}
    (h : optOpt f o = some r) (hf : ∀ a, o = some a → ∀ j, f a = some j → f' (w a) = some (j.mapFloats g)) :
    optOpt f' (o.map w) = some (r.map (Json.mapFloats g)) := by
  cases o with
  | none => cases h; rfl
  | some a =>
    obtain ⟨j, hj, rfl⟩ := Option.map_eq_some_iff.1 h
    show (f' (w a)).map some = _
    rw [hf a rfl j hj]; rfl

/-- The environment in which maps are iterated in the order of their keys. -/
def Env.InOrder (env : Env) : Prop := ∀ {V : Type} (m : HMap V), env.iter m = m

theorem float_serMap {α β : Type} {env : Env} (he : env.InOrder) {f : α → Option Json} {f' : β → Option Json} {w : α → β}
    {m : HMap α} {j : Json} (h : serMap env f m = some j)
    (hf : ∀ kv ∈ m, ∀ j, f kv.2 = some j → f' (w kv.2) = some (j.mapFloats g)) :
    serMap env f' (HMap.mapVals w m) = some (j.mapFloats g) := by
  unfold serMap at *
  rw [he] at *
  obtain ⟨ms, h1, rfl⟩ := Option.map_eq_some_iff.1 h
  rw [mapFloats_obj]
  suffices mapOptVals f' (HMap.mapVals w m) = some (HMap.mapVals (Json.mapFloats g) ms) by rw [this]; rfl
  have h2 := mapOptVals_eq_some.1 h1
  refine mapOptVals_eq_some.2 ?_
  clear h h1
  induction h2 with
  | nil => exact .nil
  | cons hab _ ih => exact .cons ⟨hab.1, hf _ (by simp) _ hab.2⟩ (ih fun a ha => hf a (by simp [ha]))

theorem mapOpt_id_eq {α β : Type} {f : α → Option β} (l : List α) : mapOpt id (l.map f) = mapOpt f l := by
  induction l with
  | nil => rfl
  | cons a l ih => rw [List.map_cons, mapOpt_cons, mapOpt_cons, ih]; rfl

theorem optOpt_map {α β γ : Type} {f : β → Option γ} {w : α → β} (o : Option α) :
    optOpt f (o.map w) = optOpt (fun a => f (w a)) o := by cases o <;> rfl

theorem serMap_mapVals {α : Type} {env : Env} (he : env.InOrder) {f : α → Option Json} (m : HMap α) :
    serMap env id (HMap.mapVals f m) = serMap env f m := by
  unfold serMap
  rw [he, he]
  unfold mapOptVals
  congr 1
  induction m with
  | nil => rfl
  | cons a l ih =>
    show mapOpt _ ((a.1, f a.2) :: HMap.mapVals f l) = _
    rw [mapOpt_cons, mapOpt_cons, ih]; rfl

/-- What the extension writes is left alone by the function. -/
def ExtCodec.Fixed {A : Type} (g : F64 → F64) (C : ExtCodec A) : Prop :=
  ∀ a es, C.ser a = some es → HMap.mapVals (Json.mapFloats g) es = es

/-- The same of all extensions. -/
structure ExtCodecs.Fixed {X : ExtTypes} (g : F64 → F64) (C : ExtCodecs X) : Prop where
  dataSchema : C.dataSchema.Fixed g
  arraySchema : C.arraySchema.Fixed g
  objectSchema : C.objectSchema.Fixed g
  form : C.form.Fixed g
  response : C.response.Fixed g
  interaction : C.interaction.Fixed g
  property : C.property.Fixed g
  action : C.action.Fixed g
  event : C.event.Fixed g
  thing : C.thing.Fixed g

/-! ### Security -/

theorem float_known (k : KnownScheme) : HMap.mapVals (Json.mapFloats g) (serKnown k) = serKnown k := by
  have loc : ∀ l, (serLocation l).mapFloats g = serLocation l := by intro l; cases l <;> rfl
  have qop : ∀ l, (serQoP l).mapFloats g = serQoP l := by intro l; cases l <;> rfl
  cases k with
  | noSec => rfl
  | auto => rfl
  | combo c => cases c <;> simp [serKnown, HMap.mapVals, float_strings, mapFloats_str]
  | _ =>
    simp only [serKnown, mapFloats_members, List.map_cons, List.map_nil, float_str, float_strs, Option.map_some, mapFloats_str, loc, qop]

theorem float_security {env : Env} {s : SecurityScheme} {j : Json} (hw : serSecurity env s = some j) :
    serSecurity env (s.mapFloats g) = some (j.mapFloats g) := by
  obtain ⟨es, hes, rfl⟩ := Option.map_eq_some_iff.1 hw
  have : serSubtype (s.subtype.mapFloats g) = some (HMap.mapVals (Json.mapFloats g) es) := by
    cases hs : s.subtype with
    | known k => rw [hs] at hes; cases hes; exact congrArg some (float_known k).symm
    | unknown scheme data =>
      rw [hs] at hes
      obtain ⟨d, hd, rfl⟩ := Option.map_eq_some_iff.1 hes
      cases data <;> simp only [serFlatValue, reduceCtorEq, Option.some.injEq] at hd
      · subst hd; rfl
      · subst hd
        simp only [SchemeSubtype.mapFloats, serSubtype, mapFloats_obj, serFlatValue]
        rfl
  rw [serSecurity, SecurityScheme.mapFloats, this, Option.map_some, mapFloats_obj, mapFloats_append, mapFloats_members]
  simp only [List.map_cons, List.map_nil, float_str, float_strs, float_lang]

/-! ### Schemas -/

theorem float_i64 (a : I64) : (serI64 a).mapFloats g = serI64 a := by unfold serI64; split <;> rfl

theorem float_f64 (hg : ∀ x, (g x).isFinite = x.isFinite) (a : F64) : (serF64 a).mapFloats g = serF64 (g a) := by
  unfold serF64
  rw [hg]
  split <;> rfl

theorem mapFloats_eq {L DSx AS OS : Type} (s : Schema L DSx AS OS) : s.mapFloats g = .mk (s.head.mapFloats g)
    (s.oneOf.map (List.map (Schema.mapFloats g)))
    ((s.subtype.map (SubtypeF.map (Schema.mapFloats g))).map (SubtypeF.mapFloats g)) := by
  obtain ⟨h, o, st⟩ := s
  rw [Schema.mapFloats, Schema.fold_mk]
  rfl

section
variable {DSx AS OS : Type} {C : ExtCodec DSx} {CA : ExtCodec AS} {CO : ExtCodec OS} {env : Env}

theorem float_maximum {T : Type} {f : T → Json} {w : T → T} (hf : ∀ a, (f a).mapFloats g = f (w a)) (o : Option (Maximum T)) :
    HMap.mapVals (Json.mapFloats g) (serFlatOption (serMaximum f) o) = serFlatOption (serMaximum f) (o.map (Maximum.map w)) := by
  rcases o with _ | (a | a) <;> simp [serFlatOption, serMaximum, HMap.mapVals, Maximum.map, hf]

theorem float_minimum {T : Type} {f : T → Json} {w : T → T} (hf : ∀ a, (f a).mapFloats g = f (w a)) (o : Option (Minimum T)) :
    HMap.mapVals (Json.mapFloats g) (serFlatOption (serMinimum f) o) = serFlatOption (serMinimum f) (o.map (Minimum.map w)) := by
  rcases o with _ | (a | a) <;> simp [serFlatOption, serMinimum, HMap.mapVals, Minimum.map, hf]

theorem float_nat {α : Type} {o : Option α} {f : α → Nat} :
    (o.map fun n => serNat (f n)).map (Json.mapFloats g) = o.map fun n => serNat (f n) := by cases o <;> rfl

theorem float_subtype (hg : ∀ x, (g x).isFinite = x.isFinite) (hA : CA.Fixed g) (hO : CO.Fixed g) (he : env.InOrder)
    {st : SubtypeF AS OS (DataSchema DSx AS OS)} {es : Members}
    (hw : serSchemaSubtype CA CO env (st.map (serSchema C CA CO env)) = some es)
    (hc : ∀ c ∈ st.children, ∀ j, serSchema C CA CO env c = some j → serSchema C CA CO env (c.mapFloats g) = some (j.mapFloats g)) :
    serSchemaSubtype CA CO env (((st.map (Schema.mapFloats g)).mapFloats g).map (serSchema C CA CO env)) =
      some (HMap.mapVals (Json.mapFloats g) es) := by
  have tagged : ∀ {es : Members} {k : String}, HMap.mapVals (Json.mapFloats g) (("type", .str k) :: es) =
      ("type", .str k) :: HMap.mapVals (Json.mapFloats g) es := by intros; rfl
  cases st with
  | array a =>
    obtain ⟨m', hm', rfl⟩ := Option.map_eq_some_iff.1 hw
    simp only [serArray, bind, pure, Option.bind_eq_some_iff] at hm'
    obtain ⟨items, hi, other, h3, e⟩ := hm'
    cases e
    have key : optOpt serItems ((a.items.map (ElemOrVec.map (Schema.mapFloats g))).map (ElemOrVec.map (serSchema C CA CO env))) =
        some (items.map (Json.mapFloats g)) := by
      rw [optOpt_map] at hi ⊢
      refine float_optOpt hi fun i hai j hj => ?_
      cases i with
      | elem c => exact hc c (by simp [SubtypeF.children, hai, ElemOrVec.toList]) j hj
      | vec l =>
        obtain ⟨js, hjs, rfl⟩ := Option.map_eq_some_iff.1 hj
        rw [mapOpt_id_eq] at hjs
        show (mapOpt id ((l.map (Schema.mapFloats g)).map (serSchema C CA CO env))).map Json.arr = _
        rw [mapOpt_id_eq, float_mapOpt hjs fun c hcl j hcj =>
          hc c (by simp [SubtypeF.children, hai, ElemOrVec.toList, hcl]) j hcj, mapFloats_arr]
        rfl
    simp only [SubtypeF.map, SubtypeF.mapFloats, serSchemaSubtype, serArray, bind, pure, key, h3, Option.bind_some, Option.map_some,
      tagged, mapFloats_append, mapFloats_members, List.map_cons, List.map_nil, float_nat, hA _ _ h3]
  | object o =>
    obtain ⟨m', hm', rfl⟩ := Option.map_eq_some_iff.1 hw
    simp only [serObject, bind, pure, Option.bind_eq_some_iff] at hm'
    obtain ⟨props, hp, other, h3, e⟩ := hm'
    cases e
    have key : optOpt (serMap env id) ((o.properties.map (HMap.mapVals (Schema.mapFloats g))).map
        (HMap.mapVals (serSchema C CA CO env))) = some (props.map (Json.mapFloats g)) := by
      rw [optOpt_map] at hp ⊢
      refine float_optOpt hp fun m hm j hj => ?_
      rw [serMap_mapVals he] at hj ⊢
      refine float_serMap he hj fun kv hkv j hj => hc kv.2 ?_ j hj
      simp only [SubtypeF.children, hm, Option.map_some, Option.getD_some, HMap.values]
      exact List.mem_map_of_mem hkv
    have req : (o.required.map fun l => Json.arr (l.map .str)).map (Json.mapFloats g) = o.required.map fun l => Json.arr (l.map .str) := by
      cases o.required with
      | none => rfl
      | some l => simp only [Option.map_some, mapFloats_arr, List.map_map]; rfl
    simp only [SubtypeF.map, SubtypeF.mapFloats, serSchemaSubtype, serObject, bind, pure, key, h3, Option.bind_some, Option.map_some,
      tagged, mapFloats_append, mapFloats_members, List.map_cons, List.map_nil, req, hO _ _ h3]
  | number x =>
    cases hw
    rw [tagged]
    simp only [serSchemaSubtype, SubtypeF.map, SubtypeF.mapFloats, serNumber, NumberSchema.mapFloats]
    rw [mapFloats_append, mapFloats_append, float_maximum (w := g) (float_f64 hg), float_minimum (w := g) (float_f64 hg),
      mapFloats_members]
    simp only [List.map_cons, List.map_nil, Option.map_map, Function.comp_def, float_f64 hg]
  | integer x =>
    cases hw
    rw [tagged]
    simp only [serSchemaSubtype, SubtypeF.map, SubtypeF.mapFloats, serInteger]
    rw [mapFloats_append, mapFloats_append, float_maximum (w := id) float_i64, float_minimum (w := id) float_i64, mapFloats_members]
    have h1 : ∀ o : Option (Maximum I64), o.map (Maximum.map id) = o := by intro o; rcases o with _ | (_ | _) <;> rfl
    have h2 : ∀ o : Option (Minimum I64), o.map (Minimum.map id) = o := by intro o; rcases o with _ | (_ | _) <;> rfl
    simp only [List.map_cons, List.map_nil, h1, h2, float_nat]
  | string x =>
    cases hw
    rw [tagged]
    simp only [serSchemaSubtype, SubtypeF.map, SubtypeF.mapFloats, serString, mapFloats_members, List.map_cons, List.map_nil,
      float_nat, float_str]
  | boolean => cases hw; rfl
  | null => cases hw; rfl

theorem float_schemaMembers (hg : ∀ x, (g x).isFinite = x.isFinite) (hC : C.Fixed g) (hA : CA.Fixed g) (hO : CO.Fixed g)
    (he : env.InOrder) {s : DataSchema DSx AS OS} {es : Members} (hw : serSchemaMembers C CA CO env s = some es)
    (ih : ∀ c, c.Holds s → ∀ j, serSchema C CA CO env c = some j → serSchema C CA CO env (c.mapFloats g) = some (j.mapFloats g)) :
    serSchemaMembers C CA CO env (s.mapFloats g) = some (HMap.mapVals (Json.mapFloats g) es) := by
  simp only [serSchemaMembers, serSchemaStep, bind, pure, Option.bind_eq_some_iff] at hw
  obtain ⟨oneOf, h1, sub, h2, other, h3, e⟩ := hw
  injection e with e
  subst e
  have k1 : optOpt (fun l => (mapOpt id l).map Json.arr) ((s.oneOf.map (List.map (Schema.mapFloats g))).map (List.map (serSchema C CA CO env))) =
      some (oneOf.map (Json.mapFloats g)) := by
    rw [optOpt_map] at h1 ⊢
    refine float_optOpt h1 fun l hl j hj => ?_
    obtain ⟨js, hjs, rfl⟩ := Option.map_eq_some_iff.1 hj
    rw [mapOpt_id_eq] at hjs ⊢
    rw [float_mapOpt hjs fun c hcl j hcj => ih c (.oneOf hl hcl) j hcj, mapFloats_arr]
    rfl
  have k2 : optOpt (serSchemaSubtype CA CO env) ((((s.subtype.map (SubtypeF.map (Schema.mapFloats g))).map
      (SubtypeF.mapFloats g))).map (SubtypeF.map (serSchema C CA CO env))) = some (sub.map (HMap.mapVals (Json.mapFloats g))) := by
    cases hs : s.subtype with
    | none => rw [hs] at h2; cases h2; rfl
    | some st =>
      rw [hs] at h2
      obtain ⟨m', hm', e⟩ := Option.map_eq_some_iff.1 h2
      cases e
      show (serSchemaSubtype CA CO env (((st.map (Schema.mapFloats g)).mapFloats g).map (serSchema C CA CO env))).map some = _
      rw [float_subtype hg hA hO he hm' fun c hc => ih c (holds_child.2 (.inr ⟨st, hs, hc⟩))]
      rfl
  have enum : ((s.head.enumeration.map (List.map (Json.mapFloats g))).map Json.arr) =
      (s.head.enumeration.map Json.arr).map (Json.mapFloats g) := by
    cases s.head.enumeration with
    | none => rfl
    | some l => simp only [Option.map_some, mapFloats_arr]
  have sub' : (sub.map (HMap.mapVals (Json.mapFloats g))).getD [] = HMap.mapVals (Json.mapFloats g) (sub.getD []) := by
    cases sub <;> rfl
  rw [mapFloats_eq]
  show serSchemaStep C CA CO env (s.head.mapFloats g) ((s.oneOf.map _).map _) (((s.subtype.map _).map _).map _) = _
  simp only [serSchemaStep, bind, pure, k1, k2, h3, Option.bind_some,
    SchemaHead.mapFloats, mapFloats_append, mapFloats_members, List.map_cons, List.map_nil, float_str, float_strs, float_lang,
    Option.map_some, enum, sub', hC _ _ h3]
  rfl

end

section
variable {DSx AS OS : Type} {C : ExtCodec DSx} {CA : ExtCodec AS} {CO : ExtCodec OS} {env : SerdeEnv}

theorem float_schema (hg : ∀ x, (g x).isFinite = x.isFinite) (hC : C.Fixed g) (hA : CA.Fixed g) (hO : CO.Fixed g)
    (he : env.toEnv.InOrder) (s : DataSchema DSx AS OS) :
    (∀ es, serSchemaMembers C CA CO env.toEnv s = some es →
      serSchemaMembers C CA CO env.toEnv (s.mapFloats g) = some (HMap.mapVals (Json.mapFloats g) es)) ∧
    ∀ j, serSchema C CA CO env.toEnv s = some j → serSchema C CA CO env.toEnv (s.mapFloats g) = some (j.mapFloats g) := by
  induction s using Schema.ind with
  | h hd o st ho hst =>
  generalize hs : Schema.mk hd o st = s
  have ih : ∀ c, c.Holds s → ∀ j, serSchema C CA CO env.toEnv c = some j → serSchema C CA CO env.toEnv (c.mapFloats g) = some (j.mapFloats g) := by
    intro c hc
    subst hs
    rcases holds_child.1 hc with ⟨l, h, hm⟩ | ⟨x, h, hm⟩
    · exact (ho l h c hm).2
    · exact (hst x h c hm).2
  clear hs ho hst
  have key := fun es hes => float_schemaMembers (g := g) (es := es) hg hC hA hO he hes ih
  refine ⟨key, fun j hj => ?_⟩
  rw [serSchema_eq] at hj ⊢
  obtain ⟨es, hes, rfl⟩ := Option.map_eq_some_iff.1 hj
  rw [key es hes, mapFloats_obj]
  rfl
end

/-! ### Things -/

section
variable {X : ExtTypes} {C : ExtCodecs X} {env : SerdeEnv} {t : Thing X}

theorem float_form (hC : C.Fixed g) {f : Form X} {j : Json} (hj : serForm C f = some j) : j.mapFloats g = j := by
  simp only [serForm, bind, pure, Option.bind_eq_some_iff] at hj
  obtain ⟨response, h1, other, h2, e⟩ := hj
  injection e with e
  subst e
  have resp : response.map (Json.mapFloats g) = response := by
    cases hr : f.response with
    | none => rw [hr] at h1; cases h1; rfl
    | some r =>
      rw [hr] at h1
      obtain ⟨j, hj, rfl⟩ := Option.map_eq_some_iff.1 h1
      obtain ⟨es, hes, rfl⟩ := Option.map_eq_some_iff.1 hj
      rw [Option.map_some, mapFloats_obj]
      exact congrArg (fun m => some (Json.obj (("contentType", Json.str r.contentType) :: m))) (hC.response _ _ hes)
  have op : (opMember f.op).map (Json.mapFloats g) = opMember f.op := by
    cases f.op with
    | default => rfl
    | custom l =>
      cases l with
      | nil => rfl
      | cons a l => simp only [opMember, serOps, Option.map_some, mapFloats_arr, List.map_map]; rfl
  have add : (f.additionalResponses.map fun l => serOneOrMany (l.map serAdditional)).map (Json.mapFloats g) =
      f.additionalResponses.map fun l => serOneOrMany (l.map serAdditional) := by
    cases f.additionalResponses with
    | none => rfl
    | some l =>
      have : ∀ r, (serAdditional r).mapFloats g = serAdditional r := by
        intro r
        have : (if r.success then some (Json.bool true) else none).map (Json.mapFloats g) =
            if r.success then some (Json.bool true) else none := by split <;> rfl
        rw [serAdditional, mapFloats_obj, mapFloats_members]
        simp only [List.map_cons, List.map_nil, this, float_str]
      simp only [Option.map_some, float_oneOrMany, List.map_map, Function.comp_def, this]
  rw [mapFloats_obj]
  simp only [mapFloats_append, mapFloats_members, List.map_cons, List.map_nil, op, add, resp, Option.map_some, mapFloats_str,
    float_str, float_strs, hC.form _ _ h2]

theorem float_forms (hC : C.Fixed g) {l : List (Form X)} {js : List Json} (h : mapOpt (serForm C) l = some js) :
    js.map (Json.mapFloats g) = js := by
  have := mapOpt_eq_some.1 h
  clear h
  induction this with
  | nil => rfl
  | cons hab _ ih => rw [List.map_cons, float_form hC hab, ih]

section
variable (hg : ∀ x, (g x).isFinite = x.isFinite) (hC : C.Fixed g) (he : env.toEnv.InOrder)
include hg hC he

theorem float_ds {o : Option (DS X)} {r : Option Json} (h : optOpt (serDS C env.toEnv) o = some r) :
    optOpt (serDS C env.toEnv) (o.map (Schema.mapFloats g)) = some (r.map (Json.mapFloats g)) :=
  float_optOpt h fun s _ => (float_schema hg hC.dataSchema hC.arraySchema hC.objectSchema he s).2

theorem float_schemas {o : Option (HMap (DS X))} {r : Option Json} (h : optOpt (serMap env.toEnv (serDS C env.toEnv)) o = some r) :
    optOpt (serMap env.toEnv (serDS C env.toEnv)) (o.map (HMap.mapVals (Schema.mapFloats g))) = some (r.map (Json.mapFloats g)) :=
  float_optOpt h fun _ _ _ hj => float_serMap he hj fun kv _ =>
    (float_schema hg hC.dataSchema hC.arraySchema hC.objectSchema he kv.2).2

theorem float_interaction {i : Interaction X} {es : Members} (hw : serInteraction C env.toEnv i = some es) :
    serInteraction C env.toEnv (i.mapFloats g) = some (HMap.mapVals (Json.mapFloats g) es) := by
  simp only [serInteraction, bind, pure, Option.bind_eq_some_iff] at hw
  obtain ⟨forms, h1, uris, h2, other, h3, e⟩ := hw
  injection e with e
  subst e
  simp only [serInteraction, Interaction.mapFloats, bind, pure, h1, float_schemas hg hC he h2, h3, Option.bind_some,
    mapFloats_append, mapFloats_members, List.map_cons, List.map_nil, float_str, float_strs, float_lang, Option.map_some,
    mapFloats_arr, float_forms hC h1, hC.interaction _ _ h3]

theorem float_property {p : PropertyAffordance X} {j : Json} (hj : serProperty C env.toEnv p = some j) :
    serProperty C env.toEnv (p.mapFloats g) = some (j.mapFloats g) := by
  simp only [serProperty, bind, pure, Option.bind_eq_some_iff] at hj
  obtain ⟨es, k1, s, k2, other, k3, e⟩ := hj
  injection e with e
  subst e
  simp only [serProperty, PropertyAffordance.mapFloats, bind, pure, float_interaction hg hC he k1,
    (float_schema hg hC.dataSchema hC.arraySchema hC.objectSchema he _).1 _ k2, k3, Option.bind_some,
    mapFloats_obj, mapFloats_append, mapFloats_members, List.map_cons, List.map_nil, float_bool, hC.property _ _ k3]

theorem float_action {p : ActionAffordance X} {j : Json} (hj : serAction C env.toEnv p = some j) :
    serAction C env.toEnv (p.mapFloats g) = some (j.mapFloats g) := by
  simp only [serAction, bind, pure, Option.bind_eq_some_iff] at hj
  obtain ⟨es, k1, input, k2, output, k3, other, k4, e⟩ := hj
  injection e with e
  subst e
  simp only [serAction, ActionAffordance.mapFloats, bind, pure, float_interaction hg hC he k1, float_ds hg hC he k2,
    float_ds hg hC he k3, k4, Option.bind_some, mapFloats_obj, mapFloats_append, mapFloats_members, List.map_cons, List.map_nil,
    float_bool, hC.action _ _ k4]
  rfl

theorem float_event {p : EventAffordance X} {j : Json} (hj : serEvent C env.toEnv p = some j) :
    serEvent C env.toEnv (p.mapFloats g) = some (j.mapFloats g) := by
  simp only [serEvent, bind, pure, Option.bind_eq_some_iff] at hj
  obtain ⟨es, k1, s1, k2, s2, k3, s3, k4, s4, k5, other, k6, e⟩ := hj
  injection e with e
  subst e
  simp only [serEvent, EventAffordance.mapFloats, bind, pure, float_interaction hg hC he k1, float_ds hg hC he k2,
    float_ds hg hC he k3, float_ds hg hC he k4, float_ds hg hC he k5, k6, Option.bind_some, mapFloats_obj, mapFloats_append,
    mapFloats_members, List.map_cons, List.map_nil, hC.event _ _ k6]

/-- If maps are iterated in the order of their keys, what is written for a Thing after a function on its floats is what is written
for the Thing, after the function. -/
theorem float_thing {j : Json} (hj : serThing C env t = some j) : serThing C env (t.mapFloats g) = some (j.mapFloats g) := by
  simp only [serThing, bind, pure, Option.bind_eq_some_iff] at hj
  obtain ⟨created, h1, modified, h2, properties, h3, actions, h4, events, h5, forms, h6, secs, h7, uris, h8,
    defs, h9, other, h10, e⟩ := hj
  injection e with e
  subst e
  have time : ∀ {o : Option OffsetDateTime} {r : Option Json}, optOpt (fun d => (env.timeFormat d).map Json.str) o = some r →
      r.map (Json.mapFloats g) = r := by
    intro o r h
    cases o with
    | none => cases h; rfl
    | some d =>
      obtain ⟨j, hj, rfl⟩ := Option.map_eq_some_iff.1 h
      obtain ⟨s, hs, rfl⟩ := Option.map_eq_some_iff.1 hj
      rfl
  have fs : forms.map (Json.mapFloats g) = forms := by
    cases hf : t.forms with
    | none => rw [hf] at h6; cases h6; rfl
    | some l =>
      rw [hf] at h6
      obtain ⟨j, hj, rfl⟩ := Option.map_eq_some_iff.1 h6
      obtain ⟨s, hs, rfl⟩ := Option.map_eq_some_iff.1 hj
      rw [Option.map_some, mapFloats_arr, float_forms hC hs]
  have version : (t.version.map serVersion).map (Json.mapFloats g) = t.version.map serVersion := by
    rcases t.version with _ | ⟨_, _ | _⟩ <;> rfl
  have links : (t.links.map fun l => Json.arr (l.map serLink)).map (Json.mapFloats g) = t.links.map fun l => Json.arr (l.map serLink) := by
    cases t.links with
    | none => rfl
    | some l =>
      have : ∀ r, (serLink r).mapFloats g = serLink r := by
        intro r
        rw [serLink, mapFloats_obj, mapFloats_members]
        simp only [List.map_cons, List.map_nil, float_str, float_strs, Option.map_some, mapFloats_str]
      simp only [Option.map_some, mapFloats_arr, List.map_map, Function.comp_def, this]
  have p3 := float_optOpt (f' := serMap env.toEnv (serProperty C env.toEnv)) (w := HMap.mapVals (PropertyAffordance.mapFloats g)) h3
    fun _ _ _ hj => float_serMap he hj fun kv _ _ hj => float_property hg hC he hj
  have p4 := float_optOpt (f' := serMap env.toEnv (serAction C env.toEnv)) (w := HMap.mapVals (ActionAffordance.mapFloats g)) h4
    fun _ _ _ hj => float_serMap he hj fun kv _ _ hj => float_action hg hC he hj
  have p5 := float_optOpt (f' := serMap env.toEnv (serEvent C env.toEnv)) (w := HMap.mapVals (EventAffordance.mapFloats g)) h5
    fun _ _ _ hj => float_serMap he hj fun kv _ _ hj => float_event hg hC he hj
  have p7 := float_serMap (f' := serSecurity env.toEnv) (w := SecurityScheme.mapFloats g) he h7
    fun kv _ _ hj => float_security (g := g) hj
  simp only [serThing, Thing.mapFloats, bind, pure, h1, h2, p3, p4, p5, h6, p7, float_schemas hg hC he h8, float_schemas hg hC he h9,
    h10, Option.bind_some, mapFloats_obj, mapFloats_append, mapFloats_members, List.map_cons, List.map_nil, float_str, float_strs,
    float_lang, float_strings, mapFloats_str, Option.map_some, time h1, time h2, fs, version, links, hC.thing _ _ h10]

end
end
end Wot
