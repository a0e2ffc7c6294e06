import Verif.Lemmas.Outcome
import Verif.Lemmas.Schema
import Verif.Spec.Lang
/-
The conversions of translations and schemas, characterised.
-/
namespace Wot

variable {DS AS OS S S' : Type}

theorem outcome_parseLang (env : Env) (kv : String × String) :
    Outcome (parseLang env kv) (fun e => env.langParse kv.1 = none ∧ e = .invalidLanguageTag kv.1)
      ((env.langParse kv.1).getD kv.1, kv.2) := by
  unfold parseLang
  cases h : env.langParse kv.1 with
  | none => exact ⟨rfl, rfl⟩
  | some t => exact ⟨rfl, by simp⟩

theorem outcome_langBuild (env : Env) (b : MultiLanguageBuilder) :
    Outcome (b.build env) (LangViolation env (· ∈ HMap.keys b.values)) (langResult env b) := by
  have h := Outcome.tryMap (l := env.iter b.values) fun kv _ => outcome_parseLang env kv
  have h2 : Outcome (tryMap (parseLang env) (env.iter b.values) >>= fun l =>
        pure (MultiLanguage.mk (HMap.collect l)))
      (fun e => ∃ a ∈ env.iter b.values, env.langParse a.1 = none ∧ e = .invalidLanguageTag a.1)
      (langResult env b) := h.map _
  have h3 : b.build env = (tryMap (parseLang env) (env.iter b.values) >>= fun l =>
        pure (MultiLanguage.mk (HMap.collect l))) := by
    unfold MultiLanguageBuilder.build
    cases tryMap (parseLang env) (env.iter b.values) <;> rfl
  rw [h3]
  refine h2.congrV fun e => ?_
  constructor
  · rintro ⟨a, ha, h1, h2⟩
    exact ⟨a.1, List.mem_map.2 ⟨a, (Env.mem_iter env _ _).1 ha, rfl⟩, h1, h2⟩
  · rintro ⟨k, hk, h1, h2⟩
    obtain ⟨a, ha, rfl⟩ := List.mem_map.1 hk
    exact ⟨a, (Env.mem_iter env _ _).2 ha, h1, h2⟩

theorem outcome_buildLang (env : Env) (o : Option MultiLanguageBuilder) :
    Outcome (buildLang env o) (LangViolation env (KeyOf o)) (o.map (langResult env)) := by
  refine (Outcome.tryOpt fun a _ => outcome_langBuild env a).congrV fun e => ?_
  constructor
  · rintro ⟨b, hb, k, hk, h⟩; exact ⟨k, ⟨b, hb, hk⟩, h⟩
  · rintro ⟨k, ⟨b, hb, hk⟩, h⟩; exact ⟨b, hb, k, hk, h⟩

/-- Conversion of the values of a map. -/
theorem outcome_tryMapVals {V W : Type} (env : Env) {f : V → Except Error W} {Vi : V → Error → Prop}
    {g : V → W} {m : HMap V} (hm : HMap.Sorted m) (h : ∀ kv ∈ m, Outcome (f kv.2) (Vi kv.2) (g kv.2)) :
    Outcome (tryMapVals env f m) (fun e => ∃ kv ∈ m, Vi kv.2 e) (HMap.mapVals g m) := by
  unfold tryMapVals
  have h1 : Outcome (tryMap (fun kv => do let w ← f kv.2; pure (kv.1, w)) (env.iter m))
      (fun e => ∃ kv ∈ env.iter m, Vi kv.2 e) ((env.iter m).map fun kv => (kv.1, g kv.2)) :=
    Outcome.tryMap fun kv hkv => (h kv ((Env.mem_iter env _ _).1 hkv)).map fun w => (kv.1, w)
  refine (h1.map HMap.collect).congr (fun e => ?_) fun _ => ?_
  · constructor
    · rintro ⟨kv, hkv, hv⟩; exact ⟨kv, (Env.mem_iter env _ _).1 hkv, hv⟩
    · rintro ⟨kv, hkv, hv⟩; exact ⟨kv, (Env.mem_iter env _ _).2 hkv, hv⟩
  · have hp : ((env.iter m).map fun kv => (kv.1, g kv.2)).Perm (HMap.mapVals g m) :=
      (env.iter_perm m).map _
    have hs := hm.mapVals g
    have hnd : (((env.iter m).map fun kv => (kv.1, g kv.2)).map (·.1)).Nodup :=
      (hp.map _).nodup_iff.2 hs.nodup
    rw [HMap.collect_perm hp hnd, HMap.collect_of_sorted hs]

theorem mapLang_mk {L L' : Type} (f : L → L') (h : SchemaHead L DS)
    (o : Option (List (Schema L DS AS OS))) (s : Option (SubtypeF AS OS (Schema L DS AS OS))) :
    Schema.mapLang f (.mk h o s) =
      .mk { attype := h.attype, title := h.title, titles := h.titles.map f,
            description := h.description, descriptions := h.descriptions.map f,
            constant := h.constant, default := h.default, unit := h.unit,
            enumeration := h.enumeration, readOnly := h.readOnly, writeOnly := h.writeOnly,
            format := h.format, other := h.other }
        (o.map (List.map (Schema.mapLang f))) (s.map (SubtypeF.map (Schema.mapLang f))) := by
  rw [Schema.mapLang, Schema.fold_mk]

theorem perm_map_inv {α β : Type} {F : α → β} {L M : List β} (h : L.Perm M) :
    ∀ l : List α, M = l.map F → ∃ l' : List α, l'.Perm l ∧ L = l'.map F := by
  induction h with
  | nil => intro l hl; exact ⟨l, .refl _, hl⟩
  | cons x _ ih =>
    intro l hl
    cases l with
    | nil => simp at hl
    | cons a t =>
      simp only [List.map_cons, List.cons.injEq] at hl
      obtain ⟨l', hp, he⟩ := ih t hl.2
      exact ⟨a :: l', hp.cons a, by simp [he, hl.1]⟩
  | swap x y L =>
    intro l hl
    match l, hl with
    | a :: b :: t, hl =>
      simp only [List.map_cons, List.cons.injEq] at hl
      exact ⟨b :: a :: t, .swap _ _ _, by simp [hl]⟩
  | trans _ _ ih1 ih2 =>
    intro l hl
    obtain ⟨l2, hp2, he2⟩ := ih2 l hl
    obtain ⟨l1, hp1, he1⟩ := ih1 l2 he2
    exact ⟨l1, hp1.trans hp2, he1⟩

theorem tryMap_map {α β γ ε : Type} (F : α → β) (h : β → Except ε γ) (l : List α) :
    tryMap h (l.map F) = tryMap (fun a => h (F a)) l := by
  induction l with
  | nil => rfl
  | cons a l ih => simp only [List.map, tryMap, ih]

/-- Conversion of nested schemas, given the conversion of each. -/
theorem outcome_tryIntoSub (env : Env) {f : S → Except Error S'} {Vi : S → Error → Prop} {g : S → S'}
    (st : SubtypeF AS OS S) (hc : ∀ c ∈ st.children, Outcome (f c) (Vi c) (g c))
    (hm : ∀ o m, st = .object o → o.properties = some m → HMap.Sorted m) :
    Outcome (tryIntoSub env (st.map f)) (fun e => ∃ c ∈ st.children, Vi c e) (st.map g) := by
  cases st with
  | array a =>
    obtain ⟨items, a1, a2, a3⟩ := a
    rcases items with _ | (x | l)
    · exact ⟨rfl, by simp [SubtypeF.children]⟩
    · have hx := hc x (by simp [SubtypeF.children, ElemOrVec.toList])
      simp only [SubtypeF.map, ElemOrVec.map, Option.map, tryIntoSub, tryIntoArray, tryOpt]
      rcases hx.ok_or with ⟨h1, h2⟩ | ⟨e, h1, h2⟩
      · simp only [h1]
        exact ⟨rfl, by simpa [SubtypeF.children, ElemOrVec.toList] using h2⟩
      · simp only [h1]
        exact ⟨x, by simp [SubtypeF.children, ElemOrVec.toList], h2⟩
    · have hl : Outcome (tryMap id (l.map f)) (fun e => ∃ c ∈ l, Vi c e) (l.map g) := by
        have h0 : tryMap id (l.map f) = tryMap f l := by
          clear hc hm
          induction l with
          | nil => rfl
          | cons a l ih => simp only [List.map, tryMap, id, ih]
        rw [h0]
        exact Outcome.tryMap fun c hc' => hc c (by simpa [SubtypeF.children, ElemOrVec.toList] using hc')
      simp only [SubtypeF.map, ElemOrVec.map, Option.map, tryIntoSub, tryIntoArray, tryOpt]
      rcases hl.ok_or with ⟨h1, h2⟩ | ⟨e, h1, h2⟩
      · simp only [h1]
        exact ⟨rfl, by simpa [SubtypeF.children, ElemOrVec.toList] using h2⟩
      · simp only [h1]
        exact (show ∃ c ∈ _, _ by simpa [SubtypeF.children, ElemOrVec.toList] using h2)
  | object o =>
    obtain ⟨ps, o1, o2⟩ := o
    rcases ps with _ | m
    · exact ⟨rfl, by simp [SubtypeF.children]⟩
    · have hs := hm _ m rfl rfl
      have hl : Outcome (tryMapVals env id (HMap.mapVals f m)) (fun e => ∃ kv ∈ m, Vi kv.2 e)
          (HMap.mapVals g m) := by
        unfold tryMapVals
        obtain ⟨l', hp, he⟩ := perm_map_inv (F := fun kv : String × S => (kv.1, f kv.2))
          (env.iter_perm (HMap.mapVals f m)) m rfl
        rw [he, tryMap_map]
        have h1 : Outcome (tryMap (fun kv : String × S => do let w ← f kv.2; pure (kv.1, w)) l')
            (fun e => ∃ kv ∈ l', Vi kv.2 e) (l'.map fun kv => (kv.1, g kv.2)) :=
          Outcome.tryMap fun kv hkv => (hc kv.2 (by
            simp only [SubtypeF.children, HMap.values, Option.map, Option.getD]
            exact List.mem_map.2 ⟨kv, hp.mem_iff.1 hkv, rfl⟩)).map fun w => (kv.1, w)
        refine (h1.map HMap.collect).congr (fun e => ?_) fun _ => ?_
        · constructor
          · rintro ⟨kv, hkv, hv⟩; exact ⟨kv, hp.mem_iff.1 hkv, hv⟩
          · rintro ⟨kv, hkv, hv⟩; exact ⟨kv, hp.mem_iff.2 hkv, hv⟩
        · have hp' : (l'.map fun kv => (kv.1, g kv.2)).Perm (HMap.mapVals g m) := hp.map _
          have hs' := hs.mapVals g
          have hnd : ((l'.map fun kv => (kv.1, g kv.2)).map (·.1)).Nodup :=
            (hp'.map _).nodup_iff.2 hs'.nodup
          rw [HMap.collect_perm hp' hnd, HMap.collect_of_sorted hs']
      simp only [SubtypeF.map, Option.map, tryIntoSub, tryIntoObject, tryOpt]
      rcases hl.ok_or with ⟨h1, h2⟩ | ⟨e, h1, h2⟩
      · simp only [h1]
        refine ⟨rfl, ?_⟩
        rintro e ⟨c, hc', hv⟩
        simp only [SubtypeF.children, HMap.values, Option.map, Option.getD, List.mem_map] at hc'
        obtain ⟨kv, hkv, rfl⟩ := hc'
        exact h2 e ⟨kv, hkv, hv⟩
      · simp only [h1]
        obtain ⟨kv, hkv, hv⟩ := h2
        exact ⟨kv.2, by
          simp only [SubtypeF.children, HMap.values, Option.map, Option.getD]
          exact List.mem_map.2 ⟨kv, hkv, rfl⟩, hv⟩
  | _ => exact ⟨rfl, by simp [SubtypeF.children]⟩

theorem schemaKey_iff {s : UncheckedDataSchema DS AS OS} {k : String} :
    SchemaKey s k ↔ KeyOf s.head.titles k ∨ KeyOf s.head.descriptions k ∨
      (∃ l, s.oneOf = some l ∧ ∃ c ∈ l, SchemaKey c k) ∨
      (∃ st, s.subtype = some st ∧ ∃ c ∈ st.children, SchemaKey c k) := by
  constructor
  · rintro ⟨x, hx, hk⟩
    rcases within_iff.1 hx with rfl | ⟨l, hl, c, hc, hx⟩ | ⟨st, hst, c, hc, hx⟩
    · rcases hk with hk | hk
      · exact .inl hk
      · exact .inr (.inl hk)
    · exact .inr (.inr (.inl ⟨l, hl, c, hc, x, hx, hk⟩))
    · exact .inr (.inr (.inr ⟨st, hst, c, hc, x, hx, hk⟩))
  · rintro (hk | hk | ⟨l, hl, c, hc, x, hx, hk⟩ | ⟨st, hst, c, hc, x, hx, hk⟩)
    · exact ⟨s, .self s, .inl hk⟩
    · exact ⟨s, .self s, .inr hk⟩
    · exact ⟨x, within_iff.2 (.inr (.inl ⟨l, hl, c, hc, hx⟩)), hk⟩
    · exact ⟨x, within_iff.2 (.inr (.inr ⟨st, hst, c, hc, hx⟩)), hk⟩

theorem schemaRep_iff {s : UncheckedDataSchema DS AS OS} :
    SchemaRep s ↔ (LangRep s.head.titles ∧ LangRep s.head.descriptions ∧
      ∀ o m, s.subtype = some (.object o) → o.properties = some m → HMap.Sorted m) ∧
      (∀ l, s.oneOf = some l → ∀ c ∈ l, SchemaRep c) ∧
      (∀ st, s.subtype = some st → ∀ c ∈ st.children, SchemaRep c) := allWithin_iff

theorem langViolation_or {env : Env} {p q : String → Prop} {e : Error} :
    LangViolation env (fun k => p k ∨ q k) e ↔ LangViolation env p e ∨ LangViolation env q e := by
  constructor
  · rintro ⟨k, hk | hk, h⟩
    · exact .inl ⟨k, hk, h⟩
    · exact .inr ⟨k, hk, h⟩
  · rintro (⟨k, hk, h⟩ | ⟨k, hk, h⟩)
    · exact ⟨k, .inl hk, h⟩
    · exact ⟨k, .inr hk, h⟩

/-- The conversion of a schema: it fails exactly for rejected language keys and otherwise changes
nothing but the translations. -/
theorem outcome_tryInto (env : Env) (s : UncheckedDataSchema DS AS OS) (hr : SchemaRep s) :
    Outcome (s.tryInto env) (LangViolation env (SchemaKey s)) (s.mapLang (langResult env)) := by
  induction s using Schema.ind with
  | h hd o s ih1 ih2 =>
    obtain ⟨⟨_, _, hm⟩, hr1, hr2⟩ := schemaRep_iff.1 hr
    have ho : Outcome (tryOpt (tryMap id) (o.map (List.map (Schema.tryInto env))))
        (fun e => ∃ l, o = some l ∧ ∃ c ∈ l, LangViolation env (SchemaKey c) e)
        (o.map (List.map (Schema.mapLang (langResult env)))) := by
      cases o with
      | none => exact ⟨rfl, by simp⟩
      | some l =>
        have := Outcome.tryMap (l := l) fun c hc => ih1 l rfl c hc (hr1 l rfl c hc)
        simp only [Option.map, tryOpt]
        rw [tryMap_map]
        simp only [id]
        rcases this.ok_or with ⟨h1, h2⟩ | ⟨e, h1, h2⟩
        · simp only [h1]; exact ⟨rfl, by simpa using h2⟩
        · simp only [h1]; exact ⟨l, rfl, h2⟩
    have hs : Outcome (tryOpt (tryIntoSub env) (s.map (SubtypeF.map (Schema.tryInto env))))
        (fun e => ∃ st, s = some st ∧ ∃ c ∈ st.children, LangViolation env (SchemaKey c) e)
        (s.map (SubtypeF.map (Schema.mapLang (langResult env)))) := by
      cases s with
      | none => exact ⟨rfl, by simp⟩
      | some st =>
        have := outcome_tryIntoSub env st (fun c hc => ih2 st rfl c hc (hr2 st rfl c hc))
          (fun o m h1 h2 => hm o m (by rw [← h1]; rfl) h2)
        simp only [Option.map, tryOpt]
        rcases this.ok_or with ⟨h1, h2⟩ | ⟨e, h1, h2⟩
        · simp only [h1]; exact ⟨rfl, by simpa using h2⟩
        · simp only [h1]; exact ⟨st, rfl, h2⟩
    have heq : Schema.tryInto env (.mk hd o s) = tryIntoAlg env hd
        (o.map (List.map (Schema.tryInto env))) (s.map (SubtypeF.map (Schema.tryInto env))) := by
      rw [Schema.tryInto, Schema.fold_mk]
    rw [heq, mapLang_mk]
    unfold tryIntoAlg
    refine ((outcome_buildLang env hd.titles).bind fun _ =>
      (outcome_buildLang env hd.descriptions).bind fun _ =>
      ho.bind fun _ => hs.map _).congrV fun e => ?_
    constructor
    · rintro (⟨k, h, h'⟩ | ⟨k, h, h'⟩ | ⟨l, hl, c, hc, k, h, h'⟩ | ⟨st, hst, c, hc, k, h, h'⟩)
      · exact ⟨k, schemaKey_iff.2 (.inl h), h'⟩
      · exact ⟨k, schemaKey_iff.2 (.inr (.inl h)), h'⟩
      · exact ⟨k, schemaKey_iff.2 (.inr (.inr (.inl ⟨l, hl, c, hc, h⟩))), h'⟩
      · exact ⟨k, schemaKey_iff.2 (.inr (.inr (.inr ⟨st, hst, c, hc, h⟩))), h'⟩
    · rintro ⟨k, hk, h'⟩
      rcases schemaKey_iff.1 hk with h | h | ⟨l, hl, c, hc, h⟩ | ⟨st, hst, c, hc, h⟩
      · exact .inl ⟨k, h, h'⟩
      · exact .inr (.inl ⟨k, h, h'⟩)
      · exact .inr (.inr (.inl ⟨l, hl, c, hc, k, h, h'⟩))
      · exact .inr (.inr (.inr ⟨st, hst, c, hc, k, h, h'⟩))

end Wot
