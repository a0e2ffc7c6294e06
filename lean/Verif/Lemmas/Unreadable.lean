import Verif.Lemmas.Protocol
/-
A document that contains something that cannot be read cannot be read.
-/
namespace Wot

/-- No document that says what `j` says can be read. -/
def Unreadable {α : Type} (j : Json) (de : Json → Option α) : Prop := ∀ d, Represents d j → de d = none

section
variable {α : Type} {es m : Members} {k : String} {de : Json → Option α}

theorem required_bad (h : Carries es m k) {j : Json} (hj : lastOf (occ k m) = some j)
    (hr : Unreadable j de) : required k de es = none := by
  obtain ⟨v', h1, h2⟩ := h.present hj
  unfold required
  rw [h1]
  exact hr v' h2

theorem optional_bad (h : Carries es m k) {j : Json} (hj : lastOf (occ k m) = some j) (hn : j ≠ .null)
    (hr : Unreadable j de) : optional k de es = none := by
  obtain ⟨v', h1, h2⟩ := h.present hj
  have := h2.ne_null hn
  have h3 := hr v' h2
  unfold optional defaulted
  rw [h1]
  cases v' <;> simp_all [deOption]

theorem optOpt_some {β : Type} {f : α → Option β} {o : Option α} {r : Option β} {a : α}
    (h : optOpt f o = some r) (ho : o = some a) : ∃ b, r = some b ∧ f a = some b := by
  subst ho
  obtain ⟨b, h1, rfl⟩ := Option.map_eq_some_iff.1 h
  exact ⟨b, rfl, h1⟩

theorem mapOpt_none {f : α → Option β} {l : List α} {a : α} (ha : a ∈ l) (h : f a = none) :
    mapOpt f l = none := by
  cases e : mapOpt f l with
  | none => rfl
  | some m =>
    obtain ⟨b, _, hb⟩ := (mapOpt_eq_some.1 e).of_mem_left a ha
    rw [h] at hb
    cases hb

theorem Pointwise.of_mem_right {β : Type} {R : α → β → Prop} {l : List α} {m : List β}
    (h : Pointwise R l m) : ∀ b ∈ m, ∃ a ∈ l, R a b := by
  induction h with
  | nil => nofun
  | cons hab _ ih =>
    intro b hb
    rcases List.mem_cons.1 hb with rfl | hb
    · exact ⟨_, by simp, hab⟩
    · obtain ⟨a, ha, hr⟩ := ih b hb
      exact ⟨a, List.mem_cons_of_mem _ ha, hr⟩

theorem vec_bad {js : List Json} {j : Json} (hj : j ∈ js) (hr : Unreadable j de) :
    Unreadable (.arr js) (deVec de) := by
  intro d hd
  obtain ⟨l', rfl, hp⟩ := hd.arr
  obtain ⟨a, ha, hr'⟩ := hp.of_mem_right j hj
  exact mapOpt_none ha (hr a hr')

theorem map_bad {β : Type} {env : Env} {f : β → Option Json} {m : HMap β} {j : Json} (hs : m.Sorted)
    (h : serMap env f m = some j) {kv : String × β} (hkv : kv ∈ m)
    (hr : ∀ j, f kv.2 = some j → Unreadable j de) : Unreadable j (deMap de) := by
  intro d hd
  obtain ⟨ms, hms, rfl⟩ := Option.map_eq_some_iff.1 h
  obtain ⟨es, rfl, _, hc⟩ := hd.obj
  have hp := mapOptVals_eq_some.1 hms
  obtain ⟨jkv, hjkv, hk, hser⟩ := hp.of_mem_left kv ((env.iter_perm m).mem_iff.2 hkv)
  have hkeys : ms.map (·.1) = (env.iter m).map (·.1) := by
    have : ∀ {a : List (String × β)} {b : Members},
        Pointwise (fun a b => a.1 = b.1 ∧ f a.2 = some b.2) a b → b.map (·.1) = a.map (·.1) := by
      intro a b h
      induction h with
      | nil => rfl
      | cons hab _ ih => simp [ih, hab.1]
    exact this hp
  have hnd : (ms.map (·.1)).Nodup := by
    rw [hkeys]
    exact ((env.iter_perm m).map (fun kv : String × β => kv.1)).nodup_iff.2 hs.nodup
  have hocc : occ jkv.1 ms = [jkv.2] := occ_nodup hnd hjkv
  obtain ⟨v', h1, h2⟩ := (hc jkv.1).present (v := jkv.2) (by rw [hocc]; rfl)
  have hm : (jkv.1, v') ∈ es := mem_occ.1 (by simp [h1])
  have : mapOptVals de es = none := mapOpt_none hm (by simp [hr _ hser v' h2])
  simp only [deMap, this, Option.map_none]

end

variable {X : ExtTypes} {C : ExtCodecs X} {env : SerdeEnv}

/-- The extension of a response cannot be read. -/
def ResponseBad (C : ExtCodec R) (r : R) : Prop :=
  ∀ m es, C.ser r = some m → (∀ k ∈ C.keys, Carries es m k) → C.de es = none

theorem response_bad {r : ExpectedResponse X.response} {j : Json} (ap : Apart C.response.keys ["contentType"])
    (hr : ResponseBad C.response r.other) (hw : serResponse C.response r = some j) :
    Unreadable j (deResponse C.response) := by
  intro d hd
  obtain ⟨other, ho, rfl⟩ := Option.map_eq_some_iff.1 hw
  obtain ⟨es, rfl, _, hc⟩ := hd.obj
  have g2 : C.response.de (rest ["contentType"] es) = none := by
    refine hr _ _ ho fun k hk => Carries.rest ((hc k).congr ?_) (ap k hk)
    rw [occ_cons, if_neg]
    intro e
    exact ap k hk (by simp [e])
  simp only [deResponse, bind, g2, Option.bind_none]
  cases required "contentType" deStr es <;> rfl

variable (sep : C.Separate) (td : C.Tidy)
include sep td

theorem form_bad {f : Form X} {j : Json} {r : ExpectedResponse X.response} (hfr : f.response = some r)
    (hr : ResponseBad C.response r.other) (hw : serForm C f = some j) : Unreadable j (deForm C) := by
  simp only [serForm, bind, pure, Option.bind_eq_some_iff] at hw
  obtain ⟨response, hre, other, ho, hw⟩ := hw
  injection hw with hw
  subst hw
  intro d hd
  obtain ⟨es, rfl, _, hc⟩ := hd.obj
  have own := (td.form _ _ ho).keys
  have hc8 := (hc "response").left (occ_none_of_keys own fun h => sep.form _ h (by decide))
  have h8 := hc8.field (by names) (by simp [fieldOf]; rfl)
  obtain ⟨jr, rfl, hjr⟩ := optOpt_some hre hfr
  have bad := optional_bad hc8 h8 (serResponse_ne_null hjr) (response_bad sep.response hr hjr)
  cases hd' : deForm C (.obj es) with
  | none => rfl
  | some q =>
    simp only [deForm, bind, pure, Option.bind_eq_some_iff] at hd'
    obtain ⟨_, _, _, _, _, _, _, _, _, _, _, _, _, _, _, e, _⟩ := hd'
    rw [bad] at e
    cases e

theorem interaction_bad {i : Interaction X} {m es : Members} {f : Form X} (hf : f ∈ i.forms)
    (hb : ∀ j, serForm C f = some j → Unreadable j (deForm C))
    (hw : serInteraction C env.toEnv i = some m)
    (hc : Carries es m "forms") : deInteraction C env es = none := by
  obtain ⟨p⟩ := InteractionParts.of hw
  have own := (td.interaction _ _ p.hother).keys
  rw [p.eq] at hc
  have hc6 := hc.left
      (occ_none_of_keys own fun h => sep.interaction _ h (by decide))
  have h6 := hc6.field (by names) (by simp [fieldOf]; rfl)
  obtain ⟨jf, hjf, hser⟩ := (mapOpt_eq_some.1 p.hforms).of_mem_left f hf
  have bad := required_bad hc6 h6 (vec_bad hjf (hb jf hser))
  cases hd' : deInteraction C env es with
  | none => rfl
  | some q =>
    simp only [deInteraction, bind, pure, Option.bind_eq_some_iff] at hd'
    obtain ⟨_, _, _, _, _, _, _, _, _, _, _, e, _⟩ := hd'
    rw [bad] at e
    cases e

theorem action_bad {a : ActionAffordance X} {j : Json} {f : Form X} (hf : f ∈ a.interaction.forms)
    (hb : ∀ j, serForm C f = some j → Unreadable j (deForm C))
    (hw : serAction C env.toEnv a = some j) : Unreadable j (deAction C env) := by
  intro d hd
  simp only [serAction, bind, pure, Option.bind_eq_some_iff] at hw
  obtain ⟨mi, hmi, input, hin, output, hout, other, ho, hw⟩ := hw
  injection hw with hw
  subst hw
  obtain ⟨es, rfl, _, hc⟩ := hd.obj
  have bad : deInteraction C env (rest actionKeys es) = none := by
    refine interaction_bad sep td hf hb hmi (Carries.rest ?_ (by decide))
    exact ((hc "forms").left (occ_none_of_keys (td.action _ _ ho).keys fun h =>
      sep.action _ h (by simp [Names.interaction]))).left (occ_none_of_keys (members_keys rfl) (by simp))
  cases hd' : deAction C env (.obj es) with
  | none => rfl
  | some q =>
    simp only [deAction, bind, pure, Option.bind_eq_some_iff] at hd'
    obtain ⟨_, _, _, _, _, _, _, _, _, _, _, e, _⟩ := hd'
    rw [bad] at e
    cases e

theorem event_bad {a : EventAffordance X} {j : Json} {f : Form X} (hf : f ∈ a.interaction.forms)
    (hb : ∀ j, serForm C f = some j → Unreadable j (deForm C))
    (hw : serEvent C env.toEnv a = some j) : Unreadable j (deEvent C env) := by
  intro d hd
  simp only [serEvent, bind, pure, Option.bind_eq_some_iff] at hw
  obtain ⟨mi, hmi, sub, hsub, data, hdata, dr, hdr, can, hcan, other, ho, hw⟩ := hw
  injection hw with hw
  subst hw
  obtain ⟨es, rfl, _, hc⟩ := hd.obj
  have bad : deInteraction C env (rest eventKeys es) = none := by
    refine interaction_bad sep td hf hb hmi (Carries.rest ?_ (by decide))
    exact ((hc "forms").left (occ_none_of_keys (td.event _ _ ho).keys fun h =>
      sep.event _ h (by simp [Names.interaction]))).left (occ_none_of_keys (members_keys rfl) (by simp))
  cases hd' : deEvent C env (.obj es) with
  | none => rfl
  | some q =>
    simp only [deEvent, bind, pure, Option.bind_eq_some_iff] at hd'
    obtain ⟨_, _, _, _, _, _, _, _, _, e, _⟩ := hd'
    rw [bad] at e
    cases e

theorem property_bad {p : PropertyAffordance X} {j : Json} {f : Form X} (hf : f ∈ p.interaction.forms)
    (hb : ∀ j, serForm C f = some j → Unreadable j (deForm C))
    (hw : serProperty C env.toEnv p = some j) : Unreadable j (deProperty C env) := by
  intro d hd
  simp only [serProperty, bind, pure, Option.bind_eq_some_iff] at hw
  obtain ⟨mi, hmi, ms, hms, other, ho, hw⟩ := hw
  injection hw with hw
  subst hw
  obtain ⟨es, rfl, _, hc⟩ := hd.obj
  have bad : deInteraction C env (rest ["observable"] es) = none := by
    refine interaction_bad sep td hf hb hmi (Carries.rest ?_ (by decide))
    refine (((hc "forms").left (occ_none_of_keys (td.property _ _ ho).keys fun h =>
      sep.property _ h (by simp [Names.interaction]))).left (occ_none_of_keys (members_keys rfl) (by simp))).left ?_
    obtain ⟨ps⟩ := SchemaParts.of hms
    have hst := ps.st_keys' (fun a _ m h => (td.arraySchema _ _ h).keys)
      fun a _ m h => (td.objectSchema _ _ h).keys
    rw [congrArg (occ _) ps.eq, occ_append, occ_append, occ_none_of_keys (members_keys rfl) (by simp),
      occ_none_of_keys hst, occ_none_of_keys (td.dataSchema _ _ ps.hother).keys]
    · rfl
    · exact fun h => sep.dataSchemaProperty _ h (by decide)
    · intro h
      rcases List.mem_append.1 h with h | h
      · exact absurd h (by decide)
      · rcases List.mem_append.1 h with h | h
        · exact sep.arraySchemaProperty _ h (by decide)
        · exact sep.objectSchemaProperty _ h (by decide)
  cases hd' : deProperty C env (.obj es) with
  | none => rfl
  | some q =>
    simp only [deProperty, bind, pure, Option.bind_eq_some_iff] at hd'
    obtain ⟨_, _, _, e, _⟩ := hd'
    rw [bad] at e
    cases e

/-- A Thing with a form that cannot be read cannot be read. -/
theorem thing_bad {t : Thing X} {j : Json} {ctx : FormContext} {f : Form X}
    (hs : (∀ m, t.properties = some m → m.Sorted) ∧ (∀ m, t.actions = some m → m.Sorted) ∧
      ∀ m, t.events = some m → m.Sorted) (hf : t.HasForm ctx f)
    (hb : ∀ j, serForm C f = some j → Unreadable j (deForm C))
    (hw : serThing C env t = some j) : Unreadable j (deThing C env) := by
  intro d hd
  simp only [serThing, bind, pure, Option.bind_eq_some_iff] at hw
  obtain ⟨created, hcr, modified, hmo, properties, hpr, actions, hac, events, hev, forms, hfo,
    secs, hsec, uris, huri, schemas, hsch, other, ho, hw⟩ := hw
  injection hw with hw
  subst hw
  obtain ⟨es, rfl, _, hc⟩ := hd.obj
  have own := (td.thing _ _ ho).keys
  have hf' : ∀ {k : String} {v : Option Json}, k ∈ Names.thing → fieldOf k _ = v → _ ∧ _ :=
    fun {k v} h1 h2 =>
    have := (hc k).left (occ_none_of_keys own fun h => sep.thing k h h1)
    And.intro this (this.field (by names) h2)
  have h1 := hf' (k := "properties") (by decide) (by simp [fieldOf]; rfl)
  have h2 := hf' (k := "actions") (by decide) (by simp [fieldOf]; rfl)
  have h3 := hf' (k := "events") (by decide) (by simp [fieldOf]; rfl)
  have h4 := hf' (k := "forms") (by decide) (by simp [fieldOf]; rfl)
  cases hd' : deThing C env (.obj es) with
  | none => rfl
  | some q =>
    exfalso
    simp only [deThing, bind, pure, Option.bind_eq_some_iff] at hd'
    obtain ⟨_, _, _, _, _, _, _, _, _, _, _, _, _, _, _, _, _, _, _, _, _, _, _, _, _, e1, _, e2, _, e3,
      _, _, _, e4, _⟩ := hd'
    cases hf with
    | thing hm hin =>
      obtain ⟨jf, rfl, hj⟩ := optOpt_some hfo hm
      obtain ⟨js, hjs, rfl⟩ := Option.map_eq_some_iff.1 hj
      obtain ⟨jf, hjf, hser⟩ := (mapOpt_eq_some.1 hjs).of_mem_left f hin
      rw [optional_bad h4.1 h4.2 nofun (vec_bad hjf (hb jf hser))] at e4
      cases e4
    | property hm hin hf =>
      obtain ⟨jf, rfl, hj⟩ := optOpt_some hpr hm
      rw [optional_bad h1.1 h1.2 (serMap_ne_null hj) (map_bad (hs.1 _ hm) hj hin fun j hj =>
        property_bad sep td hf hb hj)] at e1
      cases e1
    | action hm hin hf =>
      obtain ⟨jf, rfl, hj⟩ := optOpt_some hac hm
      rw [optional_bad h2.1 h2.2 (serMap_ne_null hj) (map_bad (hs.2.1 _ hm) hj hin fun j hj =>
        action_bad sep td hf hb hj)] at e2
      cases e2
    | event hm hin hf =>
      obtain ⟨jf, rfl, hj⟩ := optOpt_some hev hm
      rw [optional_bad h3.1 h3.2 (serMap_ne_null hj) (map_bad (hs.2.2 _ hm) hj hin fun j hj =>
        event_bad sep td hf hb hj)] at e3
      cases e3

end Wot
