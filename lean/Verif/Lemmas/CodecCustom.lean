import Verif.Lemmas.CodecSecurity
/-
When custom security schemes are read back.
-/
namespace Wot

variable {env : SerdeEnv}

/-- Only schemes with the name of a predefined one look like one. -/
theorem LooksPredefined.name {s : String} {m : Members} (h : LooksPredefined s m) :
    s ∈ schemeTable.map (·.1) := by
  cases h <;> decide

theorem LooksPredefined.located {s : String} {m : Members} (h : LooksPredefined s m) (hs : s = "basic") :
    LooksLocated m := by
  cases h with
  | basic h => exact h
  | _ => exact absurd hs (by decide)

theorem mem_collect_keys {l : Members} {kv : String × Json} (h : kv ∈ HMap.collect l) :
    kv.1 ∈ l.map (·.1) := by
  have h1 := (mem_collect_iff l kv.1 kv.2).1 h
  have h2 := lastOf_mem h1
  simp only [History.named, List.mem_filterMap] at h2
  obtain ⟨x, hx, h3⟩ := h2
  split at h3
  · rename_i e
    exact List.mem_map.2 ⟨x, hx, e⟩
  · cases h3

theorem normMembers_keys (m : Members) : (Json.normMembers m).map (·.1) = m.map (·.1) := by
  rw [normMembers_eq, HMap.mapVals, List.map_map]; rfl

/-- The data of a custom scheme which has been read is an object without reserved names. -/
theorem custom_data {d : Json} {s : SecurityScheme} (h : deSecurity env d = some s) {scheme : String}
    {data : Json} (hs : s.subtype = .unknown scheme data) :
    ∃ m, data = .obj m ∧ ∀ kv ∈ m, kv.1 ∉ "scheme" :: Names.security := by
  cases d with
  | obj es =>
    simp only [deSecurity, bind, pure] at h
    obtain ⟨_, _, h⟩ := Option.bind_eq_some_iff.1 h
    obtain ⟨_, _, h⟩ := Option.bind_eq_some_iff.1 h
    obtain ⟨_, _, h⟩ := Option.bind_eq_some_iff.1 h
    obtain ⟨_, _, h⟩ := Option.bind_eq_some_iff.1 h
    obtain ⟨st, hst, h⟩ := Option.bind_eq_some_iff.1 h
    cases h
    simp only at hs
    subst hs
    unfold deSubtype at hst
    split at hst
    · cases hst
    · simp only [deUnknown, bind, pure] at hst
      obtain ⟨_, _, h⟩ := Option.bind_eq_some_iff.1 hst
      simp only [Option.some.injEq, SchemeSubtype.unknown.injEq] at h
      refine ⟨_, by rw [← h.2, Json.norm], ?_⟩
      intro kv hkv
      have := mem_collect_keys hkv
      rw [normMembers_keys] at this
      obtain ⟨x, hx, e⟩ := List.mem_map.1 this
      rw [← e]
      simp only [rest, List.mem_filter, Bool.not_eq_true', List.contains_eq_mem, decide_eq_false_iff_not,
        List.mem_singleton] at hx
      exact fun h => (List.mem_cons.1 h).elim hx.2 hx.1.2
  | _ => cases h

/-- A custom scheme without reserved names is read as a predefined one just when it looks like one. -/
theorem custom_known {s : SecurityScheme} {j d : Json} {scheme : String} {m : Members}
    (hs : s.subtype = .unknown scheme (.obj m)) (hv : (Json.obj m).IsValue)
    (hm : ∀ kv ∈ m, kv.1 ∉ "scheme" :: Names.security) (hj : serSecurity env.toEnv s = some j)
    (hd : Represents d j) {s' : SecurityScheme} (h : deSecurity env d = some s') :
    (∃ k, s'.subtype = .known k) ↔ LooksPredefined scheme m := by
  obtain ⟨m', hm', rfl⟩ := Option.map_eq_some_iff.1 hj
  rw [hs] at hm'
  cases hm'
  obtain ⟨es, rfl, hn, hc⟩ := hd.obj
  have hk := deKnown_iff (rest_nodup hn securityKeys) hv hm (scheme := scheme)
    (fun k hk1 => Carries.rest ((hc k).right (occ_none_of_keys (members_keys rfl) hk1)) hk1)
    fun k hk1 => by rw [occ_rest, if_pos hk1]
  rw [← hk]
  simp only [deSecurity, bind, pure] at h
  obtain ⟨_, _, h⟩ := Option.bind_eq_some_iff.1 h
  obtain ⟨_, _, h⟩ := Option.bind_eq_some_iff.1 h
  obtain ⟨_, _, h⟩ := Option.bind_eq_some_iff.1 h
  obtain ⟨_, _, h⟩ := Option.bind_eq_some_iff.1 h
  obtain ⟨st, hst, h⟩ := Option.bind_eq_some_iff.1 h
  cases h
  unfold deSubtype at hst
  cases e : deKnown (rest securityKeys es) with
  | some k => rw [e] at hst; cases hst; simp
  | none =>
    rw [e] at hst
    simp only [deUnknown, bind, pure] at hst
    obtain ⟨_, _, h⟩ := Option.bind_eq_some_iff.1 hst
    cases h
    simp

/-- Custom schemes which look like a predefined one are read, but as a predefined one. -/
theorem custom_taken {s : SecurityScheme} {j d : Json} {scheme : String} {m : Members}
    (hl : LangKept env s.descriptions)
    (hs : s.subtype = .unknown scheme (.obj m)) (hv : (Json.obj m).IsValue)
    (hm : ∀ kv ∈ m, kv.1 ∉ "scheme" :: Names.security) (hj : serSecurity env.toEnv s = some j)
    (hd : Represents d j) (hp : LooksPredefined scheme m) :
    ∃ k, deSecurity env d = some { s with subtype := .known k } := by
  obtain ⟨m', hm', rfl⟩ := Option.map_eq_some_iff.1 hj
  rw [hs] at hm'
  cases hm'
  obtain ⟨es, rfl, hn, hc⟩ := hd.obj
  obtain ⟨k, hk⟩ := (deKnown_iff (rest_nodup hn securityKeys) hv hm (scheme := scheme)
    (fun k hk1 => Carries.rest ((hc k).right (occ_none_of_keys (members_keys rfl) hk1)) hk1)
    fun k hk1 => by rw [occ_rest, if_pos hk1]).2 hp
  have hk' : ∀ k ∈ securityKeys, occ k (("scheme", Json.str scheme) :: m) = [] := fun k hk1 =>
    occ_eq_nil.2 fun h => by
      obtain ⟨kv, hkv, rfl⟩ := List.mem_map.1 h
      rcases List.mem_cons.1 hkv with rfl | hkv
      · exact absurd hk1 (by simp only; decide)
      · exact hm kv hkv (List.mem_cons_of_mem _ hk1)
  have hf : ∀ {k : String} {v : Option Json}, k ∈ securityKeys →
      fieldOf k [("@type", s.attype.map serStrings), ("description", s.description.map .str),
        ("descriptions", s.descriptions.map (serLang env.toEnv)), ("proxy", s.proxy.map .str)] = v →
      _ ∧ _ := fun {k v} h1 h2 =>
    have := (hc k).left (hk' k h1)
    And.intro this (this.field (by names) h2)
  have h1 := hf (k := "@type") (by decide) (by simp [fieldOf]; rfl)
  have h2 := hf (k := "description") (by decide) (by simp [fieldOf]; rfl)
  have h3 := hf (k := "descriptions") (by decide) (by simp [fieldOf]; rfl)
  have h4 := hf (k := "proxy") (by decide) (by simp [fieldOf]; rfl)
  have g1 := optional_field h1.1 h1.2 strings_field
  have g2 := optional_field h2.1 h2.2 Option.map_str_rt
  have g3 := optional_field h3.1 h3.2 (lang_field hl)
  have g4 := optional_field h4.1 h4.2 Option.map_str_rt
  refine ⟨k, ?_⟩
  simp only [deSecurity, deSubtype, g1, g2, g3, g4, hk, bind, Option.bind_some, pure]

end Wot
