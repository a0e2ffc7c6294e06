import Verif.Lemmas.Valid
/-
Which duplicate is reported.
-/
namespace Wot

theorem buildSecDefs_first (env : Env) (l1 : List (SecuritySchemeBuilder SchemeSubtype))
    (c : SecuritySchemeBuilder SchemeSubtype) (l2 : List (SecuritySchemeBuilder SchemeSubtype))
    (acc : HMap SecurityScheme) (hn : (l1.map securityName).Nodup)
    (hacc : ∀ d ∈ l1, acc.contains (securityName d) = false)
    (hc : securityName c ∈ l1.map securityName ∨ acc.contains (securityName c) = true)
    (hl : ∀ d ∈ l1 ++ [c], ∀ k, KeyOf d.descriptions k → env.langParse k ≠ none) :
    buildSecDefs env acc ((l1 ++ c :: l2).map fun s => (securityName s, s.scheme)) =
      .error (.duplicatedSecurityDefinition (securityName c)) := by
  induction l1 generalizing acc with
  | nil =>
    have ho := outcome_scheme env c.scheme
    have hc : acc.contains (securityName c) = true := by simpa using hc
    have hok : c.scheme.tryInto env = .ok (schemeResult env c.scheme) := by
      rcases ho.ok_or with h | ⟨e, -, k, hk, hp, -⟩
      · exact h.1
      · exact absurd hp (hl c (by simp) k hk)
    simp [buildSecDefs, hok, hc, bind, Except.bind]
  | cons d l1 ih =>
    have ho := outcome_scheme env d.scheme
    have hok : d.scheme.tryInto env = .ok (schemeResult env d.scheme) := by
      rcases ho.ok_or with h | ⟨e, -, k, hk, hp, -⟩
      · exact h.1
      · exact absurd hp (hl d (by simp) k hk)
    have hd := hacc d (by simp)
    rw [List.map_cons, List.nodup_cons] at hn
    simp only [List.cons_append, List.map_cons, buildSecDefs, hok, hd, bind, Except.bind,
      Bool.false_eq_true, if_false]
    refine ih _ hn.2 (fun d' hd' => ?_) ?_ fun d' hd' => hl d' ?_
    · have hne : securityName d' ≠ securityName d := fun he => hn.1 (he ▸ List.mem_map_of_mem hd')
      have := hacc d' (by simp [hd'])
      unfold HMap.contains at this ⊢
      rw [HMap.get?_insert, if_neg hne]
      exact this
    · by_cases he : securityName c = securityName d
      · right
        unfold HMap.contains
        rw [HMap.get?_insert, if_pos he]; rfl
      · rcases hc with hc | hc
        · left
          simpa [he] using hc
        · right
          unfold HMap.contains at hc ⊢
          rw [HMap.get?_insert, if_neg he]; exact hc
    · simp only [List.mem_append, List.cons_append, List.mem_cons] at hd' ⊢
      exact .inr hd'

end Wot
