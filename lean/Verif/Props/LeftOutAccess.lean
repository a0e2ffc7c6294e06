import Verif.Props.LeftOutRest
import Verif.Props.Access
/-
C93: leaving out a security definition that is not needed closes nothing, and opens only what it has been required for.
-/
namespace Wot

variable {X : ExtTypes} {title : String} {h₁ h₂ : List (ThingOp X)} {b b' : ThingBuilder X} {env : Env} {t t' : Thing X}
  {has : String → Prop} {p : Place} {s : SecuritySchemeBuilder SchemeSubtype}

/-- The same is asked under the other names, and met by the same clients. -/
theorem C93_met {n m : String} (hl : t.LessSecurity n t') (hn : ¬ t.NeedsSecurity n) (hm : t.Maps) (hm' : t'.Maps)
    (hc : t.NoCustomCombo) (hne : m ≠ n) :
    Met t'.Demands has m ↔ Met t.Demands has m := by
  have hd : ∀ m d, m ≠ n → (t'.Demands m d ↔ t.Demands m d) := fun m d hne => by
    constructor
    · rintro ⟨s, hs, ha⟩
      exact ⟨s, HMap.get?_eq_some_of_mem (HMap.Sorted.nodup hm.securityDefinitions)
        ((hl.securityDefinitions _ _).1 (HMap.mem_of_get? hs)).1, ha⟩
    · rintro ⟨s, hs, ha⟩
      exact ⟨s, HMap.get?_eq_some_of_mem (HMap.Sorted.nodup hm'.securityDefinitions)
        ((hl.securityDefinitions _ _).2 ⟨HMap.mem_of_get? hs, hne⟩), ha⟩
  have href : ∀ m l, m ≠ n → t.Demands m (.any l) ∨ t.Demands m (.all l) → ∀ k ∈ l, k ≠ n := by
    rintro m l hne ha k hk rfl
    rcases ha with ⟨s, hs, ha⟩ | ⟨s, hs, ha⟩
    · generalize hsub : s.subtype = u at ha
      cases ha with
      | oneOf => exact hn (.inr ⟨m, s, l, HMap.mem_of_get? hs, hne, .inl hsub, hk⟩)
      | custom ha =>
        cases ha with
        | any e => subst e; exact hc _ _ _ (HMap.mem_of_get? hs) hsub
    · generalize hsub : s.subtype = u at ha
      cases ha with
      | allOf => exact hn (.inr ⟨m, s, l, HMap.mem_of_get? hs, hne, .inr hsub, hk⟩)
      | custom ha =>
        cases ha with
        | all e => subst e; exact hc _ _ _ (HMap.mem_of_get? hs) hsub
  constructor
  · intro h
    induction h with
    | nothing ha => exact .nothing ((hd _ _ hne).1 ha)
    | credentials ha hh => exact .credentials ((hd _ _ hne).1 ha) hh
    | any ha hk _ ih =>
      have ha := (hd _ _ hne).1 ha
      exact .any ha hk (ih (href _ _ hne (.inl ha) _ hk))
    | all ha _ ih =>
      have ha := (hd _ _ hne).1 ha
      exact .all ha fun k hk => ih k hk (href _ _ hne (.inr ha) _ hk)
  · intro h
    induction h with
    | nothing ha => exact .nothing ((hd _ _ hne).2 ha)
    | credentials ha hh => exact .credentials ((hd _ _ hne).2 ha) hh
    | any ha hk _ ih => exact .any ((hd _ _ hne).2 ha) hk (ih (href _ _ hne (.inl ha) _ hk))
    | all ha _ ih => exact .all ((hd _ _ hne).2 ha) fun k hk => ih k hk (href _ _ hne (.inr ha) _ hk)

section
variable (hr : Reachable X title (h₁ ++ .common (.security s) :: h₂) b) (hr' : Reachable X title (h₁ ++ h₂) b')
  (hb : b.build env = .ok t) (hb' : b'.build env = .ok t') (ho : b'.other = b.other) (hc : t.NoCustomCombo)
include hr hr' hb hb' ho hc

/-- Without a security definition that can be left out, a client can use a form just when it meets all the definitions that counted for
the form, except that the one left out does not count where it counted for all forms. -/
theorem C93_opens : t'.Opens has p ↔ ∃ f, t.formAt p = some f ∧
    ∀ m ∈ f.security.getD t.security, (f.security = none → m ≠ securityName s) → Met t.Demands has m := by
  have hl := C91_less_security hr hr' hb ho hb'
  have hn := (C91_security hr hr' hb).1 ⟨t', hb'⟩
  have hmet : ∀ m, m ≠ securityName s → (Met t'.Demands has m ↔ Met t.Demands has m) := fun m hne =>
    C93_met hl hn (C49_built hr hb) (C49_built hr' hb') hc hne
  have hf : t'.formAt p = t.formAt p := by
    rw [hl.same]
    rfl
  unfold Thing.Opens
  rw [hf]
  refine exists_congr fun f => and_congr_right fun hp => ?_
  cases hs : f.security with
  | none =>
    show (∀ m ∈ t'.security, _) ↔ ∀ m ∈ t.security, _
    rw [hl.security]
    constructor
    · exact fun h m hm hne => (hmet m (hne rfl)).1 (h m (List.mem_filter.2 ⟨hm, decide_eq_true (hne rfl)⟩))
    · intro h m hm
      obtain ⟨hm, hne⟩ := List.mem_filter.1 hm
      exact (hmet m (of_decide_eq_true hne)).2 (h m hm fun _ => of_decide_eq_true hne)
  | some l =>
    have hne : ∀ m ∈ l, m ≠ securityName s := fun m hm e =>
      hn (.inl ⟨_, f, l, hasForm_of_formAt hp, hs, e ▸ hm⟩)
    exact forall_congr' fun m => ⟨fun h hm _ => (hmet m (hne m hm)).1 (h hm), fun h hm => (hmet m (hne m hm)).2 (h hm nofun)⟩

/-- So nothing is closed by leaving it out … -/
theorem C93_more (h : t.Opens has p) : t'.Opens has p := by
  obtain ⟨f, hf, h⟩ := h
  exact (C93_opens hr hr' hb hb' ho hc).2 ⟨f, hf, fun m hm _ => h m hm⟩

/-- … and nothing is opened either, if the definition was not required for all forms or the form names its own. -/
theorem C93_same (hq : s.required = false ∨ ∃ f l, t.formAt p = some f ∧ f.security = some l) : t'.Opens has p ↔ t.Opens has p := by
  refine ⟨fun h => ?_, C93_more hr hr' hb hb' ho hc⟩
  obtain ⟨f, hf, h⟩ := (C93_opens hr hr' hb hb' ho hc).1 h
  refine ⟨f, hf, fun m hm => h m hm fun hs => ?_⟩
  rcases hq with hq | ⟨f', l, hf', hl⟩
  · rw [hs] at hm
    have hm : m ∈ t.security := hm
    rw [(C02_thing_security hr hb).1] at hm
    obtain ⟨c, hc, rfl⟩ := List.mem_map.1 hm
    obtain ⟨hc, hreq⟩ := List.mem_filter.1 hc
    rw [LeftOut.sec_eq, List.mem_append, List.mem_cons] at hc
    refine LeftOut.sec_not (hr.valid_of_build hb) ?_
    rw [securities_append, List.mem_append]
    rcases hc with hc | rfl | hc
    · exact .inl hc
    · rw [hq] at hreq
      cases hreq
    · exact .inr hc
  · rw [hf] at hf'
    cases hf'
    rw [hs] at hl
    cases hl

end

/-! ### Examples -/

namespace Demo

theorem noCustomCombo : thing.NoCustomCombo := fun m d data hd hs => by
  rcases securities_eq hd with e | e | e <;> rw [e] at hs <;> cases hs

/-- Without the combination, the property of the lamp is still for those with credentials for `basic`, and not for those with
credentials for `psk` only. -/
example : ∃ t', (run (history.take 3 ++ history.drop 4)).build Demo.env = .ok t' ∧
    t'.Opens (· = "basic") (.property "temperature" 0) ∧ ¬ t'.Opens (· = "psk") (.property "temperature" 0) := by
  obtain ⟨t', ht⟩ := ok_of_isOk (x := (run (history.take 3 ++ history.drop 4)).build Demo.env) (by decide +kernel)
  have key : ∀ has, t'.Opens has (.property "temperature" 0) ↔ thing.Opens has (.property "temperature" 0) := fun has =>
    C93_same (h₁ := history.take 3) (h₂ := history.drop 4) (s := combo) reachable (without_reachable 3 4) built ht rfl noCustomCombo (.inl rfl)
  exact ⟨t', ht, (key _).2 temperature_opens.1, fun h => temperature_opens.2 ((key _).1 h)⟩

/-- A Thing with one form that is for those who have both credentials. -/
def two : List (ThingOp Demo.X) := [.common (.security basic), .common (.security psk), .action "a" (act [])]

/-- Without one of the definitions it is also for those who have the other. -/
example : ∃ t t', (run two).build Demo.env = .ok t ∧ (run [.common (.security basic), .action "a" (act [])]).build Demo.env = .ok t' ∧
    ¬ t.Opens (· = "basic") (.action "a" 0) ∧ t'.Opens (· = "basic") (.action "a" 0) := by
  refine ⟨_, _, rfl, rfl, fun ho => ?_, _, rfl, fun n hn => ?_⟩
  · obtain ⟨f, hf, ho⟩ := C79_locked.1 ho
    cases hf
    refine ho "psk" (List.mem_cons_of_mem _ (List.mem_singleton.2 rfl)) (· = "psk") ?_ rfl
    rintro n rfl d ⟨s, hs, ha⟩
    cases hs
    cases ha
    decide
  · cases List.mem_singleton.1 hn
    exact .credentials ⟨_, rfl, .credentials (by nofun) (by nofun)⟩ rfl

end Demo
end Wot
