import Verif.Lemmas.Protocol
import Verif.Lemmas.Unreadable
import Verif.Lemmas.Writable
import Verif.Lemmas.BuiltStorable
/-
Things with protocol bindings.
-/
namespace Wot

namespace Binding

variable {l : List Binding} {env : SerdeEnv} {t : Thing (stackTypes l)}

theorem valuesKept (hn : l.Nodup) (hp : PlainValues env t) (hg : ThingHeadersGiven l t) :
    ValuesKept env (stack l) t := by
  obtain ⟨h1, h2, h3, h4, h5, h6, h7, h8⟩ := stack_unit_reads l
  exact
    { created := fun d s h hs => by
        obtain ⟨s', e, e'⟩ := hp.created d h
        rw [e] at hs; cases hs; exact e'
      modified := fun d s h hs => by
        obtain ⟨s', e, e'⟩ := hp.modified d h
        rw [e] at hs; cases hs; exact e'
      schemas := fun p s x hs hx =>
        let ⟨a, b, c⟩ := hp.schemas p s x hs hx
        { constant := a, default := b, enumeration := c, other := h6 _, otherArray := fun _ _ => h8 _
          otherObject := fun _ _ => h7 _ }
      security := hp.security
      forms := fun ctx f hf => ⟨stack_form_reads hn _, fun r hr => stack_response_reads hn (hg ctx f r hf hr)⟩
      interactions := fun _ _ => h2 _
      properties := fun _ _ _ _ => h3 _
      actions := fun _ _ _ _ => h4 _
      events := fun _ _ _ _ => h5 _
      other := h1 _ }

theorem writable (hp : PlainValues env t) : Writable env (stack l) t := by
  obtain ⟨h1, h2, h3, h4, h5, hf, hre, h6, h7, h8⟩ := stack_writes l
  exact
    { created := fun d h => let ⟨s, e, _⟩ := hp.created d h; ⟨s, e⟩
      modified := fun d h => let ⟨s, e, _⟩ := hp.modified d h; ⟨s, e⟩
      security := by
        intro n s scheme data hs he
        have := hp.security _ hs
        simp only [he] at this
        obtain ⟨_, _, h | ⟨m, hm, _⟩⟩ := this
        · exact .inl h
        · exact .inr ⟨m, hm⟩
      schemas := fun _ _ _ _ _ => ⟨h6 _, fun _ _ => h8 _, fun _ _ => h7 _⟩
      forms := fun _ _ _ => ⟨hf _, fun _ _ => hre _⟩
      interactions := fun _ _ => h2 _
      properties := fun _ _ _ _ => h3 _
      actions := fun _ _ _ _ => h4 _
      events := fun _ _ _ _ => h5 _
      other := h1 _ }

end Binding

/-- The affordances of a Thing from a builder are in maps. -/
theorem Reachable.sorted {X : ExtTypes} {title : String} {h : List (ThingOp X)} {b : ThingBuilder X}
    {env : Env} {t : Thing X} (hr : Reachable X title h b) (hb : b.build env = .ok t) :
    (∀ m, t.properties = some m → m.Sorted) ∧ (∀ m, t.actions = some m → m.Sorted) ∧
      ∀ m, t.events = some m → m.Sorted := by
  have hres := ((hr.ok_iff env t).1 hb).2
  exact ⟨fun m hm => sorted_mapResult (by rw [← hm, hres]; rfl),
    fun m hm => sorted_mapResult (by rw [← hm, hres]; rfl),
    fun m hm => sorted_mapResult (by rw [← hm, hres]; rfl)⟩

end Wot
