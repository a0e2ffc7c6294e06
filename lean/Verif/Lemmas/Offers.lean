import Verif.Spec.Offers
import Verif.Lemmas.Access
/-
What a client can do with a form: the same according to a Thing and according to its document, but for empty lists.
-/
namespace Wot

variable {X : ExtTypes} {C : ExtCodecs X} {t : Wot.Thing X} {v : Json} {p : Place} {o : FormOperation}

/-- The operations of a form, and the member of the document. -/
inductive OpSame : FormOps → Option Json → Prop
  | default : OpSame .default none
  | empty : OpSame (.custom []) (some .null)
  | custom {l : List FormOperation} {x : Json} : x.Lists (l.map Doc.opText) → OpSame (.custom l) (some x)

theorem opText_injective {a b : FormOperation} (h : Doc.opText a = Doc.opText b) : a = b := by
  revert h
  cases a <;> cases b <;> decide

theorem opText_mem {l : List FormOperation} : Doc.opText o ∈ l.map Doc.opText ↔ o ∈ l := by
  constructor
  · intro h
    obtain ⟨a, ha, e⟩ := List.mem_map.1 h
    rw [← opText_injective e]
    exact ha
  · exact fun h => List.mem_map.2 ⟨o, h, rfl⟩

theorem not_lists_null {l : List String} : ¬ Json.null.Lists l := by
  generalize e : Json.null = w
  intro h
  cases h <;> cases e

theorem offers_iff (hp : OptRel (fun (f : Form X) w => OpSame f.op (w.member "op")) (t.formAt p) (v.formAt p))
    (h1 : v.flagAt "readOnly" p = t.readOnlyAt p) (h2 : v.flagAt "writeOnly" p = t.writeOnlyAt p) :
    v.Offers p o ↔ t.Offers p o ∨
      ∃ f w, t.formAt p = some f ∧ v.formAt p = some w ∧ f.op = .custom [] ∧ w.member "op" = some .null ∧
        p.Default (t.readOnlyAt p) (t.writeOnlyAt p) o := by
  unfold Json.Offers Thing.Offers
  rw [h1, h2]
  generalize p.Default _ _ o = D
  generalize t.formAt p = x at hp
  generalize v.formAt p = y at hp
  cases hp with
  | none =>
    refine iff_of_false (by rintro ⟨_, h, _⟩; cases h) ?_
    rintro (⟨_, h, _⟩ | ⟨_, _, h, _⟩) <;> cases h
  | @some f w r =>
    generalize ea : f.op = a at r
    generalize eb : w.member "op" = b at r
    cases r with
    | default =>
      constructor
      · rintro ⟨_, e, ⟨_, _, h, _⟩ | ⟨_, h⟩⟩ <;> cases e
        · rw [eb] at h
          cases h
        · exact .inl ⟨f, rfl, by rw [ea]; exact h⟩
      · rintro (⟨_, e, h⟩ | ⟨_, _, e, _, h, _⟩) <;> cases e
        · rw [ea] at h
          exact ⟨w, rfl, .inr ⟨.inl eb, h⟩⟩
        · rw [ea] at h
          cases h
    | empty =>
      constructor
      · rintro ⟨_, e, ⟨_, _, h, hl, _⟩ | ⟨_, h⟩⟩ <;> cases e
        · rw [eb] at h
          cases h
          exact absurd hl not_lists_null
        · exact .inr ⟨f, w, rfl, rfl, ea, eb, h⟩
      · rintro (⟨_, e, h⟩ | ⟨_, _, e, _, _, _, h⟩) <;> cases e
        · rw [ea] at h
          cases h
        · exact ⟨w, rfl, .inr ⟨.inr eb, h⟩⟩
    | @custom l x hl =>
      constructor
      · rintro ⟨_, e, ⟨_, _, h, hm, ho⟩ | ⟨h, _⟩⟩ <;> cases e
        · rw [eb] at h
          cases h
          rw [lists_unique hm hl] at ho
          exact .inl ⟨f, rfl, by rw [ea]; exact opText_mem.1 ho⟩
        · rw [eb] at h
          rcases h with h | h
          · cases h
          · cases h
            exact absurd hl not_lists_null
      · rintro (⟨_, e, h⟩ | ⟨_, _, e, e', _, h, _⟩) <;> cases e
        · rw [ea] at h
          exact ⟨w, rfl, .inl ⟨x, _, eb, hl, opText_mem.2 h⟩⟩
        · cases e'
          rw [eb] at h
          cases h
          exact absurd hl not_lists_null

/-- The flag of a property. -/
theorem flagAt_of {A : Type} {R : A → Json → Prop} {x : Option A} {y : Option Json} {k : String} {g : A → Bool}
    (h : OptRel R x y) (hg : ∀ a b, R a b → (b.member k).any Json.isTrue = g a) :
    (y.bind (·.member k)).any Json.isTrue = x.any g := by
  cases h with
  | none => rfl
  | some r => exact hg _ _ r

/-! ### What is written -/

theorem opSame_shown {a : FormOps} {b : Option Json} (h : OpsShown a b) : OpSame a b := by
  cases h with
  | default => exact .default
  | empty => exact .empty
  | @some o l v h =>
    refine .custom ?_
    generalize o :: l = l at h
    obtain ⟨h⟩ := h
    rename_i vs
    have : vs = (l.map Doc.opText).map .str := by
      induction h with
      | nil => rfl
      | @cons a _ _ _ r _ ih => cases r; rw [ih]; simp [Conform.opText_name a]
    rw [this]
    exact .many

theorem offers_shown {env : SerdeEnv} (h : ThingShown C env t v) :
    v.Offers p o ↔ t.Offers p o ∨
      ∃ f, t.formAt p = some f ∧ f.op = .custom [] ∧ p.Default (t.readOnlyAt p) (t.writeOnlyAt p) o := by
  have hp := optRel_mono (forms_shown h p) fun (f : Form X) w (r : FormShown C f w) => opSame_shown r.op
  have hflags : v.flagAt "readOnly" p = t.readOnlyAt p ∧ v.flagAt "writeOnly" p = t.writeOnlyAt p := by
    cases p with
    | property n i =>
      have hr := optRel_bind h.properties fun m w hm => map_shown_get hm n
      constructor
      · refine flagAt_of hr fun a b r => ?_
        obtain ⟨⟩ := r.dataSchema
        rw [show b.member "readOnly" = some (.bool a.merged.dataSchema.head.readOnly) by assumption]
        rfl
      · refine flagAt_of hr fun a b r => ?_
        obtain ⟨⟩ := r.dataSchema
        rw [show b.member "writeOnly" = some (.bool a.merged.dataSchema.head.writeOnly) by assumption]
        rfl
    | thing | action | event => exact ⟨rfl, rfl⟩
  rw [offers_iff hp hflags.1 hflags.2]
  refine or_congr_right ⟨?_, ?_⟩
  · rintro ⟨f, w, hf, -, ho, -, hd⟩
    exact ⟨f, hf, ho, hd⟩
  · rintro ⟨f, hf, ho, hd⟩
    have r := forms_shown h p
    rw [hf] at r
    generalize e : v.formAt p = y at r
    cases r with
    | @some _ w r =>
      refine ⟨f, w, hf, rfl, ho, ?_, hd⟩
      have := r.op
      rw [ho] at this
      generalize w.member "op" = b at this
      cases this
      rfl

/-! ### What is read -/

namespace Conform
variable {F : Formats} {env : SerdeEnv} {es : Members} {D S : String → Prop}

theorem opSame_read {ctx : FormContext} {f : Wot.Form X} {w : Json} (h : Doc.IsForm C w f) (hv : Form ctx D S w) (hf : Fine w) :
    OpSame f.op (w.member "op") ∧ w.member "op" ≠ some .null := by
  have hn : ¬ OneOrMany (Str (· ∈ operations ctx)) .null := by
    rintro (⟨_, e, -⟩ | ⟨_, e, -⟩) <;> cases e
  refine ⟨?_, fun e => hn (hv.op _ e)⟩
  obtain ⟨h⟩ := h
  rename_i es
  have ho := h.op
  generalize f.op = a at ho
  cases ho with
  | default ho =>
    have := may_read ho hv.op hn hf
    generalize (Json.obj es).member "op" = b at this
    cases this
    exact .default
  | @custom l ho =>
    have := may_read ho hv.op hn hf
    generalize (Json.obj es).member "op" = b at this
    cases this with
    | some r =>
      refine .custom ?_
      obtain ⟨hi, hw, -⟩ := r
      cases hi with
      | one hi =>
        rcases hi with rfl | rfl
        · exact .one
        · rcases hw with ⟨_, e, -⟩ | ⟨_, e, -⟩ <;> cases e
      | many hi =>
        obtain ⟨hi⟩ := hi
        rename_i ws
        rcases hw with ⟨_, e, -⟩ | ⟨_, e, hw⟩
        · cases e
        · cases e
          have : ws = (l.map Doc.opText).map .str := by
            clear ho
            induction hi with
            | nil => rfl
            | cons r _ ih =>
              obtain ⟨s, rfl, -⟩ := hw _ List.mem_cons_self
              rw [ih fun w h => hw w (List.mem_cons_of_mem _ h)]
              rcases r with e | e | e
              · cases e; rfl
              · cases e
              · cases e
          rw [this]
          exact .many

theorem flag_read {k : String} {b : Bool} (h : Doc.Else k false Doc.IsFlag es b) :
    ((Json.obj es).member k).any Json.isTrue = b := by
  cases h with
  | absent h => rw [member_occ, h]; rfl
  | given h hi => cases hi; rw [member_occ, h]; rfl

theorem flags_read {d : Json} {t : Wot.Thing X} (h : Doc.IsThing env C d t) (hv : Thing F d) (hf : Fine d) :
    t.readOnlyAt p = d.flagAt "readOnly" p ∧ t.writeOnlyAt p = d.flagAt "writeOnly" p := by
  obtain ⟨h⟩ := h
  cases p with
  | property n i =>
    have hr := optRel_bind (may_read h.properties hv.properties map_null hf) fun m w hm => map_read hm.1 hm.2.1 hm.2.2 n
    constructor
    · refine (flagAt_of hr fun a b r => ?_).symm
      obtain ⟨⟨r⟩, -⟩ := r
      obtain ⟨⟩ := r.dataSchema
      exact flag_read (by assumption)
    · refine (flagAt_of hr fun a b r => ?_).symm
      obtain ⟨⟨r⟩, -⟩ := r
      obtain ⟨⟩ := r.dataSchema
      exact flag_read (by assumption)
  | thing | action | event => exact ⟨rfl, rfl⟩

theorem offers_read {d : Json} {t : Wot.Thing X} (h : Doc.IsThing env C d t) (hv : Thing F d) (hf : Fine d) :
    d.Offers p o ↔ t.Offers p o := by
  have hr := forms_read h hv hf p
  have hp := optRel_mono hr fun _ _ r => (opSame_read r.1 r.2.1 r.2.2).1
  obtain ⟨h1, h2⟩ := flags_read h hv hf (p := p)
  rw [offers_iff hp h1.symm h2.symm]
  refine or_iff_left ?_
  rintro ⟨f, w, h1, h2, -, h3, -⟩
  rw [h1, h2] at hr
  cases hr with
  | some r => exact (opSame_read r.1 r.2.1 r.2.2).2 h3

end Conform
end Wot
