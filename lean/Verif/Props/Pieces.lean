import Verif.Lemmas.CodecCustom
import Verif.Lemmas.Writable
import Verif.Spec.Operations
import Verif.Props.DemoStore
/-
C30: data schemas. C31: operations. C32: security schemes.
-/
namespace Wot

variable {X : ExtTypes} {env : SerdeEnv}

/-! ### C30 -/

section
variable {DSx AS OS : Type} {C : ExtCodec DSx} {CA : ExtCodec AS} {CO : ExtCodec OS}
  {s : DataSchema DSx AS OS}

/-- What comes back of a data schema of any depth, from every document that says what was written: `null`
values of `const` and `default` are gone, and infinite numbers and NaN. -/
theorem C30_what_comes_back (ap : SchemaApart C.keys CA.keys CO.keys) (hs : SchemaKept env C CA CO s)
    {j d : Json} (hj : serSchema C CA CO env.toEnv s = some j) (hd : Represents d j) :
    deSchema C CA CO env d = some s.stored := schema_rt ap s hs j hj d hd

/-- So the schema itself comes back just when neither it nor any schema nested in it has such values. -/
theorem C30_exact (ap : SchemaApart C.keys CA.keys CO.keys) (hs : SchemaKept env C CA CO s)
    {j d : Json} (hj : serSchema C CA CO env.toEnv s = some j) (hd : Represents d j) :
    deSchema C CA CO env d = some s ↔ ∀ x, Within x s → SchemaLossless x := by
  rw [C30_what_comes_back ap hs hj hd, Option.some.injEq, schema_eq_self]

/-- A schema with a `null` constant anywhere in it does not come back. -/
theorem C30_null_const (ap : SchemaApart C.keys CA.keys CO.keys) (hs : SchemaKept env C CA CO s)
    {x : DataSchema DSx AS OS} (hx : Within x s) (hn : x.head.constant = some .null)
    {j d : Json} (hj : serSchema C CA CO env.toEnv s = some j) (hd : Represents d j) :
    deSchema C CA CO env d ≠ some s := fun h =>
  ((C30_exact ap hs hj hd).1 h x hx).constant hn

/-- Nor does one with an infinite or NaN maximum. -/
theorem C30_infinite (ap : SchemaApart C.keys CA.keys CO.keys) (hs : SchemaKept env C CA CO s)
    {x : DataSchema DSx AS OS} (hx : Within x s) {n : NumberSchema} {b : Maximum F64}
    (hn : x.subtype = some (.number n)) (hb : n.maximum = some b) (hi : b.bound.isFinite = false)
    {j d : Json} (hj : serSchema C CA CO env.toEnv s = some j) (hd : Represents d j) :
    deSchema C CA CO env d ≠ some s := fun h => by
  have := ((C30_exact ap hs hj hd).1 h x hx).maximum n b hn hb
  rw [hi] at this
  cases this

end

namespace Demo

/-- A data schema with an alternative that has a constant, and another which is an array of numbers with a
maximum. -/
def deepSchema (c : Json) (hi : F64) : DataSchema Unit Unit Unit :=
  .mk { title := some "deep", other := () } (some
    [.mk { constant := some c, other := () } none none,
     .mk { other := () } none (some (.array { items := some (.elem (.mk { other := () } none
       (some (.number { maximum := some (.inclusive hi) })))), minItems := none, maxItems := none, other := () }))]) none

theorem within_deep {P : DataSchema Unit Unit Unit → Prop} {c : Json} {hi : F64} :
    (∀ x, Within x (deepSchema c hi) → P x) ↔ P (deepSchema c hi) ∧
      P (.mk { constant := some c, other := () } none none) ∧
      P (.mk { other := () } none (some (.array { items := some (.elem (.mk { other := () } none
       (some (.number { maximum := some (.inclusive hi) })))), minItems := none, maxItems := none, other := () }))) ∧
      P (.mk { other := () } none (some (.number { maximum := some (.inclusive hi) }))) := by
  constructor
  · intro h
    exact ⟨h _ (.self _), h _ (.oneOf rfl (by simp) (.self _)), h _ (.oneOf rfl (by simp) (.self _)),
      h _ (.oneOf rfl (List.mem_cons_of_mem _ (List.mem_singleton.2 rfl)) (.item rfl rfl (.self _)))⟩
  · rintro ⟨h1, h2, h3, h4⟩ x hx
    rcases within_iff.1 hx with rfl | ⟨l, hl, a, ha, hx⟩ | ⟨st, hst, _⟩
    · exact h1
    · cases hl
      simp only [List.mem_cons, List.not_mem_nil, or_false] at ha
      rcases ha with rfl | rfl
      · rcases within_iff.1 hx with rfl | ⟨l, hl, _⟩ | ⟨st, hst, _⟩
        · exact h2
        · cases hl
        · cases hst
      · rcases within_iff.1 hx with rfl | ⟨l, hl, _⟩ | ⟨st, hst, b, hb, hx⟩
        · exact h3
        · cases hl
        · cases hst
          simp only [SubtypeF.children, ElemOrVec.toList, Option.map_some, Option.getD_some,
            List.mem_singleton] at hb
          subst hb
          rcases within_iff.1 hx with rfl | ⟨l, hl, _⟩ | ⟨st, hst, b, hb, hx⟩
          · exact h4
          · cases hl
          · cases hst; cases hb
    · cases hst

theorem deep_kept {c : Json} {hi : F64} (hc : c.IsValue) :
    SchemaKept senv ExtCodec.nil ExtCodec.nil ExtCodec.nil (deepSchema c hi) := by
  have node : ∀ x : DataSchema Unit Unit Unit, (∀ v, x.head.constant = some v → v.IsValue) →
      x.head.default = none → x.head.enumeration = none → x.head.titles = none →
      x.head.descriptions = none → (∀ o, x.subtype ≠ some (.object o)) →
      SchemaNodeKept senv ExtCodec.nil ExtCodec.nil ExtCodec.nil x := fun x h1 h2 h3 h4 h5 h6 =>
    { constant := h1
      default := by rw [h2]; nofun
      enumeration := by rw [h3]; nofun
      other := ExtCodec.nil_reads
      otherArray _ _ := ExtCodec.nil_reads
      otherObject _ _ := ExtCodec.nil_reads
      titles := by rw [h4]; nofun
      descriptions := by rw [h5]; nofun
      properties o _ h := absurd h (h6 o) }
  refine within_deep.2 ⟨?_, ?_, ?_, ?_⟩
  · exact node _ nofun rfl rfl rfl rfl nofun
  · exact node _ (fun v h => by cases h; exact hc) rfl rfl rfl rfl nofun
  · exact node _ nofun rfl rfl rfl rfl nofun
  · exact node _ nofun rfl rfl rfl rfl nofun

theorem deep_lossless {c : Json} {hi : F64} (hc : c ≠ .null) (hf : hi.isFinite = true) :
    ∀ x, Within x (deepSchema c hi) → SchemaLossless x := by
  refine within_deep.2 ⟨?_, ?_, ?_, ?_⟩
  · constructor <;> nofun
  · constructor
    · intro h; cases h; exact hc rfl
    all_goals nofun
  · constructor <;> nofun
  · constructor
    · nofun
    · nofun
    · intro n b hn hb; cases hn; cases hb; exact hf
    · intro n b hn hb; cases hn; cases hb
    · intro n b hn hb; cases hn; cases hb

end Demo

example : ∃ j, serSchema .nil .nil .nil Demo.senv.toEnv (Demo.deepSchema (.bool true) Demo.f0) = some j ∧
    deSchema .nil .nil .nil Demo.senv j.norm = some (Demo.deepSchema (.bool true) Demo.f0) :=
  ⟨_, rfl, (C30_exact (Demo.nil_separate.schemas) (Demo.deep_kept (c := .bool true) rfl) rfl
    (.of_norm _)).2 (Demo.deep_lossless nofun (by decide))⟩

example : ∃ j, serSchema .nil .nil .nil Demo.senv.toEnv (Demo.deepSchema .null Demo.f0) = some j ∧
    deSchema .nil .nil .nil Demo.senv j.norm ≠ some (Demo.deepSchema .null Demo.f0) :=
  ⟨_, rfl, C30_null_const (Demo.nil_separate.schemas) (Demo.deep_kept (c := .null) rfl)
    (.oneOf rfl (List.mem_cons_self ..) (.self _)) rfl rfl (.of_norm _)⟩

example : ∃ j, serSchema .nil .nil .nil Demo.senv.toEnv (Demo.deepSchema (.bool true) ⟨0x7FF0000000000000⟩) = some j ∧
    deSchema .nil .nil .nil Demo.senv j.norm ≠ some (Demo.deepSchema (.bool true) ⟨0x7FF0000000000000⟩) :=
  ⟨_, rfl, C30_infinite (Demo.nil_separate.schemas) (Demo.deep_kept (c := .bool true) rfl)
    (.oneOf rfl (List.mem_cons_of_mem _ (List.mem_singleton.2 rfl)) (.item rfl rfl (.self _)))
    rfl rfl (by decide) rfl (.of_norm _)⟩

/-! ### C31 -/

/-- Operations are displayed and written under the same name. -/
theorem C31_display (o : FormOperation) : serOperation o = .str o.display := by cases o <;> rfl

/-- Different operations have different names. -/
theorem C31_names_distinct {o o' : FormOperation} (h : o.display = o'.display) : o = o' := by
  have h1 := operation_rt o (.str o.display) (by cases o <;> exact .refl trivial)
  have h2 := operation_rt o' (.str o'.display) (by cases o' <;> exact .refl trivial)
  rw [h, h2] at h1
  exact (Option.some.inj h1).symm

/-- An operation is read from its name, or from an object with just a `null` member of that name, and from
nothing else. -/
theorem C31_reads {j : Json} {o : FormOperation} :
    deOperation j = some o ↔ j = .str o.display ∨ j = .obj [(o.display, .null)] := by
  have tab : ∀ e ∈ operationTable, e.1 = e.2.display := by
    simp [operationTable, FormOperation.display]
  have key : ∀ s, nameOf? operationTable s = some o ↔ s = o.display := by
    intro s
    constructor
    · intro h
      obtain ⟨e, he, rfl⟩ := Option.map_eq_some_iff.1 h
      have h2 := List.find?_some he
      simp only [decide_eq_true_eq] at h2
      have h3 := List.mem_of_find?_eq_some he
      subst h2
      exact tab e h3
    · rintro rfl
      cases o <;> rfl
  unfold deOperation deEnum
  split
  · rename_i s
    rw [key]
    simp
  · rename_i s
    rw [key]
    simp
  · rename_i h1 h2
    simp only [reduceCtorEq, false_iff, not_or]
    exact ⟨fun h => h1 _ h, fun h => h2 _ h⟩

/-- An operation in an array can be spelled in one more way. -/
theorem C31_reads_element {j : Json} {o : FormOperation} :
    deOps (.arr [j]) = some (.custom [o]) ↔
      j = .str o.display ∨ j = .obj [(o.display, .null)] ∨ j = .obj [(o.display, .obj [])] := by
  have h : deOps (.arr [j]) = some (.custom [o]) ↔ deEnumBuffered operationTable j = some o := by
    have : deOps (.arr [j]) = (deEnumBuffered operationTable j).map fun o => .custom [o] := by
      simp only [deOps, deOption, deOperations, deOperation, deEnum, deVec, mapOpt]
      cases deEnumBuffered operationTable j <;> rfl
    rw [this]
    simp
  rw [h]
  have key : ∀ s, nameOf? operationTable s = some o ↔ s = o.display := by
    intro s
    have h' : deOperation (.str s) = nameOf? operationTable s := rfl
    rw [← h', C31_reads]
    simp
  unfold deEnumBuffered
  split
  · simp [key]
  · simp [key]
  · simp [key]
  · rename_i h1 h2 h3
    simp only [reduceCtorEq, false_iff, not_or]
    exact ⟨fun h => h1 _ h, fun h => h2 _ h, fun h => h3 _ h⟩

example : deOps (.arr [.obj [("readproperty", .obj [])]]) = some (.custom [.readProperty]) :=
  C31_reads_element.2 (by simp [FormOperation.display])
example : deOps (.obj [("readproperty", .obj [])]) = none := rfl

/-- The names that are read are the standard ones. -/
theorem C31_standard (s : String) : (∃ o, deOperation (.str s) = some o) ↔ s ∈ standardOperations := by
  simp only [C31_reads, Json.str.injEq, reduceCtorEq, or_false]
  constructor
  · rintro ⟨o, rfl⟩
    cases o <;> simp [FormOperation.display, standardOperations]
  · intro h
    simp only [standardOperations, List.mem_cons, List.not_mem_nil, or_false] at h
    rcases h with rfl | rfl | rfl | rfl | rfl | rfl | rfl | rfl | rfl | rfl | rfl | rfl | rfl | rfl |
      rfl | rfl | rfl | rfl
    · exact ⟨.readProperty, rfl⟩
    · exact ⟨.writeProperty, rfl⟩
    · exact ⟨.observeProperty, rfl⟩
    · exact ⟨.unobserveProperty, rfl⟩
    · exact ⟨.invokeAction, rfl⟩
    · exact ⟨.queryAction, rfl⟩
    · exact ⟨.cancelAction, rfl⟩
    · exact ⟨.subscribeEvent, rfl⟩
    · exact ⟨.unsubscribeEvent, rfl⟩
    · exact ⟨.readAllProperties, rfl⟩
    · exact ⟨.writeAllProperties, rfl⟩
    · exact ⟨.readMultipleProperties, rfl⟩
    · exact ⟨.writeMultipleProperties, rfl⟩
    · exact ⟨.observeAllProperties, rfl⟩
    · exact ⟨.unobserveAllProperties, rfl⟩
    · exact ⟨.subscribeAllEvents, rfl⟩
    · exact ⟨.unsubscribeAllEvents, rfl⟩
    · exact ⟨.queryAllActions, rfl⟩

/-- A form is read back from every document that says what was written, with the same operations, just
when these are not an explicitly empty list, which becomes the default. -/
theorem C31_forms {C : ExtCodecs X} (sep : C.Separate) {f : Form X} (hf : FormKept C f) {j d : Json}
    (hj : serForm C f = some j) (hd : Represents d j) :
    (f.op ≠ .custom [] → deForm C d = some f) ∧
    (f.op = .custom [] → deForm C d = some { f with op := .default }) := by
  have h := (form_rt sep hf hj).2 d hd
  constructor
  · intro hne
    rw [h]
    obtain ⟨op, _⟩ := f
    unfold Form.stored
    match op, hne with
    | .default, _ => rfl
    | .custom (_ :: _), _ => rfl
  · intro he
    rw [h, Form.stored, he]
    rfl

/-- A form with operations. -/
def Demo.opsForm (l : List FormOperation) : Form .nil :=
  { op := .custom l, href := "/x", contentType := none, contentCoding := none, subprotocol := none,
    security := none, scopes := none, response := none, additionalResponses := none, other := () }

example : ∃ j, serForm ExtCodecs.nil (Demo.opsForm [.readProperty, .observeProperty]) = some j ∧
    deForm ExtCodecs.nil j.norm = some (Demo.opsForm [.readProperty, .observeProperty]) :=
  ⟨_, rfl, (C31_forms Demo.nil_separate ⟨by nofun, ExtCodec.nil_reads⟩ rfl (.of_norm _)).1 nofun⟩

/-! ### C32 -/

/-- A predefined security scheme can always be written, and is read back from every document that says what
was written. -/
theorem C32_predefined {s : SecurityScheme} {k : KnownScheme} (hs : s.subtype = .known k)
    (hl : LangKept env s.descriptions) : ∃ j, serSecurity env.toEnv s = some j ∧
      ∀ d, Represents d j → deSecurity env d = some s := by
  have hw : ∃ j, serSecurity env.toEnv s = some j := by
    simp only [serSecurity, hs, serSubtype, Option.map_some, Option.some.injEq, exists_eq']
  obtain ⟨j, hj⟩ := hw
  refine ⟨j, hj, fun d hd => ?_⟩
  have := security_rt ⟨hl, by rw [hs]; trivial⟩ hj d hd
  rw [this]
  obtain ⟨_, _, _, _, st⟩ := s
  cases hs
  rfl

example : ∃ j, serSecurity Demo.senv.toEnv ⟨none, none, none, none, .known (.digest { qop := .auth })⟩ = some j ∧
    deSecurity Demo.senv j.norm = some ⟨none, none, none, none, .known (.digest { qop := .auth })⟩ :=
  let ⟨j, h1, h2⟩ := C32_predefined (env := Demo.senv)
    (s := ⟨none, none, none, none, .known (.digest { qop := .auth })⟩) rfl nofun
  ⟨j, h1, h2 _ (.of_norm j)⟩

/-- A custom security scheme can be written just when its data is an object or `null`. -/
theorem C32_custom_written {s : SecurityScheme} {scheme : String} {data : Json}
    (hs : s.subtype = .unknown scheme data) :
    (∃ j, serSecurity env.toEnv s = some j) ↔ data = .null ∨ ∃ m, data = .obj m := by
  simp only [serSecurity, hs, serSubtype]
  cases data <;> simp [serFlatValue]

/-- It is read back, from every document that says what was written, just when its data is an object
without reserved names and it does not look like a predefined scheme. -/
theorem C32_custom {s : SecurityScheme} {scheme : String} {data : Json}
    (hs : s.subtype = .unknown scheme data) (hv : data.IsValue) (hl : LangKept env s.descriptions)
    {j d : Json} (hj : serSecurity env.toEnv s = some j) (hd : Represents d j) :
    deSecurity env d = some s ↔ ∃ m, data = .obj m ∧ (∀ kv ∈ m, kv.1 ∉ "scheme" :: Names.security) ∧
      ¬ LooksPredefined scheme m := by
  constructor
  · intro h
    obtain ⟨m, rfl, hm⟩ := custom_data h hs
    refine ⟨m, rfl, hm, fun hp => ?_⟩
    obtain ⟨k, hk⟩ := (custom_known hs hv hm hj hd h).2 hp
    rw [hs] at hk
    cases hk
  · rintro ⟨m, rfl, hm, hp⟩
    have := security_rt (s := s) ⟨hl, by rw [hs]; exact ⟨hp, hv, .inr ⟨m, rfl, hm⟩⟩⟩ hj d hd
    rw [this]
    obtain ⟨_, _, _, _, st⟩ := s
    cases hs
    rfl

/-- A custom scheme. -/
def Demo.custom (scheme : String) (data : Json) : SecurityScheme :=
  { attype := none, description := some "d", descriptions := none, proxy := none,
    subtype := .unknown scheme data }

example : ∃ j, serSecurity Demo.senv.toEnv (Demo.custom "acme" (.obj [("level", .num (.pos 3))])) = some j ∧
    deSecurity Demo.senv j.norm = some (Demo.custom "acme" (.obj [("level", .num (.pos 3))])) :=
  ⟨_, rfl, (C32_custom (s := Demo.custom _ (.obj [("level", .num (.pos 3))])) rfl rfl nofun rfl (.of_norm _)).2
    ⟨_, rfl, by simp [Names.security], fun h => absurd h.name (by decide)⟩⟩

/-- Also one called `basic`, if its members cannot be those of the predefined scheme. -/
example : ∃ j, serSecurity Demo.senv.toEnv (Demo.custom "basic" (.obj [("in", .str "mind")])) = some j ∧
    deSecurity Demo.senv j.norm = some (Demo.custom "basic" (.obj [("in", .str "mind")])) :=
  ⟨_, rfl, (C32_custom (s := Demo.custom _ (.obj [("in", .str "mind")])) rfl rfl nofun rfl (.of_norm _)).2
    ⟨_, rfl, by simp [Names.security], fun h => by
      obtain ⟨n, hn, h⟩ := (h.located rfl).1 (.str "mind") (List.mem_singleton.2 rfl)
      simp only [Json.str.injEq, reduceCtorEq, or_false] at h
      subst h
      revert hn
      decide⟩⟩

/-- Without data it gets an empty object, unless it is taken for a predefined scheme. -/
theorem C32_custom_null {s : SecurityScheme} {scheme : String} (hs : s.subtype = .unknown scheme .null)
    (hp : ¬ LooksPredefined scheme []) (hl : LangKept env s.descriptions)
    {j d : Json} (hj : serSecurity env.toEnv s = some j) (hd : Represents d j) :
    deSecurity env d = some { s with subtype := .unknown scheme (.obj []) } := by
  have := security_rt (s := s) ⟨hl, by rw [hs]; exact ⟨hp, rfl, .inl rfl⟩⟩ hj d hd
  rw [this, SecurityScheme.stored, hs]
  rfl

example : ∃ j, serSecurity Demo.senv.toEnv (Demo.custom "acme" .null) = some j ∧
    deSecurity Demo.senv j.norm = some (Demo.custom "acme" (.obj [])) :=
  ⟨_, rfl, C32_custom_null (s := Demo.custom "acme" .null) rfl (fun h => absurd h.name (by decide)) nofun rfl
    (.of_norm _)⟩

/-- A custom scheme that looks like a predefined one is silently replaced by it. -/
theorem C32_custom_taken {s : SecurityScheme} {scheme : String} {m : Members}
    (hs : s.subtype = .unknown scheme (.obj m)) (hv : (Json.obj m).IsValue)
    (hm : ∀ kv ∈ m, kv.1 ∉ "scheme" :: Names.security) (hp : LooksPredefined scheme m)
    (hl : LangKept env s.descriptions) {j d : Json} (hj : serSecurity env.toEnv s = some j)
    (hd : Represents d j) : ∃ k, deSecurity env d = some { s with subtype := .known k } :=
  custom_taken hl hs hv hm hj hd hp

example : ∃ j k, serSecurity Demo.senv.toEnv (Demo.custom "basic" (.obj [("realm", .str "x")])) = some j ∧
    deSecurity Demo.senv j.norm =
      some { Demo.custom "basic" (.obj [("realm", .str "x")]) with subtype := .known k } := by
  obtain ⟨k, hk⟩ := C32_custom_taken (env := Demo.senv)
    (s := Demo.custom "basic" (.obj [("realm", .str "x")])) rfl rfl (by simp [Names.security])
    (.basic ⟨by intro v h; simp at h, by intro v h; simp at h⟩) nofun rfl (.of_norm _)
  exact ⟨_, k, rfl, hk⟩

end Wot
