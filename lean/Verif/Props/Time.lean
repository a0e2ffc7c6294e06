import Verif.Lemmas.Time
import Verif.Props.Reread
import Verif.Props.Written
import Verif.Props.Meaning
import Verif.Props.Members
/-
C68: the instants of a Thing (`created`, `modified`) are written and read after RFC 3339.
-/
namespace Wot

open Rfc3339

variable {s s' : String} {t t' : OffsetDateTime}

/-- C68: days are numbered after the Gregorian calendar. -/
theorem C68_calendar {y n : Int} {m d : Nat} :
    (dayNumber y m d = some n ↔ Date.Number ⟨y, m, d⟩ n) ∧ (civil n = (y, m, d) ↔ Date.Number ⟨y, m, d⟩ n) := by
  refine ⟨dayNumber_iff.trans Date.number_iff.symm, ?_⟩
  rw [Date.number_civil, Date.of, Date.mk.injEq]
  constructor
  · intro e; rw [e]; exact ⟨rfl, rfl, rfl⟩
  · rintro ⟨rfl, rfl, rfl⟩; rfl

/-- C68: the texts that are read are those of RFC 3339, and what is read is the instant they denote. -/
theorem C68_read : parse s = some t ↔ InstantText s t := time_parse_iff

/-- C68: a text denotes at most one instant. -/
theorem C68_unambiguous (h : InstantText s t) (h' : InstantText s t') : t = t' :=
  Option.some.inj ((C68_read.2 h).symm.trans (C68_read.2 h'))

/-- C68: an instant is written in one way, the tidy one. -/
theorem C68_written : format t = some s ↔ TidyText s t := time_format_iff

/-- C68: the instants that can be written are those RFC 3339 has a text for. -/
theorem C68_expressible : (∃ s, format t = some s) ↔ t.Expressible := format_isSome

/-- C68: these are also those that can be read. -/
theorem C68_readable : (∃ s, parse s = some t) ↔ t.Expressible :=
  ⟨fun ⟨_, h⟩ => (C68_read.1 h).expressible, fun h =>
    let ⟨s, hs⟩ := C68_expressible.2 h
    ⟨s, C68_read.2 (C68_written.1 hs).instant⟩⟩

/-- C68: what is written is read back. -/
theorem C68_read_back (h : format t = some s) : parse s = some t := C68_read.2 (C68_written.1 h).instant

/-- C68: different instants, or offsets, have different texts. -/
theorem C68_injective (h : format t = some s) (h' : format t' = some s) : t = t' :=
  C68_unambiguous (C68_written.1 h).instant (C68_written.1 h').instant

/-- C68: what is read can be written, and is read back. -/
theorem C68_settles (h : parse s = some t) : ∃ s', format t = some s' ∧ parse s' = some t :=
  let ⟨s', hs⟩ := C68_expressible.2 (C68_read.1 h).expressible
  ⟨s', hs, C68_read_back hs⟩

/-! ### Things -/

/-- The instants are written and read by `time::serde::rfc3339`. -/
structure SerdeEnv.Rfc3339Times (env : SerdeEnv) : Prop where
  format : env.timeFormat = Rfc3339.format
  parse : env.timeParse = Rfc3339.parse

variable {X : ExtTypes} {C : ExtCodecs X} {env : SerdeEnv} {thing : Thing X}

/-- C68: so the laws of the other properties about instants hold; only that about language tags is left. -/
theorem C68_laws (he : env.Rfc3339Times) :
    (∀ o, TimeKept env o) ∧
    ((∀ s tag, env.langRead s = some tag → env.langRead tag = some tag) → env.Stable) := by
  refine ⟨fun o d s _ h => ?_, fun ht => ⟨ht, fun s d h => ?_⟩⟩
  · rw [he.format] at h; rw [he.parse]; exact C68_read_back h
  · rw [he.parse] at h ⊢; rw [he.format]; exact C68_settles h

/-- The member says when: it is missing or `null` and there is no instant, or it is the text of the instant. -/
inductive SaysWhen (k : String) (es : Members) : Option OffsetDateTime → Prop
  | absent : occ k es = [] → SaysWhen k es none
  | null : occ k es = [.null] → SaysWhen k es none
  | given {s : String} {d : OffsetDateTime} : occ k es = [.str s] → InstantText s d → SaysWhen k es (some d)

theorem saysWhen_of (he : env.Rfc3339Times) {k : String} {es : Members} {o : Option OffsetDateTime}
    (h : Doc.May k (Doc.IsInstant env) es o) : SaysWhen k es o := by
  cases h with
  | absent h => exact .absent h
  | given h hv =>
    cases hv with
    | null => exact .null h
    | value _ hi =>
      obtain ⟨s, rfl, hp⟩ := hi
      rw [he.parse] at hp
      exact .given h (C68_read.1 hp)

/-- C68: the instants of a Thing that is read are those its document says. -/
theorem C68_thing_read (he : env.Rfc3339Times) {es : Members} (hn : (Json.obj es).NumbersInRange)
    (h : fromText C env (.obj es) = some thing) :
    SaysWhen "created" es thing.created ∧ SaysWhen "modified" es thing.modified := by
  obtain ⟨ht⟩ := (C58_read hn).1 h
  exact ⟨saysWhen_of he ht.created, saysWhen_of he ht.modified⟩

/-- C68: a document with another text there is refused. -/
theorem C68_refused (he : env.Rfc3339Times) {es : Members} (hn : (Json.obj es).NumbersInRange) {k : String}
    (hk : k ∈ ["created", "modified"]) (hm : (k, .str s) ∈ es) (hs : ∀ t, ¬ InstantText s t) :
    fromText C env (.obj es) = none := by
  cases h : fromText C env (.obj es) with
  | none => rfl
  | some thing =>
    obtain ⟨h1, h2⟩ := C68_thing_read he hn h
    have bad : ∀ o, ¬ SaysWhen k es o := by
      intro o ho
      have hmem := mem_occ.2 hm
      cases ho with
      | absent h => rw [h] at hmem; cases hmem
      | null h => rw [h] at hmem; cases List.mem_singleton.1 hmem
      | given h hi => rw [h] at hmem; cases List.mem_singleton.1 hmem; exact hs _ hi
    simp only [List.mem_cons, List.not_mem_nil, or_false] at hk
    rcases hk with rfl | rfl
    · exact absurd h1 (bad _)
    · exact absurd h2 (bad _)

/-- C68: a Thing with an instant RFC 3339 has no text for cannot be written. -/
theorem C68_unwritable (he : env.Rfc3339Times) {d : OffsetDateTime} (hd : thing.created = some d ∨ thing.modified = some d)
    (h : ¬ d.Expressible) : toValue C env thing = none ∧ toText C env thing = none := by
  have hno : ¬ Writable env C thing := fun hw => by
    rcases hd with hd | hd
    · obtain ⟨s, hs⟩ := hw.created d hd
      rw [he.format] at hs; exact h (C68_expressible.1 ⟨s, hs⟩)
    · obtain ⟨s, hs⟩ := hw.modified d hd
      rw [he.format] at hs; exact h (C68_expressible.1 ⟨s, hs⟩)
  constructor
  · cases hv : toValue C env thing with
    | none => rfl
    | some v => exact absurd (C48_writable.1.1 ⟨v, hv⟩) hno
  · cases hv : toText C env thing with
    | none => rfl
    | some v => exact absurd (C48_writable.2.1 ⟨v, hv⟩) hno

/-- C68: what is written says when, in the tidy way. -/
theorem C68_thing_written (he : env.Rfc3339Times) (hs : C.Separate) (ho : C.Own) (h : thing.Maps)
    (hn : ∀ kv ∈ thing.securityDefinitions, kv.2.subtype.OwnNames) {v : Json} (hv : toValue C env thing = some v) :
    OptRel (fun d w => ∃ s, w = .str s ∧ TidyText s d) thing.created (v.member "created") ∧
    OptRel (fun d w => ∃ s, w = .str s ∧ TidyText s d) thing.modified (v.member "modified") := by
  have hsh := C52_value hs ho h hn hv
  have key : ∀ {o w}, OptRel (fun d w => ∃ s, env.timeFormat d = some s ∧ w = .str s) o w →
      OptRel (fun d w => ∃ s, w = Json.str s ∧ TidyText s d) o w := fun h => by
    cases h with
    | none => exact .none
    | some h =>
      obtain ⟨s, h1, h2⟩ := h
      rw [he.format] at h1
      exact .some ⟨s, h2, C68_written.1 h1⟩
  exact ⟨key hsh.created, key hsh.modified⟩

/-- C68: for a Thing that has been built, these are the instants of the last calls. -/
theorem C68_built (he : env.Rfc3339Times) (hs : C.Separate) (ho : C.Own) {title : String} {hist : List (ThingOp X)}
    {b : ThingBuilder X} {e : Env} (hr : Reachable X title hist b) (hb : b.build e = .ok thing)
    (hn : ∀ kv ∈ thing.securityDefinitions, kv.2.subtype.OwnNames) {v : Json} (hv : toValue C env thing = some v) :
    OptRel (fun d w => ∃ s, w = .str s ∧ TidyText s d) (lastOf (History.createds hist)) (v.member "created") ∧
    OptRel (fun d w => ∃ s, w = .str s ∧ TidyText s d) (lastOf (History.modifieds hist)) (v.member "modified") := by
  obtain ⟨-, -, -, -, h1, h2, -⟩ := C20_scalars hr hb
  rw [← h1, ← h2]
  exact C68_thing_written he hs ho (hr.maps hb) hn hv

/-- C68: a Thing that has been read from a document without repeated members can be written, and is read again with the same
instants. -/
theorem C68_thing_reread (he : env.Rfc3339Times) (ht : ∀ s tag, env.langRead s = some tag → env.langRead tag = some tag)
    (sep : C.Separate) (hl : C.Lawful) {d : Json} (hd : d.NoDup) (h : fromText C env d = some thing) :
    ∃ v thing', toValue C env thing = some v ∧ fromValue C env v = some thing' ∧ thing'.created = thing.created ∧
      thing'.modified = thing.modified := by
  have hs := (C68_laws he).2 ht
  obtain ⟨v, hv, hr⟩ := C50_reread sep hs hd h (C50_extensions hs hl h)
  exact ⟨v, _, hv, hr, rfl, rfl⟩

/-! ### Examples -/

namespace Demo

/-- An environment with the real functions for instants. -/
def clockEnv : SerdeEnv := { senv with timeFormat := Rfc3339.format, timeParse := Rfc3339.parse }

theorem clock_times : clockEnv.Rfc3339Times := ⟨rfl, rfl⟩

/-- A document with two instants: a leap second, and more digits than nanoseconds. -/
def clockedMembers : Members :=
  document (.str "none") ++ [("created", .str "2016-12-31T23:59:60Z"), ("modified", .str "2024-02-29t12:30:00.1234567899+05:30")]

theorem clocked_range : (Json.obj clockedMembers).NumbersInRange := numbersInRange_of (by decide)

theorem clocked_noDup : (Json.obj clockedMembers).NoDup := by
  simp [clockedMembers, document, Json.NoDup, Json.NoDupList, Json.NoDupMembers]

theorem clocked_read : ∃ t, fromText .nil clockEnv (.obj clockedMembers) = some t ∧
    t.created = some ⟨1483228799999999999, 0⟩ ∧ t.modified = some ⟨1709190000123456789, 19800⟩ := ⟨_, rfl, rfl, rfl⟩

end Demo

example : ∃ t, InstantText "2016-12-31T23:59:60Z" t := ⟨⟨1483228799999999999, 0⟩, C68_read.1 (by decide +kernel)⟩
example : ¬ ∃ t, InstantText "2016-12-30T23:59:60Z" t := fun ⟨_, h⟩ => by
  have h := C68_read.2 h
  rw [show parse "2016-12-30T23:59:60Z" = none by decide +kernel] at h
  cases h
example : TidyText "2024-02-29T12:30:00.5+05:30" ⟨1709190000500000000, 19800⟩ := C68_written.1 (by decide +kernel)
example : ¬ ∃ s, TidyText s ⟨0, 30⟩ := fun ⟨_, h⟩ => by
  have h := C68_written.2 h
  rw [show format ⟨0, 30⟩ = none by decide +kernel] at h
  cases h
example : (⟨0, 0⟩ : OffsetDateTime).Expressible := C68_expressible.1 ⟨"1970-01-01T00:00:00Z", by decide +kernel⟩
/-- The last instant of the year 9999 can be written, the next one cannot. -/
example : (⟨253402300799999999999, 0⟩ : OffsetDateTime).Expressible ∧ ¬ (⟨253402300800000000000, 0⟩ : OffsetDateTime).Expressible :=
  ⟨C68_expressible.1 ⟨"9999-12-31T23:59:59.999999999Z", by decide +kernel⟩, fun h => by
    obtain ⟨_, h⟩ := C68_expressible.2 h
    rw [show format ⟨253402300800000000000, 0⟩ = none by decide +kernel] at h
    cases h⟩

example : ∃ t, fromText .nil Demo.clockEnv (.obj Demo.clockedMembers) = some t ∧
    SaysWhen "created" Demo.clockedMembers t.created ∧ SaysWhen "modified" Demo.clockedMembers t.modified :=
  let ⟨t, h, _⟩ := Demo.clocked_read
  ⟨t, h, C68_thing_read Demo.clock_times Demo.clocked_range h⟩

example : ∃ t v t', fromText .nil Demo.clockEnv (.obj Demo.clockedMembers) = some t ∧ toValue .nil Demo.clockEnv t = some v ∧
    fromValue .nil Demo.clockEnv v = some t' ∧ t'.created = t.created ∧ t'.modified = t.modified :=
  let ⟨t, h, _⟩ := Demo.clocked_read
  let ⟨v, t', h'⟩ := C68_thing_reread Demo.clock_times (fun _ _ _ => rfl) Demo.nil_separate Demo.nil_lawful Demo.clocked_noDup h
  ⟨t, v, t', h, h'⟩

/-- `ThingBuilder::new("Lamp")…created(…)` twice: the last call counts. -/
example : ∃ b t v, Reachable .nil "Lamp" [.common (.created ⟨1, 0⟩), .common (.created ⟨0, 7200⟩)] b ∧ b.build Demo.env = .ok t ∧
    toValue .nil Demo.clockEnv t = some v ∧ v.member "created" = some (.str "1970-01-01T02:00:00+02:00") ∧
    v.member "modified" = none :=
  ⟨_, _, _, Demo.run_reachable _ (by intro op h; simp at h; rcases h with rfl | rfl <;> trivial), rfl, rfl, by decide +kernel,
    by decide +kernel⟩

/-- There is no 30 February. -/
example : fromText .nil Demo.clockEnv (.obj (Demo.document (.str "none") ++ [("created", .str "2024-02-30T00:00:00Z")])) = none :=
  C68_refused Demo.clock_times (numbersInRange_of (by decide)) (k := "created") (s := "2024-02-30T00:00:00Z") (by decide)
    (by simp) fun t h => by
    have h := C68_read.2 h
    rw [show parse "2024-02-30T00:00:00Z" = none by decide +kernel] at h
    cases h

/-- A Thing created in the year 10000, and one created at an offset with seconds. -/
example (t : Thing ExtTypes.nil) : toText .nil Demo.clockEnv { t with created := some ⟨253402300800000000000, 0⟩ } = none ∧
    toText .nil Demo.clockEnv { t with created := some ⟨0, 30⟩ } = none := by
  refine ⟨(C68_unwritable Demo.clock_times (.inl rfl) fun h => ?_).2, (C68_unwritable Demo.clock_times (.inl rfl) fun h => ?_).2⟩
  · obtain ⟨_, h⟩ := C68_expressible.2 h
    rw [show format ⟨253402300800000000000, 0⟩ = none by decide +kernel] at h
    cases h
  · obtain ⟨_, h⟩ := C68_expressible.2 h
    rw [show format ⟨0, 30⟩ = none by decide +kernel] at h
    cases h

end Wot
