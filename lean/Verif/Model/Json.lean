import Verif.Model.Prelude
import Verif.Model.Bounds
/-
JSON trees. `Json` is used both for JSON *documents* (where an object may contain a member twice,
as serde's text serialiser happily emits) and for `serde_json::Value`s, which are the documents in
normal form (`Json.Normal`): members sorted by name and unique, because
`serde_json::Map` is a `BTreeMap` (the `preserve_order` feature is not enabled in `Cargo.toml`).
-/
namespace Wot

/-- `serde_json::Number`: `PosInt(u64)`, `NegInt(i64 < 0)`, `Float(f64)`.
`neg n` stands for `-(n+1)`. Range invariants of the Rust type are not part of the model type. -/
inductive JNum
  | pos (n : Nat)
  | neg (n : Nat)
  | float (f : F64)
  deriving DecidableEq

/-- A JSON document / `serde_json::Value`. -/
inductive Json
  | null
  | bool (b : Bool)
  | num (n : JNum)
  | str (s : String)
  | arr (l : List Json)
  | obj (m : List (String × Json))

namespace Json

instance : Inhabited Json := ⟨.null⟩

mutual
/-- Structural equality. -/
def beq : Json → Json → Bool
  | .null, .null => true
  | .bool a, .bool b => a == b
  | .num a, .num b => decide (a = b)
  | .str a, .str b => a == b
  | .arr a, .arr b => beqL a b
  | .obj a, .obj b => beqM a b
  | _, _ => false
termination_by structural x => x
def beqL : List Json → List Json → Bool
  | [], [] => true
  | a :: l, b :: m => beq a b && beqL l m
  | _, _ => false
termination_by structural x => x
def beqM : List (String × Json) → List (String × Json) → Bool
  | [], [] => true
  | (k, a) :: l, (k', b) :: m => k == k' && beq a b && beqM l m
  | _, _ => false
termination_by structural x => x
end

/-- Induction over JSON trees. -/
theorem ind {P : Json → Prop} (hnull : P .null) (hbool : ∀ b, P (.bool b)) (hnum : ∀ n, P (.num n))
    (hstr : ∀ s, P (.str s)) (harr : ∀ l, (∀ c ∈ l, P c) → P (.arr l))
    (hobj : ∀ m, (∀ kv ∈ m, P kv.2) → P (.obj m)) (j : Json) : P j := by
  apply Json.rec (motive_1 := P) (motive_2 := fun l => ∀ c ∈ l, P c)
    (motive_3 := fun m => ∀ kv ∈ m, P kv.2) (motive_4 := fun kv => P kv.2) <;> simp_all
  exact hobj

theorem beq_iff (a : Json) : ∀ b, beq a b = true ↔ a = b := by
  induction a using ind with
  | hnull => intro b; cases b <;> simp [beq]
  | hbool x => intro b; cases b <;> simp [beq]
  | hnum x => intro b; cases b <;> simp [beq]
  | hstr x => intro b; cases b <;> simp [beq]
  | harr l ih =>
    intro b
    cases b with
    | arr m =>
      simp only [beq, Json.arr.injEq]
      induction l generalizing m with
      | nil => cases m <;> simp [beqL]
      | cons x l ihl =>
        cases m with
        | nil => simp [beqL]
        | cons y m =>
          simp only [beqL, Bool.and_eq_true, List.cons.injEq]
          rw [ih x (by simp) y, ihl (fun c hc => ih c (by simp [hc]))]
    | _ => simp [beq]
  | hobj l ih =>
    intro b
    cases b with
    | obj m =>
      simp only [beq, Json.obj.injEq]
      induction l generalizing m with
      | nil => cases m <;> simp [beqM]
      | cons x l ihl =>
        obtain ⟨k, x⟩ := x
        cases m with
        | nil => simp [beqM]
        | cons y m =>
          obtain ⟨k', y⟩ := y
          simp only [beqM, Bool.and_eq_true, List.cons.injEq, Prod.mk.injEq, beq_iff_eq]
          rw [ih (k, x) (by simp) y, ihl (fun c hc => ih c (by simp [hc]))]
    | _ => simp [beq]

instance : DecidableEq Json := fun a b =>
  if h : beq a b = true then .isTrue ((beq_iff a b).1 h)
  else .isFalse (fun e => h ((beq_iff a b).2 e))

end Json
end Wot
