import Verif.Model.Codec
import Verif.Spec.Basic
/-
Vocabulary for statements about JSON documents.
-/
namespace Wot

mutual
/-- No object in the document has two members with the same name. -/
def Json.NoDup : Json → Prop
  | .arr l => Json.NoDupList l
  | .obj m => (m.map (·.1)).Nodup ∧ Json.NoDupMembers m
  | _ => True
termination_by structural x => x
def Json.NoDupList : List Json → Prop
  | [] => True
  | j :: l => j.NoDup ∧ Json.NoDupList l
termination_by structural x => x
def Json.NoDupMembers : List (String × Json) → Prop
  | [] => True
  | (_, j) :: m => j.NoDup ∧ Json.NoDupMembers m
termination_by structural x => x
end

/-- The document is a possible content of a `serde_json::Value`: no repeated members, and members in
the order of the `BTreeMap`. -/
def Json.IsValue (j : Json) : Prop := j.norm = j

/-- The document `d` says the same as `s`, in which later members replace earlier ones of the same
name; `d` itself has no repeated members. The order of members does not matter. -/
def Represents (d s : Json) : Prop := d.NoDup ∧ d.norm = s.norm

/-- Among the members `es` there is one called `k` just when there is one in `m`, and it says the same. -/
def Carries (es m : Members) (k : String) : Prop :=
  match lastOf (occ k m) with
  | none => occ k es = []
  | some v => ∃ v', occ k es = [v'] ∧ Represents v' v

/-- The value `a` of an extension type survives writing and reading: it is written under names that
belong to the extension, and is read back from any members that carry what was written, whatever
other members there are. -/
structure ExtCodec.Reads {A : Type} (c : ExtCodec A) (a : A) : Prop where
  own : ∀ m, c.ser a = some m → ∀ kv ∈ m, kv.1 ∈ c.keys
  read : ∀ m es, c.ser a = some m → (∀ k ∈ c.keys, Carries es m k) → c.de es = some a

end Wot
