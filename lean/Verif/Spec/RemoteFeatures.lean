import Verif.Model.RemoteFeatures
import Verif.Spec.Remote

/-
Answers of servers about features.
-/

namespace DeepGNN.Spec

/-- Answer of a server for one node: nothing, or for every requested feature a timestamp (negative: the server
has no value) and a value. -/
abbrev Answer := Option (List (Int × Bytes))

/-- The reply of a server whose answers for nodes number `i`, `i + 1`, … are given. -/
def featReply : (i : Nat) → List Answer → FeatReply
  | _, [] => ⟨[], [], []⟩
  | i, none :: as => featReply (i + 1) as
  | i, some row :: as =>
    let r := featReply (i + 1) as
    ⟨i :: r.offsets, row.map (·.1) ++ r.stamps, row.flatMap (·.2) ++ r.values⟩

/-- An answer has one value of the requested size per feature. -/
def Answer.Fits (feats : List (Nat × Nat)) (a : Answer) : Prop := ∀ row, a = some row → row.map (·.2.length) = feats.map (·.2)

/-- The answers of all servers for feature number `f` of node number `k`. -/
def valuesFor (answers : List (List Answer)) (k f : Nat) : List (Int × Bytes) :=
  answers.filterMap fun as => (as[k]?.join).bind fun row => row[f]?

/-- `v` is a value with the greatest timestamp, or zeros if there is no value. -/
def Newest (vals : List (Int × Bytes)) (size : Nat) (v : Bytes) : Prop :=
  (∃ c, (c, v) ∈ vals ∧ 0 ≤ c ∧ ∀ y ∈ vals, y.1 ≤ c) ∨ (v = List.replicate size 0 ∧ ∀ y ∈ vals, y.1 < 0)

end DeepGNN.Spec
