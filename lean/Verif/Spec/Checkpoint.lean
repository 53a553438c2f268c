/-
Order of checkpoints and what a rotation should keep.
-/

namespace DeepGNN.Spec

/-- `(epoch, step)` is earlier. -/
def Older (x y : Nat × Nat) : Prop := x.1 < y.1 ∨ x.1 = y.1 ∧ x.2 < y.2

/-- `kept` are the newest of the checkpoints in `saved`: at most `limit`, each once, all others are older than all of
them, and others exist only if the limit is reached. -/
structure NewestCheckpoint (limit : Nat) (saved kept : List (Nat × Nat)) : Prop where
  nodup : kept.Nodup
  subset : ∀ x ∈ kept, x ∈ saved
  bounded : kept.length ≤ limit
  older : ∀ x ∈ saved, x ∉ kept → kept.length = limit ∧ ∀ y ∈ kept, Older x y

end DeepGNN.Spec
