/-
What the bulk writer should do with lines.
-/

namespace DeepGNN.Spec

/-- Text of lines: each followed by a line break. -/
def linesText (lines : List (List Char)) : List Char := lines.flatMap fun l => l ++ ['\n']

/-- `pieces` cut `lines` into runs of 1 to `size` lines. -/
def CutInto {α : Type} (lines : List α) (size : Nat) (pieces : List (List α)) : Prop :=
  pieces.flatten = lines ∧ ∀ p, p ∈ pieces → 0 < p.length ∧ p.length ≤ size

/-- What queue `i` of `n` gets when chunks are dealt out in turn, beginning with chunk number `start`. -/
def roundRobin {β : Type} (n start i : Nat) (chunks : List β) : List β :=
  ((chunks.zipIdx start).filter fun p => p.2 % n = i).map (·.1)

end DeepGNN.Spec
