import Verif.Spec.Features

/-
Specification of sparse features fetched from servers.
-/

namespace DeepGNN

open Spec

/-- What a client returns for one feature if the values of the nodes (edges) at the positions `0 … n-1` are `v`: the
dimension, the coordinates in request order, each behind the position, and the bytes of the values. -/
def Spec.sparseOut (n dim : Nat) (v : Nat → Option Sparse) : Nat × List Int × Bytes :=
  (if ∃ i, i < n ∧ (v i).isSome then dim else 0,
   (List.range n).flatMap fun i => match v i with
     | none => []
     | some x => x.coords.flatMap fun row => (i : Int) :: row,
   (List.range n).flatMap fun i => match v i with
     | none => []
     | some x => x.values.flatten)

end DeepGNN
