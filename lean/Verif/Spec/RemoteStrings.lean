import Verif.Spec.Features

/-
String features of edges that are given at most once.
-/

namespace DeepGNN.Spec

/-- The value of feature `fid` of an edge: given by its first record, empty if there is none. -/
def edgeText (parts : List (List (List Rec))) (e : EdgeId) (fid : Nat) : Bytes :=
  match edgesBetween parts e.src e.dst e.typ with
  | [] => []
  | r :: _ => featureOf r fid

end DeepGNN.Spec
