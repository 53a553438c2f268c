import Verif.Model.Bytes

namespace DeepGNN.Spec

/-- The first bytes of a file, cut into pieces of the given sizes. -/
def slices : Bytes → List Nat → List Bytes
  | _, [] => []
  | file, n :: ns => file.take n :: slices (file.drop n) ns

end DeepGNN.Spec
