import Verif.Model.Toss

namespace DeepGNN.Spec

/-- How many of the 2^64 numbers of the generator select element `k` of `size`. -/
def hits (size k : Nat) : Nat := (List.range (2 ^ 64)).countP fun x => Toss.pick size x == some k

end DeepGNN.Spec
