import Verif.Model.RemoteSampler

namespace DeepGNN.Spec

/-- The requests divide an output of size `n` into consecutive ranges, in their order. -/
structure Divides (n : Nat) (calls : List SampleCall) : Prop where
  sum : (calls.map (·.count)).sum = n
  position : ∀ i c, calls[i]? = some c → c.position = ((calls.take i).map (·.count)).sum

/-- Replies of the requested sizes. -/
def RightSizes {α} (calls : List SampleCall) (rs : List (List Int × List α)) : Prop :=
  rs.length = calls.length ∧ ∀ x ∈ calls.zip rs, x.2.1.length = x.1.count ∧ x.2.2.length = x.1.count

end DeepGNN.Spec
