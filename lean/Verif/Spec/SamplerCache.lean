import Verif.Model.SamplerCache

namespace DeepGNN.Spec

open SamplerCache

/-- The sampler a request calls for: one for its types and its strategy, unless none can be created. -/
def requested (ok : List Int → List Char → Bool) (r : Request) : Option Sampler :=
  if ok (checkTypes r.types) r.strategy.name then some ⟨checkTypes r.types, r.strategy.name⟩ else none

/-- An int or an array which numpy prints in full. -/
def Printed : Types → Prop
  | .int _ => True
  | .array l => l.length ≤ 1000

end DeepGNN.Spec
