import Verif.Model.Created
import Verif.Spec.Recent

namespace DeepGNN.Spec

/-- A neighbour with the creation time of the edge, without the weight. -/
def timed (x : Nbr × Int) : Int × Int × Int := (x.1.dst, x.1.typ, x.2)

/-- The same with the weight. -/
def withTime (s : Slot) : Nbr × Int := (⟨s.dst, s.typ, s.weight⟩, s.created)

/-- A sampled neighbour with its type, and the creation time of the edge. -/
def sampledTime (s : Slot) : (Int × Int) × Int := ((s.dst, s.typ), s.created)

/-- The reply of a server that answers `l`, one list of neighbours with creation times per node. -/
def timedReply (l : List (List (Nbr × Int))) : TimedReply :=
  { counts := l.map List.length, nbrs := l.flatten.map (·.1), times := l.flatten.map (·.2) }

end DeepGNN.Spec
