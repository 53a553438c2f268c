import Verif.Model.Toss
import Verif.Model.Sampling

/-
Uniform sampling with replacement (src/cc/lib/graph/reservoir.cc:63-74) with the probability `rate` of a replacement, which
`Model/Reservoir.lean` leaves open: once with exact draws, once in single precision.
-/

namespace DeepGNN.Toss

/-- One output slot of `WithReplacement::add` over the calls for `blocks` (reservoir.cc:63-74).  A draw for a block of `w` elements, `seen` with it and the
blocks before, is a number below `seen` and a number below `w`: the slot is replaced if the first is below `w`, which has the share `w / seen`, and
the second is the index.  Simplification: exact draws. -/
def slotAfter {α} : Option α → List (List α) → List (Nat × Nat) → Option α
  | s, xs :: blocks, (c, d) :: draws => slotAfter (if c < xs.length then xs[d]? else s) blocks draws
  | s, _, _ => s

/-- All draws for one slot, after `seen` elements (`m_seen`, reservoir.cc:65). -/
def drawsFor {α} : Nat → List (List α) → List (List (Nat × Nat))
  | _, [] => [[]]
  | seen, xs :: blocks =>
    (List.range (seen + xs.length)).flatMap fun c => (List.range xs.length).flatMap fun d =>
      (drawsFor (seen + xs.length) blocks).map ((c, d) :: ·)

/-- The quotient of two floats, a multiple of 1 / 2^64.  The last bit before rounding says whether the division leaves a remainder.  Simplification:
correct for quotients of at least 2^-38, for smaller ones the result has less than 24 significant bits. -/
def quotient (a b : Nat) : Nat := round24 (2 * (a * 2 ^ 63 / b) + if a * 2 ^ 63 % b = 0 then 0 else 1)

/-- `float(w) / m_seen` (reservoir.cc:66). -/
def rate (w seen : Nat) : Nat := quotient (round24 w) (round24 seen)

/-- `rate == 1.0f || m_dist(m_gen) < rate` (reservoir.cc:69) for a draw `t`. -/
def replaces (w seen t : Nat) : Bool := rate w seen == 2 ^ 64 || decide (t < rate w seen)

/-- `WithReplacement::add` (reservoir.cc:63-74) in single precision; `T` are the results of `m_dist(m_gen)`.  For `w = 0` the rate is 0 or not a number and
nothing happens. -/
def addRounded {σ} (T : Nat → Nat) (up : σ → Nat → Nat → Option σ) (k w : Nat) (st : σ × Nat × Nat) : Option (σ × Nat × Nat) :=
  let seen := st.2.1 + w
  ((List.range k).foldlM (fun (x : σ × Nat) i =>
      if rate w seen = 2 ^ 64 then (up x.1 i (index w (T x.2))).map fun o => (o, x.2 + 1)
      else if replaces w seen (T x.2) then (up x.1 i (index w (T (x.2 + 1)))).map fun o => (o, x.2 + 2)
      else some (x.1, x.2 + 1)) (st.1, st.2.2)).map fun x => (x.1, seen, x.2)

end DeepGNN.Toss

namespace DeepGNN

/-- One node of `Graph::UniformSampleNeighbor` with replacement (graph.cc:496-533), in single precision. -/
def Graph.sampleRounded1 (g : Graph) (T : Nat → Nat) (ts : Option Int) (types : List Int) (count : Nat)
    (default : Int × Int) (node : Int) (out : List (Int × Int)) (s : Nat) : Option (List (Int × Int) × Nat) := do
  let es ← g.entries node
  let blocks ← es.mapM fun (p, id) => p.sampleBlocks false id ts (sortUnique types)
  let (out, _, s) ← blocks.flatten.foldlM (fun st xs => Toss.addRounded T (store xs) count xs.length st) (out, 0, s)
  let total := (blocks.flatten.map List.length).sum
  if total > 0 then return (out, s)
  else return (if total < count then out.take total ++ List.replicate (out.length - total) default else out, s)

end DeepGNN
