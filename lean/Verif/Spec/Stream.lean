import Verif.Model.Writer
import Verif.Model.Partition

/-
Specification of what the user put into a graph: `parts` is, for every partition, the list of
`add` calls made on its writer, each with the records of that call.  Nothing here refers to files,
indices or loaded tables.
-/

namespace DeepGNN.Spec

/-- Every record given to the converter, partition after partition. -/
def allRecords (parts : List (List (List Rec))) : List Rec := parts.flatten.flatten

/-- Records describing edges (`dst = -1` marks node records). -/
def edgeRecords (parts : List (List (List Rec))) : List Rec :=
  (allRecords parts).filter (fun r => r.dst ≠ -1)

/-- The neighbours of `n` over the requested edge types: destination, type and weight of every
edge record leaving `n`, in input order. -/
def neighbors (parts : List (List (List Rec))) (n : Int) (types : List Int) : List Nbr :=
  ((edgeRecords parts).filter (fun r => r.src = n ∧ r.typ ∈ types)).map
    fun r => { dst := r.dst, typ := r.typ, weight := r.weight }

/-- An edge with its lifetime: it exists from `created` on, until just before `removed`
(`none`: forever). -/
structure TimedEdge where
  src : Int
  dst : Int
  typ : Int
  weight : Int
  created : Int
  removed : Option Int

/-- Removal time given by a record, `d` if it gives none. `-1` stands for "never removed". -/
def removalTime (d : Option Int) : Option Int → Option Int
  | none => d
  | some v => if v = -1 then none else some v

/-- Edges with their lifetimes for one `add` call: an edge without own timestamps has those of the
last node record before it in the call. `nc`, `nr`: timestamps of that node (a node without
timestamps exists since 0, forever). -/
def timedEdges (nc : Int) (nr : Option Int) : List Rec → List TimedEdge
  | [] => []
  | r :: rs =>
    if r.dst = -1 then timedEdges (r.created.getD 0) (removalTime none r.removed) rs
    else { src := r.src, dst := r.dst, typ := r.typ, weight := r.weight,
           created := r.created.getD nc, removed := removalTime nr r.removed } :: timedEdges nc nr rs

/-- All edges with their lifetimes. -/
def allTimedEdges (parts : List (List (List Rec))) : List TimedEdge :=
  parts.flatten.flatMap (timedEdges 0 none)

/-- Does the edge exist at time `t`? -/
def TimedEdge.aliveAt (e : TimedEdge) (t : Int) : Bool :=
  decide (e.created ≤ t) && (match e.removed with | none => true | some d => decide (t < d))

/-- The neighbours of `n` at time `t`. -/
def neighborsAt (parts : List (List (List Rec))) (n : Int) (t : Int) (types : List Int) : List Nbr :=
  ((allTimedEdges parts).filter (fun e => e.src = n ∧ e.typ ∈ types ∧ e.aliveAt t)).map
    fun e => { dst := e.dst, typ := e.typ, weight := e.weight }

/-- Order of removal times, `none` (never) being the last. -/
def removalLe : Option Int → Option Int → Prop
  | _, none => True
  | none, some _ => False
  | some a, some b => a ≤ b

/-- The edges of `n` of one type were given in an order in which neither creation nor removal times
decrease, in every partition. -/
def OrderedLifetimes (parts : List (List (List Rec))) (n : Int) : Prop :=
  ∀ part ∈ parts, ((part.flatMap (timedEdges 0 none)).filter (fun e => e.src = n)).Pairwise
    fun x y => x.typ = y.typ → x.created ≤ y.created ∧ removalLe x.removed y.removed

/-- Sums of the weights of consecutive edges of one node and type are exact in single precision
(e.g. non-negative integers with a total of at most `2^24`). -/
def ExactWeights (parts : List (List (List Rec))) : Prop :=
  ∀ n t, ∀ l, l <:+: ((edgeRecords parts).filter (fun r => r.src = n ∧ r.typ = t)).map (·.weight) →
    f32 l.sum = l.sum

/-- Node records: id and type. -/
def nodeTypes (parts : List (List (List Rec))) : List (Int × Int) :=
  ((allRecords parts).filter (fun r => r.dst = -1)).map fun r => (r.src, r.typ)

end DeepGNN.Spec

namespace DeepGNN

/-- Range conditions on the input: ids below `2^63` (the engine's ids are signed), edge weights
representable in the file format. -/
structure RecOk (C : WeightCodec) (r : Rec) : Prop where
  src : r.src < 2 ^ 63
  dst : r.dst < 2 ^ 63
  weight : r.dst ≠ -1 → C.Valid r.weight

end DeepGNN
