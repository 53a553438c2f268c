import Verif.Model.RemoteFeatures
import Verif.Model.Weighted

/-
Sampled neighbours from several servers (src/cc/lib/distributed/client.cc, src/cc/lib/graph/merger.h).
Not modelled: the optional edge creation times; the generator of the client, also used to seed the
requests, is an arbitrary sequence of draws.
The output arrays are a list of rows, one per requested node.
-/

namespace DeepGNN

/-- `UniformSampleNeighborsReply`: the known nodes, their numbers of neighbours, `count` neighbours each.  The parallel arrays of
the message are one list of `α`: (neighbour, type), and with the creation time if the request asks for it. -/
structure UReply (α : Type) where
  nodes : List Int
  counts : List Nat
  nbrs : List α
deriving DecidableEq, Repr

/-- The callback `update` (client.cc:857-868) for the reply node at position `it`. -/
def replyUpdate {α : Type} (count : Nat) (r : UReply α) (it : Nat) (out : List α) (pick off : Nat) :
    Option (List α) :=
  if pick < out.length then r.nbrs[count * it + off % count]?.map (out.set pick) else none

/-- Body of the loop over the replies (client.cc:844-879): a reply and its iterator; `st` is the row of the node, the
state of the merger and the next draw. -/
def uniformReply {α : Type} (R : Draws) (withoutReplacement : Bool) (count : Nat) (node : Int) (x : UReply α × Nat)
    (st : List α × Nat × Nat) : Option ((UReply α × Nat) × (List α × Nat × Nat)) :=
  if x.1.nodes[x.2]? = some node then
    (x.1.counts[x.2]?).bind fun w =>
      (if withoutReplacement then mergeAdd R (replyUpdate count x.1 x.2) count w st
        else withReplacementAdd R (replyUpdate count x.1 x.2) count w st).map fun st => ((x.1, x.2 + 1), st)
  else some (x, st)

/-- The loop over the replies. -/
def uniformReplies {α : Type} (R : Draws) (withoutReplacement : Bool) (count : Nat) (node : Int) :
    List (UReply α × Nat) → List α × Nat × Nat → Option (List (UReply α × Nat) × (List α × Nat × Nat))
  | [], st => some ([], st)
  | x :: xs, st => (uniformReply R withoutReplacement count node x st).bind fun y =>
      (uniformReplies R withoutReplacement count node xs y.2).map fun z => (y.1 :: z.1, z.2)

/-- The loop over the nodes (client.cc:824-880); the mergers are reset for every node and the rows are filled with
defaults before. -/
def uniformNodes {α : Type} (R : Draws) (withoutReplacement : Bool) (count : Nat) (default : α) :
    List Int → List (UReply α × Nat) → Nat → Option (List (List α) × Nat)
  | [], _, s => some ([], s)
  | n :: ns, xs, s =>
    (uniformReplies R withoutReplacement count n xs (List.replicate count default, 0, s)).bind fun y =>
      (uniformNodes R withoutReplacement count default ns y.1 y.2.2.2).map fun z => (y.2.1 :: z.1, z.2)

/-- `GRPCClient::UniformSampleNeighbor` (client.cc:771-881) once all replies are there (its callbacks do nothing). -/
def remoteUniform {α : Type} (R : Draws) (withoutReplacement : Bool) (count : Nat) (default : α) (nodes : List Int)
    (replies : List (UReply α)) (s : Nat) : Option (List (List α) × Nat) :=
  uniformNodes R withoutReplacement count default nodes (replies.map fun r => (r, 0)) s

/-- `WeightedSampleNeighborsReply`: the known nodes with the total weights of their neighbours, `count` neighbours each
(`α`: with the creation times if the request asks for them). -/
structure WReply (α : Type := Nbr) where
  nodes : List (Int × Int)
  nbrs : List α
deriving DecidableEq, Repr

/-- What the client keeps for a requested node: `shard_weights` and the row of the output. -/
structure WCell (α : Type := Nbr) where
  node : Int
  weight : Int
  row : List α
deriving DecidableEq, Repr

/-- The loop over the samples of a node (merger.h:325-352): the row of the reply, that of the output; `rate` is
`overwrite_rate` as a fraction, `r` the next draw. -/
def overwriteRow {α : Type} (D : WDraws) (rate : Int × Int) : List α → List α → Nat → List α × Nat
  | y :: ys, o :: os, r =>
    if rate.1 < rate.2 then
      let z := overwriteRow D rate ys os (r + 1)
      if ((D.real r).1 : Int) * rate.2 > (D.real r).2 * rate.1 then (o :: z.1, z.2) else (y :: z.1, z.2)
    else
      let z := overwriteRow D rate ys os r
      (y :: z.1, z.2)
  | _, os, r => (os, r)

/-- The loop of `MergeWeightedSampledNeighbors` over the nodes of a reply (merger.h:285-357): `flat` are the neighbours
of the reply not yet read, `cells` the requested nodes not yet passed. -/
def mergeWeightedLoop {α : Type} (D : WDraws) (count : Nat) (default : α) :
    List (Int × Int) → List α → List (WCell α) → Nat → Option (List (WCell α) × Nat)
  | [], _, cells, r => some (cells, r)
  | (n, w) :: rs, flat, cells, r =>
    match cells.dropWhile (fun c => c.node ≠ n) with
    | [] => none
    | c :: cs =>
      if flat.length < count then none
      else
        let acc := f32 (c.weight + w)
        let z := if acc = 0 then (List.replicate count default, r) else overwriteRow D (w, acc) (flat.take count) c.row r
        (mergeWeightedLoop D count default rs (flat.drop count) cs z.2).map fun y =>
          (cells.takeWhile (fun c => c.node ≠ n) ++ { c with weight := acc, row := z.1 } :: y.1, y.2)

/-- The callback of `GRPCClient::WeightedSampleNeighbor` (client.cc:755-762; merger.h:248-364). -/
def mergeWeighted {α : Type} (D : WDraws) (count : Nat) (default : α) (_shard : Nat) (r : WReply α) (st : List (WCell α) × Nat) :
    Option (List (WCell α) × Nat) :=
  mergeWeightedLoop D count default r.nodes r.nbrs st.1 st.2

/-- `GRPCClient::WeightedSampleNeighbor` (client.cc:718-769); `outs`: initial contents of the output, one row per node. -/
def remoteWeighted {α : Type} (D : WDraws) (count : Nat) (default : α) (nodes : List Int) (outs : List (List α))
    (evs : List (Ev (WReply α))) (servers : Nat) : Option (List (List α)) :=
  (eachReply (mergeWeighted D count default) ⟨[], []⟩ ((nodes.zip outs).map fun x => ⟨x.1, 0, x.2⟩, 0) servers evs).out.map
    fun st => st.1.map (·.row)

end DeepGNN
