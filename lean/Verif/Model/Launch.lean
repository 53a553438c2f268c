import Verif.Model.Files

/-
Which partitions a server or a local client loads.  The metadata file is reduced to the ids under its key "partitions".
-/

namespace DeepGNN.Launch

/-- `Server.__init__` of src/python/deepgnn/graph_engine/snark/distributed.py:86, 95-100: the (path, partition) pairs handed
to the native server.  `python zip` stops with the shorter iterator; `total_shards = 0` is a ValueError. -/
def serverPartitions (path : String) (metaIds : List Nat) (index totalShards : Nat) : Option (List (String × Nat)) :=
  let partitionCount := metaIds.length
  if totalShards = 0 then none
  else some ((List.replicate partitionCount path).zip (Files.pyRange index partitionCount totalShards))

/-- Command line server with `--server_group index servers partitions`
(src/python/deepgnn/graph_engine/snark/server.py:241-251). -/
def groupPartitions (path : String) (index servers partitions : Nat) : Option (List (String × Nat)) :=
  if servers = 0 then none else some ((Files.pyRange index partitions servers).map fun p => (path, p))

/-- `Client.__init__` of src/python/deepgnn/graph_engine/snark/local.py:37-42. -/
def clientPartitions (path : String) (partitions : List Nat) : List (String × Nat) :=
  let partitions := if partitions.length = 0 then [0] else partitions
  (List.range partitions.length).map fun p => (path, p)

/-- Arguments of the native `MemoryGraph` (src/python/deepgnn/graph_engine/snark/client.py:232-242): a partition is given as
an id or as a path and an id. -/
def memoryGraphPartitions (metaPath : String) (partitions : Option (List (Nat ⊕ String × Nat))) : List (String × Nat) :=
  match partitions with
  | none => [(metaPath, 0)]
  | some l => l.map fun p =>
    match p with
    | .inl id => (metaPath, id)
    | .inr pair => pair

end DeepGNN.Launch
