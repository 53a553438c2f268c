import Verif.Model.Launch

/-
How the processes of a distributed job agree on graph servers (src/python/deepgnn/graph_engine/backends/snark/client.py,
`SnarkDistributedBackend`).  Names, addresses and files are lists of characters.  Environment variables hold natural
numbers, a variable without one is unset.  Waiting for lock files is in Verif/Model/Synchronized.lean, the partitions a
server loads in Verif/Model/Launch.lean.  Not modelled: `skip_ge_start` (nothing is started), the choice of a port.
-/

namespace DeepGNN.Cluster

open Files (Name)

/-- What `_get_server_index_client_rank` returns (client.py:176-178): the index of the server to start, negative for
none, the rank of the client and the number of processes. -/
structure Place where
  server : Int
  rank : Int
  world : Nat
deriving DecidableEq, Repr

/-- Environment variables. -/
abbrev Env := String → Option Nat

/-- The common part of `_try_ddp` and `_try_mpi_or_horovod` (client.py:237-253, 270-289).  `none`: an exception,
`some none`: not this kind of job. -/
def fromRanks (localRank localSize worldRank worldSize : Option Nat) : Option (Option Place) :=
  match localRank with
  | none => some none
  | some l =>
    localSize.bind fun size => worldRank.bind fun rank => worldSize.bind fun world =>
      if l = 0 then if size = 0 then none else some (some ⟨(rank / size : Nat), rank, world⟩)
      else some (some ⟨-1, rank, world⟩)

/-- `_try_ddp` (client.py:234-253). -/
def tryDdp (env : Env) : Option (Option Place) :=
  fromRanks (env "LOCAL_RANK") (env "LOCAL_WORLD_SIZE") (env "RANK") (env "WORLD_SIZE")

/-- `_try_mpi_or_horovod` (client.py:255-289). -/
def tryMpi (env : Env) : Option (Option Place) :=
  if (env "OMPI_COMM_WORLD_LOCAL_RANK").isSome then
    fromRanks (env "OMPI_COMM_WORLD_LOCAL_RANK") (env "OMPI_COMM_WORLD_LOCAL_SIZE") (env "OMPI_COMM_WORLD_RANK")
      (env "OMPI_COMM_WORLD_SIZE")
  else
    fromRanks (env "HOROVOD_LOCAL_RANK") (env "HOROVOD_LOCAL_SIZE") (env "HOROVOD_RANK") (env "HOROVOD_SIZE")

/-- `worker.rsplit(":", 1)[0]` (client.py:296): all before the last colon (58). -/
def host (w : Name) : Name := if 58 ∈ w then ((w.reverse.dropWhile (· != 58)).drop 1).reverse else w

/-- The loop of `_extract_server_index` (client.py:294-302); `seen` is a set. -/
def indexLoop (cur : Name) : (seen : List Name) → List Name → Option Int
  | _, [] => none
  | seen, w :: ws =>
    if cur ≠ w then indexLoop cur (if host w ∈ seen then seen else host w :: seen) ws
    else some (if host w ∈ seen then -1 else seen.length)

/-- `_extract_server_index` (client.py:291-302): also the list of workers, which it sorts in place.  Outer `none`: there is
no such worker. -/
def extractServerIndex (workers : List Name) (index : Nat) : Option (Option Int × List Name) :=
  (workers[index]?).map fun cur => (indexLoop cur [] (Files.sort workers), Files.sort workers)

/-- The variable TF_CONFIG: is the task a worker, its index, the workers of the cluster. -/
structure TfConfig where
  worker : Bool
  index : Nat
  workers : List Name

/-- `BackendOptions` (options.py:28-54), as far as they are used here. -/
structure Options where
  serverIdx : Option Int
  clientRank : Option Int
  numGe : Nat
  servers : List Name
  taskIndex : Option Nat
  workerHosts : List Name
deriving DecidableEq, Repr

/-- `_try_tf_cmd_args` (client.py:319-342); the list in the options is sorted. -/
def tryTfArgs (o : Options) : Option (Option Place × Options) :=
  match o.taskIndex with
  | none => some (none, o)
  | some i =>
    match o.workerHosts with
    | [] => some (none, o)
    | w :: _ =>
      if w = [] then some (none, o)
      else (extractServerIndex o.workerHosts i).map fun r =>
        (r.1.map fun s => ⟨s, i, o.workerHosts.length⟩, { o with workerHosts := r.2 })

/-- `_try_tf_config` (client.py:304-317). -/
def tryTfConfig : Option TfConfig → Option (Option Place)
  | none => some none
  | some t =>
    if t.worker then (extractServerIndex t.workers t.index).map fun r => r.1.map fun s => ⟨s, t.index, t.workers.length⟩
    else some (some ⟨-1, -1, 0⟩)

/-- `file.readlines()`. -/
def readlines : List Nat → List (List Nat)
  | [] => []
  | c :: cs =>
    if c = 10 then [c] :: readlines cs
    else match readlines cs with
      | [] => [[c]]
      | l :: ls => (c :: l) :: ls

/-- The number of servers, read from meta.json if there is neither a number nor a list (client.py:179-188).  `int` is
python's; `none`: an exception. -/
def countServers (int : List Nat → Option Nat) (metaText : List Nat) (o : Options) : Option Options :=
  if o.numGe = 0 ∧ o.servers.length = 0 then
    (((readlines metaText)[7]?).bind int).map fun n => { o with numGe := min n 4 }
  else some o

/-- The cases of `_get_server_index_client_rank` one after the other (client.py:190-232).  `none`: an exception, also the
one after nothing fits (client.py:95-99). -/
def findPlace (env : Env) (tf : Option TfConfig) (o : Options) : Option (Place × Options) :=
  match o.serverIdx with
  | some s => o.clientRank.map fun r => (⟨s, r, if o.servers.length > 0 then o.servers.length else o.numGe⟩, o)
  | none =>
    (tryDdp env).bind fun d =>
      match d with
      | some p => some (p, o)
      | none =>
        (tryMpi env).bind fun d =>
          match d with
          | some p => some (p, o)
          | none =>
            (tryTfArgs o).bind fun d =>
              match d.1 with
              | some p => some (p, d.2)
              | none => (tryTfConfig tf).bind fun c => c.map fun p => (p, d.2)

/-- The file `_AddressFinder` writes (client.py:376-384): the address of the process and the index of its server. -/
def addressFile (addr : Name) (p : Place) : Name × Int := (addr, p.server)

/-- What `_AddressReader` collects (client.py:399-409): the addresses in the files, listed by the file system in any
order, whose second line is not negative. -/
def readAddresses (listing : List (Name × Int)) : List Name := (listing.filter fun f => decide (f.2 ≥ 0)).map (·.1)

/-- What a process starts: a server with its address, its index and the number of servers, and a client with its rank and
the servers it connects to. -/
structure Launched where
  server : Option (Name × Nat × Nat)
  rank : Int
  servers : List Name
deriving DecidableEq, Repr

/-- `SnarkDistributedBackend.__init__` after its place is found (client.py:101-136, 145-170): `listing` are the files with
the addresses of all processes.  `none`: there is no such server. -/
def launch (o : Options) (p : Place) (listing : List (Name × Int)) : Option Launched :=
  let servers := if o.servers.length > 0 then o.servers else readAddresses listing
  if p.server ≥ 0 then
    (servers[p.server.toNat]?).map fun a => ⟨some (a, p.server.toNat, servers.length), p.rank, servers⟩
  else some ⟨none, p.rank, servers⟩

/-- `SnarkDistributedBackend.__init__` (client.py:51-136). -/
def backend (int : List Nat → Option Nat) (metaText : List Nat) (env : Env) (tf : Option TfConfig) (o : Options)
    (listing : List (Name × Int)) : Option Launched :=
  (countServers int metaText o).bind fun o => (findPlace env tf o).bind fun r => launch r.2 r.1 listing

/-- The partitions a process loads (client.py:112-125, distributed.py:56-113). -/
def Launched.loads (l : Launched) (path : String) (ids : List Nat) : Option (List (String × Nat)) :=
  match l.server with
  | none => some []
  | some x => Launch.serverPartitions path ids x.2.1 x.2.2

end DeepGNN.Cluster
