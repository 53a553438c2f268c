import Verif.Model.Cluster

namespace DeepGNN.Spec

open Cluster Files

/-- The processes `0, ..., procs - 1` of a job start every server of the list once, on its address, and nothing else; all
clients connect to this list, and no two of them have the same rank. -/
structure ServersOnce (run : Nat → Option Launched) (procs : Nat) (servers : List Name) : Prop where
  starts : ∀ p < procs, ∃ l, run p = some l ∧ l.servers = servers
  once : ∀ s a, servers[s]? = some a → ∃ p < procs, ∃ l, run p = some l ∧ l.server = some (a, s, servers.length) ∧
    ∀ p' < procs, ∀ l' x, run p' = some l' → l'.server = some x → x.2.1 = s → p' = p
  only : ∀ p < procs, ∀ l x, run p = some l → l.server = some x → servers[x.2.1]? = some x.1 ∧ x.2.2 = servers.length
  ranks : ∀ p < procs, ∀ p' < procs, ∀ l l', run p = some l → run p' = some l' → l.rank = l'.rank → p = p'

/-- Every partition is loaded by exactly one process, once, and nothing else is loaded. -/
structure LoadedOnce (run : Nat → Option Launched) (procs : Nat) (path : String) (ids : List Nat) : Prop where
  once : ∀ id ∈ ids, ∃ p < procs, ∃ l parts, run p = some l ∧ l.loads path ids = some parts ∧ parts.count (path, id) = 1 ∧
    ∀ p' < procs, ∀ l' parts', run p' = some l' → l'.loads path ids = some parts' → (path, id) ∈ parts' → p' = p
  only : ∀ p < procs, ∀ l parts, run p = some l → l.loads path ids = some parts → ∀ x ∈ parts, x.1 = path ∧ x.2 ∈ ids

/-- A process starts its server on its own address. -/
def OwnAddress (run : Nat → Option Launched) (procs : Nat) (addr : Nat → Name) : Prop :=
  ∀ p < procs, ∀ l x, run p = some l → l.server = some x → x.1 = addr p

/-- The hosts of the workers without repetition, in the order of the sorted workers. -/
def hostsOf (workers : List Name) : List Name :=
  (Files.sort workers).foldl (fun hs w => if host w ∈ hs then hs else hs ++ [host w]) []

/-- Environment of the process `p` in a job with `size` processes on each of `hosts` hosts, under the variable names of a
launcher. -/
structure RanksOf (env : Env) (localRank localSize rank world : String) (hosts size p : Nat) : Prop where
  localRank : env localRank = some (p % size)
  localSize : env localSize = some size
  rank : env rank = some p
  world : env world = some (hosts * size)

/-- The variables of the job, with those of other launchers unset. -/
inductive Job (env : Env) (hosts size p : Nat) : Prop
  | ddp (h : RanksOf env "LOCAL_RANK" "LOCAL_WORLD_SIZE" "RANK" "WORLD_SIZE" hosts size p)
  | mpi (h : RanksOf env "OMPI_COMM_WORLD_LOCAL_RANK" "OMPI_COMM_WORLD_LOCAL_SIZE" "OMPI_COMM_WORLD_RANK" "OMPI_COMM_WORLD_SIZE" hosts size p)
      (hd : env "LOCAL_RANK" = none)
  | horovod (h : RanksOf env "HOROVOD_LOCAL_RANK" "HOROVOD_LOCAL_SIZE" "HOROVOD_RANK" "HOROVOD_SIZE" hosts size p)
      (hd : env "LOCAL_RANK" = none) (hm : env "OMPI_COMM_WORLD_LOCAL_RANK" = none)

/-- The process is the worker `p` of a TensorFlow job: it is told so by arguments or by TF_CONFIG. -/
structure WorkerOf (env : Env) (tf : Option TfConfig) (o : Options) (workers : List Name) (p : Nat) : Prop where
  ddp : env "LOCAL_RANK" = none
  mpi : env "OMPI_COMM_WORLD_LOCAL_RANK" = none
  horovod : env "HOROVOD_LOCAL_RANK" = none
  told : (o.taskIndex = some p ∧ o.workerHosts = workers) ∨
    (o.taskIndex = none ∧ ∃ t, tf = some t ∧ t.worker = true ∧ t.index = p ∧ t.workers = workers)

end DeepGNN.Spec
