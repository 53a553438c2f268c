import Verif.Model.Barrier

namespace DeepGNN.Spec
open DeepGNN.Barrier

/-- The job of `size` workers can get into state `s`. -/
def JobReaches (size : Nat) (s : Barrier.State) : Prop := ∃ events, run size (init size) events = some s

/-- The server of worker `i` runs and the worker announced its address. -/
def Announced (s : Barrier.State) (i : Nat) : Prop := s.cache i = some (address i)

/-- Worker `i` has got past `__enter__`. -/
def Entered (s : Barrier.State) (i : Nat) : Prop :=
  (s.workers i).place ≠ .start ∧ (s.workers i).place ≠ .failed ∧ (s.workers i).place ≠ .entering

/-- Worker `i` is done with the block, and with its client. -/
def DoneWithBlock (s : Barrier.State) (i : Nat) : Prop :=
  (s.workers i).place = .leaving ∨ (s.workers i).place = .left

/-- There are events after which all workers have ended. -/
def CanFinish (size : Nat) (s : Barrier.State) : Prop :=
  ∃ events s', run size s events = some s' ∧ ∀ i, i < size → (s'.workers i).place = .left

/-- The port of an address: the number after the colon. -/
def portOf (address : String) : Nat :=
  ((address.toList.dropWhile (· ≠ ':')).drop 1).foldl (fun v c => v * 10 + (c.toNat - '0'.toNat)) 0

/-- Server `rank` of a job of `size` workers loads partition `p`. -/
def LoadedBy (size rank p : Nat) : Prop :=
  ∃ l, Barrier.partitions size rank = some l ∧ p ∈ l.map (·.2)

end DeepGNN.Spec
