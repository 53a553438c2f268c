import Verif.Model.Float

/-
Prefetching (src/python/deepgnn/graph_engine/prefetch.py) as a transition system: producers submit samples to their
thread pools, the threads put query results into a bounded queue, the consumer gets them from it.
Every step is atomic; `Step` allows all interleavings.  Not modelled: queries that raise, `join`.
-/

namespace DeepGNN.Prefetch

/-- Sizes: capacity of the queue, bound of the semaphore and number of threads of a pool (prefetch.py:26-38, 158). -/
structure Sizes where
  capacity : Nat
  bound : Nat
  threads : Nat

/-- Items of the queue: a query result or `FetchDone(count)`. -/
inductive Item (β : Type)
  | result (x : β)
  | done (count : Nat)
deriving DecidableEq

/-- `_produce_func` (prefetch.py:79-120): samples still to come, samples in the pool (waiting, in a query or blocked in
`outputs.put`) in the order of submission, number of submitted samples, whether `FetchDone` was put. -/
structure Producer (α : Type) where
  todo : List α
  pool : List α
  count : Nat
  sent : Bool
deriving DecidableEq

/-- Where the consumer is: at the start of `__next__`, before the second `get` of it, or after `StopIteration`. -/
inductive Phase
  | idle | second | stopped
deriving DecidableEq

/-- State; `out` is what the consumer has got from `__next__`. -/
structure State (α β : Type) where
  producers : List (Producer α)
  queue : List (Item β)
  count : Nat
  index : Nat
  phase : Phase
  out : List (Item β)
deriving DecidableEq

/-- Steps of a producer and its threads. -/
inductive PStep {α β : Type} (z : Sizes) (query : α → β) :
    Producer α → List (Item β) → Producer α → List (Item β) → Prop
  /-- `count += 1; pool.submit(process, sample)` (prefetch.py:111-115): waits for the semaphore (prefetch.py:51). -/
  | submit {x todo pool count sent queue} : pool.length < z.bound →
      PStep z query ⟨x :: todo, pool, count, sent⟩ queue ⟨todo, pool ++ [x], count + 1, sent⟩ queue
  /-- `outputs.put(graph_tensor)` (prefetch.py:93-95) of one of the oldest `threads` samples in the pool; waits for
  space in the queue. -/
  | finish {a x b todo count sent queue} : a.length < z.threads → queue.length < z.capacity →
      PStep z query ⟨todo, a ++ x :: b, count, sent⟩ queue ⟨todo, a ++ b, count, sent⟩ (queue ++ [.result (query x)])
  /-- `outputs.put(FetchDone(count))` (prefetch.py:116). -/
  | marker {pool count queue} : queue.length < z.capacity →
      PStep z query ⟨[], pool, count, false⟩ queue ⟨[], pool, count, true⟩ (queue ++ [.done count])

/-- Steps of the consumer, which calls `__next__` (prefetch.py:191-212) until `StopIteration`. -/
inductive CStep {α β : Type} : State α β → State α β → Prop
  /-- prefetch.py:193-194. -/
  | known {ps q count out} : 0 < count → CStep ⟨ps, q, count, count + 1, .idle, out⟩ ⟨ps, q, count, count + 1, .stopped, out⟩
  /-- The first `get` returns a result (prefetch.py:196-198, 212). -/
  | item {ps x q count index out} : ¬ (0 < count ∧ index = count + 1) →
      CStep ⟨ps, .result x :: q, count, index, .idle, out⟩ ⟨ps, q, count, index + 1, .idle, out ++ [.result x]⟩
  /-- The first `get` returns the marker and all results have been seen (prefetch.py:199-205). -/
  | last {ps n q count index out} : ¬ (0 < count ∧ index = count + 1) → index + 1 = n + 1 →
      CStep ⟨ps, .done n :: q, count, index, .idle, out⟩ ⟨ps, q, n, index + 1, .stopped, out⟩
  /-- The first `get` returns the marker, more results are to come (prefetch.py:199-205). -/
  | marker {ps n q count index out} : ¬ (0 < count ∧ index = count + 1) → index + 1 ≠ n + 1 →
      CStep ⟨ps, .done n :: q, count, index, .idle, out⟩ ⟨ps, q, n, index + 1, .second, out⟩
  /-- The second `get` (prefetch.py:207-212): the item is returned whatever it is. -/
  | again {ps i q count index out} :
      CStep ⟨ps, i :: q, count, index, .second, out⟩ ⟨ps, q, count, index + 1, .idle, out ++ [i]⟩

/-- Any of the threads makes a step. -/
inductive Step {α β : Type} (z : Sizes) (query : α → β) : State α β → State α β → Prop
  | producer {l r p p' q q' count index phase out} : PStep z query p q p' q' →
      Step z query ⟨l ++ p :: r, q, count, index, phase, out⟩ ⟨l ++ p' :: r, q', count, index, phase, out⟩
  | consumer {s s'} : CStep s s' → Step z query s s'

/-- `Generator.__init__` (prefetch.py:144-180): `workers` producers, each with the samples of the sampler. -/
def start {α β : Type} (samples : List α) (workers : Nat) : State α β :=
  ⟨List.replicate workers ⟨samples, [], 0, false⟩, [], 0, 0, .idle, []⟩

/-- Finitely many steps. -/
inductive Reach {σ : Type} (step : σ → σ → Prop) : σ → σ → Prop
  | refl {s} : Reach step s s
  | tail {a b c} : Reach step a b → step b c → Reach step a c

end DeepGNN.Prefetch
