/-
Samplers kept by a client (src/python/deepgnn/graph_engine/snark/local.py).  Types are an int or a one dimensional integer
array.  `str` of an array is numpy's: it is any function that meets `NumpyStr` (blanks and line breaks between the numbers are
left open).  A sampler is reduced to the types and the kind it was created with; whether the constructor succeeds depends on
the graph and is an arbitrary function `ok`.
-/

namespace DeepGNN.SamplerCache

/-- `node_types: Union[int, np.ndarray]`. -/
inductive Types where
  | int (n : Int)
  | array (l : List Int)
deriving DecidableEq

/-- `__check_types` (local.py:55-60). -/
def checkTypes : Types → List Int
  | .int n => [n]
  | .array l => l

/-- `SamplingStrategy` (src/python/deepgnn/graph_engine/_base.py). -/
inductive Strategy where
  | weighted | random | randomWithoutReplacement | topK | pprGo | lastN
deriving DecidableEq

/-- `_sampling_map` (local.py:14-21). -/
def Strategy.name : Strategy → List Char
  | .weighted => "weighted".toList
  | .random => "uniform".toList
  | .randomWithoutReplacement => "withoutreplacement".toList
  | .topK => "topk".toList
  | .pprGo => "ppr-go".toList
  | .lastN => "lastn".toList

/-- `str(n)` of an integer. -/
def decimal (n : Int) : List Char :=
  if n < 0 then '-' :: Nat.toDigits 10 n.natAbs else Nat.toDigits 10 n.natAbs

/-- The words numpy prints for an array: above 1000 elements (`threshold` of numpy.set_printoptions) only the first and last
three. -/
def words (l : List Int) : List (List Char) :=
  if l.length ≤ 1000 then l.map decimal
  else (l.take 3).map decimal ++ ["...".toList] ++ (l.drop (l.length - 3)).map decimal

def isBlank (c : Char) : Bool := c = ' ' || c = '\n'

/-- `[`, the words, each after some blanks (at least one except before the first), `]`. -/
def Layout (ws : List (List Char)) (s : List Char) : Prop :=
  ∃ blanks : List (List Char), blanks.length = ws.length ∧ (∀ b, b ∈ blanks → ∀ c, c ∈ b → isBlank c = true) ∧
    (∀ b, b ∈ blanks.drop 1 → b ≠ []) ∧ s = '[' :: ((blanks.zip ws).flatMap fun p => p.1 ++ p.2) ++ [']']

/-- Contract of python's `str` on ints and numpy arrays. -/
structure NumpyStr (str : Types → List Char) : Prop where
  int : ∀ n, str (.int n) = decimal n
  array : ∀ l, Layout (words l) (str (.array l))

/-- Sampler object: what its constructor was given. -/
structure Sampler where
  types : List Int
  kind : List Char
deriving DecidableEq

structure Request where
  types : Types
  strategy : Strategy
deriving DecidableEq

abbrev Cache := List (List Char × Sampler)

/-- Look up the key, else create and keep (local.py:69-72 and 88-91).  `none` is an exception of the constructor. -/
def use (ok : List Int → List Char → Bool) (key : List Char) (r : Request) (cache : Cache) : Option Sampler × Cache :=
  match cache.lookup key with
  | some s => (some s, cache)
  | none =>
    if ok (checkTypes r.types) r.strategy.name then
      let s : Sampler := ⟨checkTypes r.types, r.strategy.name⟩
      (some s, cache ++ [(key, s)])
    else (none, cache)

/-- `sample_nodes` up to the choice of the sampler (local.py:68-72). -/
def nodeStep (str : Types → List Char) (ok : List Int → List Char → Bool) (r : Request) (cache : Cache) : Option Sampler × Cache :=
  use ok (r.strategy.name ++ str r.types) r cache

/-- `sample_edges` up to the choice of the sampler (local.py:87-91). -/
def edgeStep (str : Types → List Char) (ok : List Int → List Char → Bool) (r : Request) (cache : Cache) : Option Sampler × Cache :=
  use ok (str r.types) r cache

/-- A history of calls: the sampler each call uses. -/
def history (step : Request → Cache → Option Sampler × Cache) : List Request → Cache → List (Option Sampler)
  | [], _ => []
  | r :: rs, cache => (step r cache).1 :: history step rs (step r cache).2

end DeepGNN.SamplerCache
