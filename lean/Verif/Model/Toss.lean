import Verif.Model.Float

/-
A random element of a population: `toss(gen) * size` in single precision
(src/cc/lib/graph/sampler.cc:273-279, 407-411, 615-627, reservoir.cc:47 and 71).  The generator returns 64-bit numbers
(xoroshiro.h:76-99).  A `float` between 0 and 1 is kept as a multiple of 1 / 2^64, products of floats are rounded as in
`Model/Float.lean`.
-/

namespace DeepGNN.Toss

/-- `boost::random::uniform_real_distribution<float>(0, 1)` for one number `x` of the generator (boost/random/uniform_real_distribution.hpp,
`generate_uniform_real`): `float(x) / 2^64`; the number is dropped and the next one used if this is 1. -/
def toss (x : Nat) : Option Nat := if round24 x < 2 ^ 64 then some (round24 x) else none

/-- The index for a result of `toss`: the size is converted to `float`, the product is rounded to `float` and cut to an integer
(sampler.cc:278, 410, 623; reservoir.cc:47, 71). -/
def index (size t : Nat) : Nat := round24 (t * round24 size) / 2 ^ 64

/-- Index for one number of the generator. -/
def pick (size x : Nat) : Option Nat := (toss x).map (index size)

/-- `SampleWithReplacement` with rate 1 (sampler.cc:607-631) for the numbers the generator returns, until the last number used; `none` is
an access out of range. -/
def sample {α} (population : List α) (numbers : List Nat) : Option (List α) :=
  (numbers.filterMap (pick population.length)).mapM fun i => population[i]?

end DeepGNN.Toss
