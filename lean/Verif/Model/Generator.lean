/-
The generator behind all samplers (src/cc/lib/graph/xoroshiro.h).  `uint64_t` is `BitVec 64`.
-/

namespace DeepGNN.Generator

/-- `SplitMix64Generator::Transform` (xoroshiro.h:43-49): the result and the new state. -/
def splitMix (state : BitVec 64) : BitVec 64 × BitVec 64 :=
  let state := state + 0x9e3779b97f4a7c15#64
  let z := (state ^^^ (state >>> 30)) * 0xbf58476d1ce4e5b9#64
  let z := (z ^^^ (z >>> 27)) * 0x94d049bb133111eb#64
  (z ^^^ (z >>> 31), state)

/-- `Xoroshiro128PlusGeneratorState` (xoroshiro.h:52-55). -/
structure State where
  s0 : BitVec 64
  s1 : BitVec 64
deriving DecidableEq, Repr

/-- `Convert` (xoroshiro.h:106-111), which is all the constructor does (xoroshiro.h:65-68, 76-79). -/
def ofSeed (seed : BitVec 64) : State :=
  let a := splitMix seed
  let b := splitMix a.2
  ⟨a.1, b.1⟩

/-- `_rotl64` (xoroshiro.h:113-116). -/
def rotl (x : BitVec 64) (k : Nat) : BitVec 64 := (x <<< k) ||| (x >>> (64 - k))

/-- `Transform` (xoroshiro.h:71-74, 118-129), `operator()`: the result and the new state. -/
def next (s : State) : BitVec 64 × State :=
  let s1 := s.s1 ^^^ s.s0
  (s.s0 + s.s1, ⟨rotl s.s0 24 ^^^ s1 ^^^ (s1 <<< 16), rotl s1 37⟩)

/-- The state after `n` calls. -/
def run : Nat → State → State
  | 0, s => s
  | n + 1, s => run n (next s).2

/-- The result of call number `n` (from 0) of a generator made with a seed. -/
def draw (seed : BitVec 64) (n : Nat) : BitVec 64 := (next (run n (ofSeed seed))).1

/-- `c_int64(seed)` (client.py:997, 1077, 1297, 1546, 1661) passed as `int64_t` and used as `uint64_t`. -/
def pySeed (seed : Int) : BitVec 64 := BitVec.ofInt 64 seed

end DeepGNN.Generator
