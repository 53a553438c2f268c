/-
Reservoir sampling (src/cc/lib/graph/reservoir.cc).

Random numbers: the generator is modelled by an arbitrary sequence `R` of natural numbers and the
position `s` of the next draw.  A draw `size_t(n * dist(gen))` or `uniform_int(0, n - 1)` is
`R s % n` (the distributions return numbers in [0, 1), so the product is below `n`; every number below
`n` is some `R s % n`), a comparison of a draw with a rate strictly between 0 and 1 is a coin
`R s % 2`, with no relation between the rate and the coin.  Theorems quantify over all `R`.

`update` may fail (`none`): the caller's callback indexes arrays.
-/

namespace DeepGNN

/-- Draws of the random generator. -/
abbrev Draws := Nat → Nat

/-- `AlgorithmL` (reservoir.h:19-43) without `m_W`: it only determines the skip lengths. -/
structure AlgL where
  k : Nat
  next : Nat := 0
  seen : Nat := 0
deriving DecidableEq, Repr

/-- First loop of `AlgorithmL::add` (reservoir.cc:22-26): returns the output, `i` and the state. -/
def AlgL.fill {σ} (up : σ → Nat → Nat → Option σ) (n : Nat) (i : Nat) (a : AlgL) (o : σ) :
    Option (σ × Nat × AlgL) :=
  if a.seen < a.k ∧ i < n then
    (up o a.seen i).bind fun o => fill up n (i + 1) { a with seen := a.seen + 1, next := a.next + 1 } o
  else some (o, i, a)
termination_by n - i

/-- Second loop (reservoir.cc:41-52). `seen` and `left` are `size_t` that may wrap around; integers
here.  The skip `floor(log(u) / log(1 - W)) + 1` is any positive number: `R (s + 2) + 1`.  Not
modelled: for `u = 0` or `W < 2^-25` the quotient is infinite and its conversion to `size_t` is
undefined. -/
def AlgL.loop {σ} (R : Draws) (up : σ → Nat → Nat → Option σ) (k n i : Nat) (next : Nat) (seen left : Int)
    (s : Nat) (o : σ) : Option (σ × Nat × Int × Nat) :=
  if (next : Int) ≤ seen + left then
    let rangeOffset := seen + left - next + i
    let newLeft := n - rangeOffset
    let seen := seen + (left - newLeft)
    let left := newLeft
    (up o (R s % k) rangeOffset.toNat).bind fun o =>
      loop R up k n i (next + R (s + 2) + 1) seen left (s + 3) o
  else some (o, next, seen + left, s)
termination_by (seen + left + 1 - next).toNat
decreasing_by omega

/-- `AlgorithmL::add` (reservoir.cc:20-55). -/
def AlgL.add {σ} (R : Draws) (up : σ → Nat → Nat → Option σ) (n : Nat) (st : σ × AlgL × Nat) :
    Option (σ × AlgL × Nat) :=
  (AlgL.fill up n 0 st.2.1 st.1).bind fun (o, i, a) =>
    let left := n - i
    if left = 0 then some (o, a, st.2.2)
    else
      let (next, s) := if a.seen = a.k then (a.next + R (st.2.2 + 1) + 1, st.2.2 + 2) else (a.next, st.2.2)
      (AlgL.loop R up a.k n i next a.seen left s o).map fun (o, next, seen, s) =>
        (o, { a with next := next, seen := seen.toNat }, s)

/-- `WithReplacement::add` (reservoir.cc:63-74): `seen` is `m_seen` before the call; returns the output,
`m_seen` and the next draw.  `rate == 1.0f` holds for the first non-empty block; for `w = 0` the rate
is 0 or not a number and nothing happens. -/
def withReplacementAdd {σ} (R : Draws) (up : σ → Nat → Nat → Option σ) (k w : Nat) (st : σ × Nat × Nat) :
    Option (σ × Nat × Nat) :=
  let seen := st.2.1 + w
  ((List.range k).foldlM (fun (x : σ × Nat) i =>
      if 0 < w ∧ (w = seen ∨ R x.2 % 2 = 0) then (up x.1 i (R (x.2 + 1) % w)).map fun o => (o, x.2 + 2)
      else some (x.1, x.2 + 1)) (st.1, st.2.2)).map fun x => (x.1, seen, x.2)

/-- Exchange two elements. -/
def swapAt (l : List Nat) (i j : Nat) : Option (List Nat) := do
  let a ← l[i]?
  let b ← l[j]?
  return (l.set i b).set j a

/-- `sample_n` (reservoir.cc:91-103). Its argument `n` is only used in an assertion. -/
def sampleN (R : Draws) (l : List Nat) (s : Nat) : Option (List Nat × Nat) :=
  (List.range (l.length - 1)).foldlM (fun (x : List Nat × Nat) i =>
    (swapAt x.1 i (i + 1 + R x.2 % (l.length - 1 - i))).map fun l => (l, x.2 + 1)) (l, s)

/-- The counting loop of `WithoutReplacementMerge::add` (reservoir.cc:120-131), `fuel` iterations:
`(left_count, right_count, next draw)`.  When one weight is 0 the rate is 0 or 1. -/
def splitCounts (R : Draws) : Nat → Nat → Nat → Nat → Nat × Nat × Nat
  | 0, _, _, s => (0, 0, s)
  | fuel + 1, lw, rw, s =>
    if 0 < lw ∧ (rw = 0 ∨ R s % 2 = 0) then
      let r := splitCounts R fuel (lw - 1) rw (s + 1)
      (r.1 + 1, r.2.1, r.2.2)
    else
      let r := splitCounts R fuel lw (rw - 1) (s + 1)
      (r.1, r.2.1 + 1, r.2.2)

/-- Last loop of `WithoutReplacementMerge::add` (reservoir.cc:153-166): `kept` are the remaining
left indices, `new` the remaining right indices. -/
def replaceSlots {σ} (up : σ → Nat → Nat → Option σ) :
    List Nat → List Nat → List Nat → σ → Option σ
  | [], _, _, o => some o
  | i :: is, kept, new, o =>
    if kept.head? = some i then replaceSlots up is kept.tail new o
    else match new with
      | [] => none
      | j :: js => (up o i j).bind (replaceSlots up is kept js)

/-- `WithoutReplacementMerge::add` (reservoir.cc:106-167). -/
def mergeAdd {σ} (R : Draws) (up : σ → Nat → Nat → Option σ) (k n : Nat) (st : σ × Nat × Nat) :
    Option (σ × Nat × Nat) :=
  let (o, seen, s) := st
  if seen + n ≤ k then
    ((List.range n).foldlM (fun o i => up o (seen + i) i) o).map fun o => (o, seen + n, s)
  else
    let (leftCount, rightCount, s) := splitCounts R k seen n s
    let left := List.range seen
    let right := List.range (min n k)
    (if leftCount > 0 then sampleN R left s else some (left, s)).bind fun (left, s) =>
    (if rightCount > 0 then sampleN R right s else some (right, s)).bind fun (right, s) =>
    (replaceSlots up (List.range k) ((left.take leftCount).mergeSort (· ≤ ·)) right o).map fun o =>
      (o, seen, s)

/-- A callback storing elements of `xs` in the reservoir. `none`: index out of range. -/
def store {α} (xs : List α) (out : List α) (pick off : Nat) : Option (List α) :=
  if pick < out.length then xs[off]?.map (out.set pick) else none

end DeepGNN
