import Verif.Model.Writer
import Verif.Model.Alias
import Verif.Model.Reservoir
import Verif.Model.Temporal

/-
Node and edge samplers: alias files (src/python/deepgnn/graph_engine/snark/converter/writers.py:487-677)
and src/cc/lib/graph/sampler.{h,cc}.

The three kinds of samplers (weighted, uniform, uniform without replacement) for nodes (`α = Int`) and
edges (`α = Int × Int`) share one definition with the element type `α`; the C++ code has two copies
of the same statements that differ in writing one or two output arrays.
Random draws: see `Verif.Model.Reservoir`.  A real draw in [0, 1) that is compared with a threshold
is a multiple of `1 / (q * one)`, for an arbitrary resolution `q`, when the threshold is a multiple
of `1 / one`.
-/

namespace DeepGNN

/-- Python list index: negative indices count from the end, `none` is an `IndexError`. -/
def pyIndex (n : Nat) (i : Int) : Option Nat :=
  if 0 ≤ i ∧ i < n then some i.toNat else if i < 0 ∧ -(n : Int) ≤ i then some (i + n).toNat else none

/-- The temporary files of an alias writer (writers.py:511-548, 599-637): for every type the elements
with their weights, as a list. -/
abbrev AliasInput (α : Type) := List (List (α × Int))

/-- `add_type` as often as needed and `add` (writers.py:99-103, 116 and 138-142, 161; 532-542,
620-632). -/
def AliasInput.add {α} (a : AliasInput α) (typ : Int) (x : α) (w : Int) : Option (AliasInput α) :=
  let a := a ++ List.replicate ((typ + 1).toNat - a.length) []
  (pyIndex a.length typ).map fun i => a.modify i (· ++ [(x, w)])

/-- `ctypes.c_uint64` written, `np.int64` read (writers.py:540, 554). -/
def asI64 (v : Int) : Int := toSigned 8 (v % 2 ^ 64).toNat

/-- Node alias input of one writer: every node record is added (writers.py:116). -/
def nodeAliasInput (recs : List Rec) : Option (AliasInput Int) :=
  (recs.filter fun r => r.dst = -1).foldlM (fun a r => a.add r.typ (asI64 r.src) r.weight) []

/-- Edge alias input: every other record is added (writers.py:161). -/
def edgeAliasInput (recs : List Rec) : Option (AliasInput (Int × Int)) :=
  (recs.filter fun r => r.dst ≠ -1).foldlM (fun a r => a.add r.typ (asI64 r.src, asI64 r.dst) r.weight) []

/-- A record of an alias file; the threshold is a multiple of `1 / one`, the sum of the weights. -/
structure AliasRec (α : Type) where
  left : α
  right : α
  threshold : Int
deriving DecidableEq, Repr

/-- The alias file of one type (writers.py:544-566, 639-667): `zero` is the dummy alias of a slot with
probability 1.  The weights went through a file of `float`s. Files are lists of records here. -/
def aliasFile {α} (C : WeightCodec) (zero : α) (l : List (α × Int)) : Option (List (AliasRec α)) :=
  let wts := l.map fun x => C.dec (C.enc x.2)
  (vose wts).bind fun t => (List.range l.length).mapM fun i =>
    (l[i]?).bind fun left => (t.prob[i]?.join).bind fun p =>
      (if p < wts.sum then (t.alias[i]?.join).bind fun k => (l[k]?).map (·.1) else some zero).map fun right =>
        { left := left.1, right := right, threshold := p }

/-- Choice between the two elements of a record (sampler.cc:276, 406-415): `a` is the second draw. -/
def AliasRec.pick {α} (r : AliasRec α) (q a : Nat) : α := if (a : Int) < q * r.threshold then r.left else r.right

/-- `Weighted*SamplerPartition::Sample` (sampler.cc:260-278, 391-417): `out` is the output span, `s` the
next draw. -/
def weightedSample {α} (recs : List (AliasRec α)) (q one : Nat) (R : Draws) (s : Nat) (out : List α) :
    Option (List α × Nat) :=
  if recs = [] then some (out, s)
  else ((List.range out.length).mapM fun i =>
    (recs[R (s + 2 * i) % recs.length]?).map fun r => r.pick q (R (s + 2 * i + 1) % (q * one))).map
      fun o => (o, s + 2 * out.length)

/-- The elements of a list, each once. -/
def distinct {α} [DecidableEq α] : List α → List α
  | [] => []
  | x :: xs => if x ∈ distinct xs then distinct xs else x :: distinct xs

/-- The elements of a uniform sampler (sampler.cc:322-350, 519-560): left elements and, if the
threshold is below 1, right elements, each once.  The order of a hash set is unspecified; this is
some order. -/
def uniformElements {α} [DecidableEq α] (one : Int) (recs : List (AliasRec α)) : List α :=
  distinct (recs.flatMap fun r => r.left :: if r.threshold < one then [r.right] else [])

/-- `SampleWithReplacement` with rate 1 (sampler.cc:607-631). -/
def uniformSampleWith {α} (xs : List α) (R : Draws) (s : Nat) (out : List α) : Option (List α × Nat) :=
  if xs = [] then some (out, s)
  else ((List.range out.length).mapM fun i => xs[R (s + i) % xs.length]?).map fun o => (o, s + out.length)

/-- `SampleWithoutReplacement` (sampler.cc:587-605). -/
def uniformSampleWithout {α} (xs : List α) (R : Draws) (s : Nat) (out : List α) : Option (List α × Nat) :=
  if xs = [] then some (out, s)
  else (AlgL.add R (store xs) xs.length (out, { k := out.length }, s)).map fun x => (x.1, x.2.2)

/-- A partition of a sampler: its weight and its `Sample`. -/
structure SamplerPart (α : Type) where
  weight : Nat
  sample : Draws → Nat → List α → Option (List α × Nat)

/-- Sum of the weights. -/
def weightSum {α} (ps : List (SamplerPart α)) : Nat := (ps.map (·.weight)).sum

/-- `binomial_distribution(n, w / total)`: any number up to `n`, except that it is certain for the
probabilities 0 and 1.  `total = 0`: the probability is not a number, any result here. -/
def binomial (R : Draws) (n w total s : Nat) : Nat :=
  if total = 0 then R s % (n + 1) else if w = 0 then 0 else if w = total then n else R s % (n + 1)

/-- How many elements to take from a type or partition of weight `w` (sampler.cc:94-106, 112-126): `rest`
is the total of the following ones (`m_type_min`, `m_partition_min`, sampler.cc:51-69), `w` also the
maximum that can be taken without replacement (`m_type_max`, `m_partition_max`), the probability
`w / (w + rest)` comes from `conditional_probabilities` (633-651). -/
def takeCount (repl : Bool) (R : Draws) (left w rest s : Nat) : Nat :=
  let c := binomial R left w (w + rest) s
  if repl then c
  else
    let c := min c w
    if left - c > rest then w else c

/-- Loop over the partitions of a type (sampler.cc:111-148): `left` is `left_items`, `rest` the part of
the output not yet written.  Returns what was written, the rest of the output and the next draw.
`none`: more elements are written than there is room for, `left_items` wraps around. -/
def samplePartitions {α} (repl : Bool) (R : Draws) : List (SamplerPart α) → Nat → Nat → List α →
    Option (List α × List α × Nat)
  | [], _, s, rest => some ([], rest, s)
  | p :: ps, left, s, rest =>
    if left = 0 then some ([], rest, s)
    else
      let c := takeCount repl R left p.weight (weightSum ps) s
      if c = 0 then samplePartitions repl R ps left (s + 1) rest
      else if c ≤ left ∧ c ≤ rest.length then
        (p.sample R (s + 1) (rest.take c)).bind fun (o, s) =>
          (samplePartitions repl R ps (left - c) s (rest.drop c)).map fun (os, r, s) => (o ++ os, r, s)
      else none

/-- Loop over the types (sampler.cc:92-149). Returns what was written to `out_types` and to `out`, the
rest of `out` and the next draw. -/
def sampleTypes {α} (repl : Bool) (R : Draws) : List (Int × List (SamplerPart α)) → Nat → Nat → List α →
    Option (List Int × List α × List α × Nat)
  | [], _, s, rest => some ([], [], rest, s)
  | (t, ps) :: ts, left, s, rest =>
    if left = 0 then some ([], [], rest, s)
    else
      let c := takeCount repl R left (weightSum ps) (ts.map fun x => weightSum x.2).sum s
      if c ≤ left then
        (samplePartitions repl R ps c (s + 1) rest).bind fun (o, rest, s) =>
          (sampleTypes repl R ts (left - c) s rest).map fun (tys, os, rest, s) =>
            (List.replicate c t ++ tys, o ++ os, rest, s)
      else none

/-- `SamplerImpl::Sample` (sampler.cc:76-150): `outTypes` and `out` are the initial contents of the
output arrays, of the same length. -/
def samplerSample {α} (repl : Bool) (R : Draws) (sampler : List (Int × List (SamplerPart α))) (s : Nat)
    (outTypes : List Int) (out : List α) : Option (List Int × List α) :=
  (sampleTypes repl R sampler outTypes.length s out).map fun (tys, os, rest, _) =>
    (tys ++ outTypes.drop tys.length, os ++ rest)

/-- `AbstractSamplerFactory::Create` and `Read` (sampler.cc:166-214): `parts t` are the partitions of type
`t`.  `none`: a file cannot be read. -/
def createSampler {α} (typeCount : Nat) (parts : Int → Option (List (SamplerPart α))) (types : List Int) :
    Option (List (Int × List (SamplerPart α))) :=
  ((sortUnique types).filter fun t => decide (0 ≤ t ∧ t < (typeCount : Int))).mapM fun t =>
    (parts t).map fun ps => (t, ps)

/-- Weight (meta.json) and alias file of type `t` of a partition, for nodes.  A type that the partition does
not have has an empty file (snark/dispatcher.py:177-207) and the weight 0. -/
def nodeAliasOf (C : WeightCodec) (recs : List Rec) (t : Int) : Option (Nat × List (AliasRec Int)) :=
  (nodeAliasInput recs).bind fun a => (aliasFile C 0 (a.getD t.toNat [])).map fun f =>
    (((a.getD t.toNat []).map Prod.snd).sum.toNat, f)

/-- The same for edges. -/
def edgeAliasOf (C : WeightCodec) (recs : List Rec) (t : Int) : Option (Nat × List (AliasRec (Int × Int))) :=
  (edgeAliasInput recs).bind fun a => (aliasFile C (0, 0) (a.getD t.toNat [])).map fun f =>
    (((a.getD t.toNat []).map Prod.snd).sum.toNat, f)

/-- `Weighted*SamplerPartition` (sampler.cc:216-258, 352-389). -/
def weightedPart {α} (q : Nat) (x : Nat × List (AliasRec α)) : SamplerPart α :=
  { weight := x.1, sample := weightedSample x.2 q x.1 }

/-- `Uniform*SamplerPartition` (sampler.cc:290-350, 480-560). -/
def uniformPart {α} [DecidableEq α] (repl : Bool) (x : Nat × List (AliasRec α)) : SamplerPart α :=
  let xs := uniformElements x.1 x.2
  { weight := xs.length, sample := if repl then uniformSampleWith xs else uniformSampleWithout xs }

end DeepGNN
