import Verif.Model.Sage

/-
What a GraphSAGE layer computes, node by node (the algorithm of the paper), and the trees of sampled neighbours.
-/

namespace DeepGNN.Spec

open DeepGNN.Sage Arith

/-- A node with its sampled neighbours, in order. -/
inductive Tree where
  | node : Int → List Tree → Tree

/-- The node at the top. -/
def Tree.id : Tree → Int
  | .node i _ => i

/-- The trees of the sampled neighbours. -/
def Tree.children : Tree → List Tree
  | .node _ cs => cs

/-- A list cut into consecutive pieces of the given sizes. -/
def pieces {β : Type} : List Nat → List β → List (List β)
  | [], _ => []
  | n :: ns, l => l.take n :: pieces ns (l.drop n)

/-- The answers of the sampler when it is asked for `c` neighbours of every node, then for those of the neighbours, and so on. -/
def answers (sample : Nat → List Int → Nat → List (List Int)) : Nat → List Nat → List Int → List (List (List Int))
  | _, [], _ => []
  | k, c :: cs, ids => sample k ids c :: answers sample (k + 1) cs (sample k ids c).flatten

/-- The trees of a list of nodes: the row of a node in the first answer are its children, and each child has the tree grown at its
own place. -/
def grow : List (List (List Int)) → List Int → List Tree
  | [], ids => ids.map fun i => .node i []
  | rows :: rest, ids => List.zipWith Tree.node ids (pieces (rows.map List.length) (grow rest rows.flatten))

variable {α : Type} [Arith α]

/-- A linear map, given by the weights of every output. -/
def linear (w : Mat α) (x : Vec α) : Vec α := w.map fun col => total (List.zipWith mul x col)

/-- The mean of every column. -/
def columnMeans (w : Nat) (rows : Mat α) : Vec α :=
  (List.range w).map fun j => divNat (total (rows.map (·.getD j zero))) rows.length

/-- The greatest number of every column. -/
def columnMaxima (w : Nat) (rows : Mat α) : Vec α :=
  (List.range w).map fun j => match rows.map (·.getD j zero) with
    | [] => zero
    | x :: xs => xs.foldl max x

/-- The output of a recurrent cell after the first `n` inputs. -/
def after (cell : List α → Vec α → List α × Vec α) (start : List α) (n : Nat) (xs : List (Vec α)) : Vec α :=
  ((xs.take n).foldl (fun s x => cell s.1 x) (start, [])).2

/-- What a layer makes of the vectors of the neighbours of one node: their mean, the greatest values of a hidden layer, or the output
of a recurrent cell after as many neighbours as have a number other than 0, and after the first if there are none. -/
def pool (kind : Kind) (w : Nat) (ws : Weights α) (neigh : List (Vec α)) : Vec α :=
  match kind with
  | .mean => columnMeans w neigh
  | .maxpool => columnMaxima ws.mlp.length (neigh.map fun x => (List.zipWith add (linear ws.mlp x) ws.mlpBias).map fun y => max y zero)
  | .lstm => after ws.cell ws.start (Nat.max (neigh.filter fun v => v.any fun x => !isZero x).length 1) neigh

/-- One layer for one node: from its own vector and those of its neighbours. -/
def sageRow (kind : Kind) (concat act : Bool) (w : Nat) (ws : Weights α) (self : Vec α) (neigh : List (Vec α)) : Vec α :=
  let s := linear ws.self self
  let g := linear ws.neigh (pool kind w ws neigh)
  let out := if concat then s ++ g else List.zipWith add s g
  if act then out.map (fun y => max y zero) else out

/-- The width of the vectors before a layer. -/
def widthAt (dims : List Nat) (concat : Bool) : Nat → Nat
  | 0 => dims.getD 0 0
  | l + 1 => (if concat then 2 else 1) * dims.getD (l + 1) 0

/-- The vector of a node after `l` layers. -/
def embed (kind : Kind) (concat : Bool) (ws : List (Weights α)) (dims : List Nat) (feat : Int → Vec α) : Nat → Tree → Vec α
  | 0, t => feat t.id
  | l + 1, t => sageRow kind concat (decide (l + 1 ≠ ws.length)) (widthAt dims concat l) (ws.getD l ⟨[], [], [], [], fun s _ => (s, []), []⟩)
      (embed kind concat ws dims feat l t) (t.children.map (embed kind concat ws dims feat l))

/-- The weights of a layer fit: `w` numbers in, `d` numbers out. -/
def WeightsFit (kind : Kind) (w d : Nat) (ws : Weights α) : Prop :=
  ws.self.length = d ∧ ws.neigh.length = d ∧ (∀ col ∈ ws.self, col.length = w) ∧
  match kind with
  | .mean => ∀ col ∈ ws.neigh, col.length = w
  | .maxpool => (∀ col ∈ ws.mlp, col.length = w) ∧ ws.mlpBias.length = ws.mlp.length ∧ ∀ col ∈ ws.neigh, col.length = ws.mlp.length
  | .lstm => ∃ h, (∀ s x, (ws.cell s x).2.length = h) ∧ ∀ col ∈ ws.neigh, col.length = h

/-- A model of `counts.length` layers: a width before and after every layer, weights that fit, and at least one neighbour asked for. -/
def ModelFits (kind : Kind) (concat : Bool) (ws : List (Weights α)) (counts dims : List Nat) : Prop :=
  ws.length = counts.length ∧ dims.length = counts.length + 1 ∧ (∀ c ∈ counts, 0 < c) ∧ (∀ d ∈ dims, 0 < d) ∧
  ∀ l < counts.length, ∀ w, ws[l]? = some w → WeightsFit kind (widthAt dims concat l) (dims.getD (l + 1) 0) w

/-- A sampler that answers with one row of the size asked for per node. -/
def SamplerOk (sample : Nat → List Int → Nat → List (List Int)) : Prop :=
  ∀ k ids c, (sample k ids c).length = ids.length ∧ ∀ row ∈ sample k ids c, row.length = c

/-- Sums and maxima do not depend on the order. -/
def Commutes (α : Type) [Arith α] : Prop :=
  (∀ a b : α, add a b = add b a) ∧ (∀ a b c : α, add (add a b) c = add a (add b c)) ∧
  (∀ a b : α, max a b = max b a) ∧ ∀ a b c : α, max (max a b) c = max a (max b c)

/-- Two trees that differ, down to depth `d`, only in the order of neighbours. -/
def Reordered : Nat → Tree → Tree → Prop
  | 0, t, u => t.id = u.id
  | d + 1, t, u => t.id = u.id ∧ ∃ cs : List Tree, cs.Perm u.children ∧ cs.length = t.children.length ∧
      ∀ p ∈ t.children.zip cs, Reordered d p.1 p.2

/-- The row of a table for a node: unknown nodes have the last one. -/
def tableRow (table : Mat α) (i : Int) : Vec α := if 0 ≤ i then table.getD i.toNat [] else table.getD (table.length - 1) []

end DeepGNN.Spec
