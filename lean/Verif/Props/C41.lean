import Verif.Props.C03
import Verif.Proofs.Multihop

/-
C41: multi-hop queries.
-/

namespace DeepGNN

open Multihop

variable {C : WeightCodec} {wm : Option Nat} {m : Meta} {parts : List (List (List Rec))} {g : Graph}

/-- Shapes and provenance of `sample_fanout(strategy="random")`, for all draws: every hop has the right number of entries, and every
entry is a neighbour, over the edge types of the hop, of the entry of the previous hop it belongs to, or the default. -/
theorem C41_random (h : Built C wm m parts g) (R : Nat → Draws) (default : Int) (nodes : List Int) (metapath : List (List Int))
    (fanouts : List Nat) : ∃ out, sampleFanout Prod.fst (sampleRandom g R default) nodes metapath fanouts = some out ∧
      Spec.Fanout Prod.fst (fun types n x => x ∈ (Spec.neighbors parts n types).map Spec.reported ∨ x = (default, -1))
        nodes (metapath.zip fanouts) out :=
  fanoutLoop_spec _ (fun hop _ => answers_random h R default hop.1 hop.2) 0 nodes

/-- The default is returned only for entries without neighbours.  Missing: gaps in the types, see `C15_gap_refuted`. -/
theorem C41_random_default_partial (h : Built C wm m parts g) (R : Nat → Draws) (default : Int) (nodes : List Int)
    (metapath : List (List Int)) (fanouts : List Nat) (hgap : ∀ types ∈ metapath, ∀ n, Spec.NoGap parts n types) :
    ∃ out, sampleFanout Prod.fst (sampleRandom g R default) nodes metapath fanouts = some out ∧
      Spec.Fanout Prod.fst (fun types n x => (Spec.neighbors parts n types ≠ [] →
          x ∈ (Spec.neighbors parts n types).map Spec.reported) ∧ (Spec.neighbors parts n types = [] → x = (default, -1)))
        nodes (metapath.zip fanouts) out :=
  fanoutLoop_spec _ (fun hop hh => answers_random_full h R default hop.1 hop.2 (hgap hop.1 (List.of_mem_zip hh).1)) 0 nodes

/-- The same for `strategy="byweight"`.  Missing: gaps in the types, weights whose sums are not exact. -/
theorem C41_byweight_partial (h : Built C wm m parts g) (D : Nat → Nat → WDraws) (hD : ∀ i j, (D i j).Ok) (default : Int)
    (nodes : List Int) (metapath : List (List Int)) (fanouts : List Nat)
    (hgap : ∀ types ∈ metapath, ∀ n, Spec.NoGap parts n types) (hw : ∀ types ∈ metapath, ∀ n, C19_weightsOk parts n types) :
    ∃ out, sampleFanout Nbr.dst (sampleByWeight g D default) nodes metapath fanouts = some out ∧
      Spec.Fanout Nbr.dst (fun types n x =>
          (0 < ((Spec.neighbors parts n types).map (·.weight)).sum → x ∈ Spec.neighbors parts n types) ∧
          (((Spec.neighbors parts n types).map (·.weight)).sum = 0 → x = ⟨default, -1, 0⟩))
        nodes (metapath.zip fanouts) out :=
  fanoutLoop_spec _ (fun hop hh => answers_weight h D hD default hop.1 hop.2 (hgap hop.1 (List.of_mem_zip hh).1)
    (hw hop.1 (List.of_mem_zip hh).1)) 0 nodes

/-- Whenever `get_neighbor` returns, the layers and adjacency lists are right (`Spec.HopOk`).  Missing: gaps in the types and weights
whose sums are not exact, see C03 and C02. -/
theorem C41_adjacency_partial (h : Built C wm m parts g) (hw : Spec.ExactWeights parts) (nodes : List Int)
    (edgeTypes : List (List Int)) (max : Nat) (hgap : ∀ t ∈ edgeTypes, ∀ n, Spec.NoGap parts n t) {out : List (Layer × Adj)}
    (e : getNeighbor g nodes edgeTypes max = some out) : Spec.HopsOk parts max edgeTypes ⟨nodes, nodes.length⟩ out :=
  hops_spec h hw max edgeTypes hgap _ out e

/-- It returns if no node has more than `max` neighbours. -/
theorem C41_returns_partial (h : Built C wm m parts g) (hw : Spec.ExactWeights parts) (nodes : List Int)
    (edgeTypes : List (List Int)) (max : Nat) (hgap : ∀ t ∈ edgeTypes, ∀ n, Spec.NoGap parts n t)
    (hm : ∀ t ∈ edgeTypes, ∀ n, (Spec.neighbors parts n t).length ≤ max) :
    ∃ out, getNeighbor g nodes edgeTypes max = some out :=
  hops_some h hw max edgeTypes hgap hm _

/-- Edges 1 → 2, 1 → 3, 2 → 3, 3 → 1 of type 0 and 3 → 2 of type 1, in two partitions. -/
def C41_example : List (List (List Rec)) :=
  [[[⟨1, -1, 0, 1, none, none, []⟩, ⟨1, 2, 0, 5, none, none, []⟩,
     ⟨1, 3, 0, 6, none, none, []⟩],
    [⟨2, -1, 0, 1, none, none, []⟩, ⟨2, 3, 0, 7, none, none, []⟩]],
   [[⟨3, -1, 0, 1, none, none, []⟩, ⟨3, 1, 0, 8, none, none, []⟩,
     ⟨3, 2, 1, 9, none, none, []⟩]]]

theorem C41_example_gap (types : List Int) (n : Int) (ht : ∀ t ∈ types, 0 ≤ t) : Spec.NoGap C41_example n types := by
  intro x hx y hy _ _ _ ⟨t, ht1, h1, h2⟩
  have := ht t ht1
  have hall : ∀ r ∈ Spec.edgeRecords C41_example, 0 ≤ r.typ ∧ r.typ ≤ 1 := by decide +kernel
  have := hall x hx; have := hall y hy
  omega

/-- Weights are exact if they are not negative and their total is small. -/
theorem exact_of_total {parts : List (List (List Rec))} (h0 : ∀ r ∈ Spec.edgeRecords parts, 0 ≤ r.weight)
    (h2 : ((Spec.edgeRecords parts).map (fun r : Rec => r.weight)).sum ≤ 2 ^ 24) : Spec.ExactWeights parts := by
  apply C02_exact_of_small
  · exact h0
  · intro n t
    have hsub := (List.filter_sublist (p := fun r : Rec => decide (r.src = n ∧ r.typ = t)) (l := Spec.edgeRecords parts)).map
      (fun r : Rec => r.weight)
    have hsum : ∀ {a b : List Int}, a.Sublist b → (∀ x ∈ b, 0 ≤ x) → a.sum ≤ b.sum := by
      intro a b hab
      induction hab with
      | slnil => intro _; simp
      | cons x _ ih =>
        intro hb
        have := ih fun y hy => hb y (List.mem_cons_of_mem _ hy)
        have := hb x List.mem_cons_self
        rw [List.sum_cons]; omega
      | cons_cons x _ ih =>
        intro hb
        have := ih fun y hy => hb y (List.mem_cons_of_mem _ hy)
        rw [List.sum_cons, List.sum_cons]; omega
    have h1 := hsum hsub (fun x hx => by obtain ⟨r, hr, rfl⟩ := List.mem_map.1 hx; exact h0 r hr)
    omega

theorem C41_example_exact : Spec.ExactWeights C41_example := exact_of_total (by decide +kernel) (by decide +kernel)

/-- Two hops from node 1: 2 entries per node, then 3, for all draws. -/
example (R : Nat → Draws) : ∃ g, Built intCodec none ⟨0, 0, -1⟩ C41_example g ∧
    ∃ a b, sampleFanout Prod.fst (sampleRandom g R (-1)) [1, 9] [[0], [1, 0]] [2, 3] = some [a, b] ∧ a.length = 4 ∧ b.length = 12 ∧
      (∀ j x, a[j]? = some x → j < 2 → x ∈ [(2, 0), (3, 0)]) := by
  obtain ⟨g, -, hb⟩ := built_of_check (wm := none) (m := ⟨0, 0, -1⟩) (parts := C41_example) (by decide +kernel)
  refine ⟨g, hb, ?_⟩
  obtain ⟨out, h1, h2⟩ := C41_random_default_partial hb R (-1) [1, 9] [[0], [1, 0]] [2, 3]
    (fun types ht n => C41_example_gap types n (by
      have : ∀ types ∈ [[0], [1, 0]], ∀ t ∈ types, (0 : Int) ≤ t := by decide
      exact this types ht))
  obtain ⟨a, r1, rfl, h3, h4, b, r2, rfl, h5, -, h6⟩ := h2
  subst h6
  refine ⟨a, b, h1, h3, by rw [h5, List.length_map, h3]; rfl, ?_⟩
  intro j x hx hj
  obtain ⟨n, hn, h7, -⟩ := h4 j x hx
  have : j / 2 = 0 := by omega
  rw [this] at hn
  have hn1 : n = 1 := (Option.some.inj hn).symm
  subst hn1
  have h8 : (Spec.neighbors C41_example 1 [0]).map Spec.reported = [(2, 0), (3, 0)] := by decide +kernel
  rw [← h8]
  exact h7 (by decide +kernel)

/-- Two hops of `get_neighbor` from nodes 1 and 2. -/
example : ∃ g, Built intCodec none ⟨0, 0, -1⟩ C41_example g ∧ Spec.ExactWeights C41_example ∧
    getNeighbor g [1, 2] [[0], [0, 1]] 2 =
      some [(⟨[2, 3, 0, 0], 2⟩, ⟨[(0, 0), (0, 1), (1, 1), (0, 0)], [5, 6, 7, 0], (2, 2), 3⟩),
        (⟨[1, 2, 3, 0, 0, 0, 0, 0], 3⟩, ⟨[(0, 2), (1, 0), (1, 1), (0, 0), (0, 0), (0, 0), (0, 0), (0, 0)],
          [7, 8, 9, 0, 0, 0, 0, 0], (2, 3), 3⟩)] := by
  obtain ⟨g, hg, hb⟩ := built_of_check (wm := none) (m := ⟨0, 0, -1⟩) (parts := C41_example) (by decide +kernel)
  refine ⟨g, hb, C41_example_exact, ?_⟩
  have : (graphOf intCodec none ⟨0, 0, -1⟩ C41_example).bind (fun g => getNeighbor g [1, 2] [[0], [0, 1]] 2) =
      some [(⟨[2, 3, 0, 0], 2⟩, ⟨[(0, 0), (0, 1), (1, 1), (0, 0)], [5, 6, 7, 0], (2, 2), 3⟩),
        (⟨[1, 2, 3, 0, 0, 0, 0, 0], 3⟩, ⟨[(0, 2), (1, 0), (1, 1), (0, 0), (0, 0), (0, 0), (0, 0), (0, 0)],
          [7, 8, 9, 0, 0, 0, 0, 0], (2, 3), 3⟩)] := by decide +kernel
  rw [hg] at this; exact this

/-- Types 1 and 2 of a node with edges of types 0 and 2: the next layer and the adjacency list of `get_neighbor` lack the edge of type 2, as the
neighbours of the node do (C03). -/
theorem C41_gap_refuted : ∃ g, Built intCodec none ⟨0, 0, -1⟩ C03_gap g ∧ Spec.neighbors C03_gap 1 [1, 2] = [⟨3, 2, 9⟩] ∧
    getNeighbor g [1] [[1, 2]] 2 = some [(⟨[0, 0], 0⟩, ⟨[(0, 0), (0, 0)], [0, 0], (1, 0), 0⟩)] := by
  obtain ⟨g, hg, hb⟩ := built_of_check (wm := none) (m := ⟨0, 0, -1⟩) (parts := C03_gap) (by decide +kernel)
  refine ⟨g, hb, by decide +kernel, ?_⟩
  have : (graphOf intCodec none ⟨0, 0, -1⟩ C03_gap).bind (fun g => getNeighbor g [1] [[1, 2]] 2) =
      some [(⟨[0, 0], 0⟩, ⟨[(0, 0), (0, 0)], [0, 0], (1, 0), 0⟩)] := by decide +kernel
  rw [hg] at this; exact this

end DeepGNN
