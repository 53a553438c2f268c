import Verif.Proofs.SubGraph
import Verif.Props.C41
import Verif.Props.C39

/-
C40: `sub_graph` is the k-hop neighbourhood.
-/

namespace DeepGNN

open SubGraph Multihop

variable {C : WeightCodec} {wm : Option Nat} {m : Meta} {parts : List (List (List Rec))} {g : Graph}

namespace SubGraph

theorem idxOf_get {nodes : List Int} {n : Int} (h : n ∈ nodes) : nodes[nodes.idxOf n]? = some n := by
  rw [List.getElem?_eq_getElem (List.idxOf_lt_length_of_mem h), List.getElem_idxOf]

theorem idxOf_unique {nodes : List Int} (hs : nodes.Pairwise (· < ·)) {i : Nat} {n : Int} (h : nodes[i]? = some n) :
    nodes.idxOf n = i := by
  have h1 := idxOf_get (List.mem_of_getElem? h)
  obtain ⟨a1, a2⟩ := List.getElem?_eq_some_iff.1 h
  obtain ⟨b1, b2⟩ := List.getElem?_eq_some_iff.1 h1
  rw [List.pairwise_iff_getElem] at hs
  rcases Nat.lt_trichotomy (nodes.idxOf n) i with h2 | h2 | h2
  · have := hs _ _ b1 a1 h2; omega
  · exact h2
  · have := hs _ _ a1 b1 h2; omega

theorem within_mono {types seeds : List Int} {k : Nat} {n : Int} (h : Spec.Within parts types seeds k n) :
    Spec.Within parts types seeds (k + 1) n := by
  obtain ⟨s, hs, j, hj, hp⟩ := h
  exact ⟨s, hs, j, by omega, hp⟩

theorem within_edge {types seeds : List Int} {k : Nat} {a b : Int} (h : Spec.SubEdge parts types seeds k a b) :
    Spec.Within parts types seeds (k + 1) b := by
  obtain ⟨⟨s, hs, j, hj, hp⟩, he⟩ := h
  exact ⟨s, hs, j + 1, by omega, path_snoc hp he⟩

/-- Membership in the list of index pairs. -/
theorem mem_edges {types src : List Int} {k : Nat} {unodes nodes : List Int}
    (hu : ∀ n, n ∈ unodes ↔ Spec.Within parts types src k n) (hs : nodes.Pairwise (· < ·))
    (hn : ∀ n, n ∈ nodes ↔ Spec.Within parts types src (k + 1) n) (i j : Nat) :
    (i, j) ∈ (unodes.flatMap fun u => (Spec.neighbors parts u types).map fun e => (u, e.dst)).map
        (fun e => (nodes.idxOf e.1, nodes.idxOf e.2)) ↔
      ∃ a b, nodes[i]? = some a ∧ nodes[j]? = some b ∧ Spec.SubEdge parts types src k a b := by
  rw [List.mem_map]
  constructor
  · rintro ⟨⟨a, b⟩, hab, hij⟩
    obtain ⟨u, hu1, he⟩ := List.mem_flatMap.1 hab
    obtain ⟨x, hx, hxe⟩ := List.mem_map.1 he
    obtain ⟨rfl, rfl⟩ := Prod.mk.inj hxe
    have hsub : Spec.SubEdge parts types src k u x.dst := ⟨(hu u).1 hu1, mem_dst.1 (List.mem_map_of_mem hx)⟩
    refine ⟨u, x.dst, ?_, ?_, hsub⟩
    · rw [← (Prod.mk.inj hij).1]
      exact idxOf_get ((hn u).2 (within_mono hsub.1))
    · rw [← (Prod.mk.inj hij).2]
      exact idxOf_get ((hn _).2 (within_edge hsub))
  · rintro ⟨a, b, ha, hb, hsub⟩
    obtain ⟨x, hx, hxd⟩ := List.mem_map.1 (mem_dst.2 hsub.2)
    refine ⟨(a, b), List.mem_flatMap.2 ⟨a, (hu a).2 hsub.1, List.mem_map.2 ⟨x, hx, by rw [hxd]⟩⟩, ?_⟩
    rw [idxOf_unique hs ha, idxOf_unique hs hb]

end SubGraph

/-- With `return_edges=True`: the nodes are those within `num_hops` edges of a seed, the indices locate the seeds, and the edge list
has the edges leaving nodes within `num_hops - 1` edges of a seed, their reverses and the loops if asked for.  Missing: gaps in the types,
see C03; `num_hops = 0`, see `C40_zero_refuted`. -/
theorem C40_edges_partial (h : Built C wm m parts g) (src types : List Int) (hgap : ∀ n, Spec.NoGap parts n types) (k : Nat)
    (selfLoop undirected : Bool) : ∃ (nodes : List Int) (edges : List (Nat × Nat)) (idx : List Nat),
      subGraphEdges g src types (k + 1) selfLoop undirected = some (nodes, edges, idx) ∧ nodes.Pairwise (· < ·) ∧
      (∀ n, n ∈ nodes ↔ Spec.Within parts types src (k + 1) n) ∧
      idx.map (fun i => nodes[i]?) = src.map some ∧
      (∀ i j, (i, j) ∈ edges ↔ ∃ a b, nodes[i]? = some a ∧ nodes[j]? = some b ∧
        (Spec.SubEdge parts types src k a b ∨ (undirected = true ∧ Spec.SubEdge parts types src k b a) ∨
          (selfLoop = true ∧ a = b))) ∧
      (selfLoop = true ∨ undirected = true → edges.Nodup) := by
  obtain ⟨unodes, nodes, h1, h2, h3, h4, h5⟩ := core_spec h types hgap src (k + 1)
  rw [Nat.add_sub_cancel] at h2 h4
  refine ⟨nodes, edgeList nodes.length selfLoop undirected ((unodes.flatMap fun u =>
      (Spec.neighbors parts u types).map fun e => (u, e.dst)).map (fun e => (nodes.idxOf e.1, nodes.idxOf e.2))),
    src.map nodes.idxOf, ?_, h3, h4, ?_, ?_, ?_⟩
  · rw [subGraphEdges, h5, Option.map_some]
  · rw [List.map_map]
    apply List.map_congr_left
    intro s hs
    exact idxOf_get ((h4 s).2 ⟨s, hs, 0, Nat.zero_le _, .nil s⟩)
  · intro i j
    have key := mem_edges h2 h3 h4
    generalize ((unodes.flatMap fun u =>
      (Spec.neighbors parts u types).map fun e => (u, e.dst)).map (fun e => (nodes.idxOf e.1, nodes.idxOf e.2))) = E at key
    have hloop : (i, j) ∈ (List.range nodes.length).map (fun i => (i, i)) ↔ ∃ a b, nodes[i]? = some a ∧ nodes[j]? = some b ∧ a = b := by
      rw [List.mem_map]
      constructor
      · rintro ⟨x, hx, hxe⟩
        obtain ⟨rfl, rfl⟩ := Prod.mk.inj hxe
        have := List.mem_range.1 hx
        exact ⟨nodes[x], nodes[x], List.getElem?_eq_getElem _, List.getElem?_eq_getElem _, rfl⟩
      · rintro ⟨a, b, ha, hb, rfl⟩
        have e1 := idxOf_unique h3 ha
        have e2 := idxOf_unique h3 hb
        obtain ⟨hi, -⟩ := List.getElem?_eq_some_iff.1 ha
        exact ⟨i, List.mem_range.2 hi, by rw [← e1, e2]⟩
    have hrev : (i, j) ∈ E.map (fun e => (e.2, e.1)) ↔ (j, i) ∈ E := by
      rw [List.mem_map]
      constructor
      · rintro ⟨⟨x, y⟩, hx, hxe⟩
        obtain ⟨rfl, rfl⟩ := Prod.mk.inj hxe
        exact hx
      · intro hx; exact ⟨(j, i), hx, rfl⟩
    have hE : (i, j) ∈ edgeList nodes.length selfLoop undirected E ↔
        (i, j) ∈ E ∨ (undirected = true ∧ (j, i) ∈ E) ∨ (selfLoop = true ∧ (i, j) ∈ (List.range nodes.length).map (fun i => (i, i))) := by
      cases selfLoop <;> cases undirected <;>
        simp only [edgeList, Bool.or_false, Bool.or_true, Bool.false_or, Bool.true_or, if_true, Bool.false_eq_true, if_false,
          mem_uniqueRows, List.mem_append, hrev, true_and, false_and, or_false, false_or] <;> grind
    rw [hE, key, key, hloop]
    constructor
    · rintro (⟨a, b, ha, hb, hx⟩ | ⟨hu, b, a, hb, ha, hx⟩ | ⟨hl, a, b, ha, hb, hx⟩)
      · exact ⟨a, b, ha, hb, Or.inl hx⟩
      · exact ⟨a, b, ha, hb, Or.inr (Or.inl ⟨hu, hx⟩)⟩
      · exact ⟨a, b, ha, hb, Or.inr (Or.inr ⟨hl, hx⟩)⟩
    · rintro ⟨a, b, ha, hb, (hx | ⟨hu, hx⟩ | ⟨hl, hx⟩)⟩
      · exact Or.inl ⟨a, b, ha, hb, hx⟩
      · exact Or.inr (Or.inl ⟨hu, b, a, hb, ha, hx⟩)
      · exact Or.inr (Or.inr ⟨hl, a, b, ha, hb, hx⟩)
  · intro hor
    simp only [edgeList]
    rw [if_pos (by simpa using hor)]
    exact nodup_uniqueRows _

/-- Without reverses and loops the edge list has every such edge as often as the graph has it. -/
theorem C40_directed_partial (h : Built C wm m parts g) (src types : List Int) (hgap : ∀ n, Spec.NoGap parts n types) (k : Nat) :
    ∃ (nodes : List Int) (edges : List (Nat × Nat)) (idx : List Nat) (unodes : List Int), subGraphEdges g src types (k + 1) false false = some (nodes, edges, idx) ∧
      unodes.Pairwise (· < ·) ∧ (∀ n, n ∈ unodes ↔ Spec.Within parts types src k n) ∧
      edges.map (fun e => (nodes[e.1]?, nodes[e.2]?)) =
        unodes.flatMap fun u => (Spec.neighbors parts u types).map fun e => (some u, some e.dst) := by
  obtain ⟨unodes, nodes, h1, h2, h3, h4, h5⟩ := core_spec h types hgap src (k + 1)
  rw [Nat.add_sub_cancel] at h2 h4
  refine ⟨nodes, (unodes.flatMap fun u =>
      (Spec.neighbors parts u types).map fun e => (u, e.dst)).map (fun e => (nodes.idxOf e.1, nodes.idxOf e.2)),
    src.map nodes.idxOf, unodes, ?_, h1, h2, ?_⟩
  · rw [subGraphEdges, h5, Option.map_some]
    rfl
  · rw [List.map_map, List.map_flatMap]
    apply SkipGrams.flatMap_congr_mem
    intro u hu
    rw [List.map_map]
    apply List.map_congr_left
    intro x hx
    have hsub : Spec.SubEdge parts types src k u x.dst := ⟨(h2 u).1 hu, mem_dst.1 (List.mem_map_of_mem hx)⟩
    simp only [Function.comp_def]
    rw [idxOf_get ((h4 u).2 (within_mono hsub.1)), idxOf_get ((h4 _).2 (within_edge hsub))]

/-- With `return_edges=False`: entry `i, j` of the matrix is 1 if the subgraph has the edge, or its reverse if asked for, plus 1 on the
diagonal if loops are asked for. -/
theorem C40_matrix_partial (h : Built C wm m parts g) (src types : List Int) (hgap : ∀ n, Spec.NoGap parts n types) (k : Nat)
    (selfLoop undirected : Bool) : ∃ (nodes : List Int) (rows : List (List Nat)) (idx : List Nat),
      subGraphMatrix g src types (k + 1) selfLoop undirected = some (nodes, rows, idx) ∧ nodes.Pairwise (· < ·) ∧
      (∀ n, n ∈ nodes ↔ Spec.Within parts types src (k + 1) n) ∧
      idx.map (fun i => nodes[i]?) = src.map some ∧ rows.length = nodes.length ∧ (∀ r ∈ rows, r.length = nodes.length) ∧
      (∀ (i j : Nat) (a b : Int), nodes[i]? = some a → nodes[j]? = some b → ∃ (r : List Nat) (e l : Nat), rows[i]? = some r ∧ r[j]? = some (e + l) ∧
        (Spec.SubEdge parts types src k a b ∨ (undirected = true ∧ Spec.SubEdge parts types src k b a) → e = 1) ∧
        (¬ (Spec.SubEdge parts types src k a b ∨ (undirected = true ∧ Spec.SubEdge parts types src k b a)) → e = 0) ∧
        (selfLoop = true ∧ a = b → l = 1) ∧ (¬ (selfLoop = true ∧ a = b) → l = 0)) := by
  obtain ⟨unodes, nodes, h1, h2, h3, h4, h5⟩ := core_spec h types hgap src (k + 1)
  rw [Nat.add_sub_cancel] at h2 h4
  have key := mem_edges h2 h3 h4
  generalize ((unodes.flatMap fun u =>
      (Spec.neighbors parts u types).map fun e => (u, e.dst)).map (fun e => (nodes.idxOf e.1, nodes.idxOf e.2))) = E at key h5
  refine ⟨nodes, (List.range nodes.length).map (fun i => (List.range nodes.length).map fun j => adjacency selfLoop undirected E i j),
    src.map nodes.idxOf, ?_, h3, h4, ?_, by simp, ?_, ?_⟩
  · rw [subGraphMatrix, h5, Option.map_some]
  · rw [List.map_map]
    apply List.map_congr_left
    intro s hs
    exact idxOf_get ((h4 s).2 ⟨s, hs, 0, Nat.zero_le _, .nil s⟩)
  · intro r hr
    obtain ⟨i, -, rfl⟩ := List.mem_map.1 hr
    simp
  · intro i j a b ha hb
    obtain ⟨hi, -⟩ := List.getElem?_eq_some_iff.1 ha
    obtain ⟨hj, -⟩ := List.getElem?_eq_some_iff.1 hb
    have hkey : ∀ {i j a b}, nodes[i]? = some a → nodes[j]? = some b → ((i, j) ∈ E ↔ Spec.SubEdge parts types src k a b) := by
      intro i j a b ha hb
      rw [key]
      constructor
      · rintro ⟨a', b', ha', hb', hx⟩
        rw [ha] at ha'; rw [hb] at hb'
        obtain rfl := Option.some.inj ha'
        obtain rfl := Option.some.inj hb'
        exact hx
      · intro hx; exact ⟨a, b, ha, hb, hx⟩
    have heq : i = j ↔ a = b := by
      constructor
      · rintro rfl; rw [ha] at hb; exact Option.some.inj hb
      · rintro rfl; rw [← idxOf_unique h3 ha, ← idxOf_unique h3 hb]
    refine ⟨(List.range nodes.length).map fun j => adjacency selfLoop undirected E i j,
      if (i, j) ∈ E ∨ (undirected = true ∧ (j, i) ∈ E) then 1 else 0, if selfLoop = true ∧ i = j then 1 else 0,
      by rw [List.getElem?_map, List.getElem?_range hi]; rfl, ?_, ?_, ?_, ?_, ?_⟩
    · rw [List.getElem?_map, List.getElem?_range hj]
      rfl
    · intro hx; rw [if_pos]; rw [hkey ha hb, hkey hb ha]; exact hx
    · intro hx; rw [if_neg]; rw [hkey ha hb, hkey hb ha]; exact hx
    · intro hx; rw [if_pos]; rw [heq]; exact hx
    · intro hx; rw [if_neg]; rw [heq]; exact hx

/-- Two hops from node 2 and one hop from node 1 in the graph of C41. -/
example : ∃ g, Built intCodec none ⟨0, 0, -1⟩ C41_example g ∧ (∀ n, Spec.NoGap C41_example n [0]) ∧
    subGraphEdges g [2] [0] 2 false false = some ([1, 2, 3], [(1, 2), (2, 0)], [1]) ∧
    subGraphEdges g [2] [0] 1 true true = some ([2, 3], [(0, 0), (0, 1), (1, 0), (1, 1)], [0]) ∧
    subGraphMatrix g [1, 1] [0] 1 true false = some ([1, 2, 3], [[1, 1, 1], [0, 1, 0], [0, 0, 1]], [0, 0]) := by
  obtain ⟨g, hg, hb⟩ := built_of_check (wm := none) (m := ⟨0, 0, -1⟩) (parts := C41_example) (by decide +kernel)
  have h1 : (graphOf intCodec none ⟨0, 0, -1⟩ C41_example).bind (fun g => subGraphEdges g [2] [0] 2 false false) =
      some ([1, 2, 3], [(1, 2), (2, 0)], [1]) := by decide +kernel
  have h2 : (graphOf intCodec none ⟨0, 0, -1⟩ C41_example).bind (fun g => subGraphEdges g [2] [0] 1 true true) =
      some ([2, 3], [(0, 0), (0, 1), (1, 0), (1, 1)], [0]) := by decide +kernel
  have h3 : (graphOf intCodec none ⟨0, 0, -1⟩ C41_example).bind (fun g => subGraphMatrix g [1, 1] [0] 1 true false) =
      some ([1, 2, 3], [[1, 1, 1], [0, 1, 0], [0, 0, 1]], [0, 0]) := by decide +kernel
  rw [hg] at h1 h2 h3
  exact ⟨g, hb, fun n => C41_example_gap [0] n (by decide), h1, h2, h3⟩

/-- `num_hops = 0` is treated as 1: nodes that are no seeds are returned. -/
theorem C40_zero_refuted : ∃ g, Built intCodec none ⟨0, 0, -1⟩ C41_example g ∧
    subGraphEdges g [2] [0] 0 false false = some ([2, 3], [(0, 1)], [0]) ∧ ¬ Spec.Within C41_example [0] [2] 0 3 := by
  obtain ⟨g, hg, hb⟩ := built_of_check (wm := none) (m := ⟨0, 0, -1⟩) (parts := C41_example) (by decide +kernel)
  refine ⟨g, hb, ?_, ?_⟩
  · have : (graphOf intCodec none ⟨0, 0, -1⟩ C41_example).bind (fun g => subGraphEdges g [2] [0] 0 false false) =
      some ([2, 3], [(0, 1)], [0]) := by decide +kernel
    rw [hg] at this; exact this
  · rintro ⟨s, hs, j, hj, hp⟩
    obtain rfl : j = 0 := by omega
    cases hp
    simp at hs

/-- A node with an edge to itself. -/
def C40_loop : List (List (List Rec)) := [[[⟨1, -1, 0, 1, none, none, []⟩, ⟨1, 1, 0, 1, none, none, []⟩]]]

/-- The adjacency matrix with loops is not a matrix of zeros and ones: a loop in the graph counts twice. -/
theorem C40_loop_refuted : ∃ g, Built intCodec none ⟨0, 0, -1⟩ C40_loop g ∧
    subGraphMatrix g [1] [0] 1 true true = some ([1], [[2]], [0]) := by
  obtain ⟨g, hg, hb⟩ := built_of_check (wm := none) (m := ⟨0, 0, -1⟩) (parts := C40_loop) (by decide +kernel)
  refine ⟨g, hb, ?_⟩
  have : (graphOf intCodec none ⟨0, 0, -1⟩ C40_loop).bind (fun g => subGraphMatrix g [1] [0] 1 true true) =
      some ([1], [[2]], [0]) := by decide +kernel
  rw [hg] at this; exact this

end DeepGNN
