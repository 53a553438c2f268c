import Verif.Proofs.SageExample

/-! C85: batches of the PyTorch GraphSAGE example. -/

namespace DeepGNN

open DeepGNN.SageExample DeepGNN.Spec

/-- For all graphs, sampled edges, random nodes and sampled neighbors, if at least one neighbor is sampled in the first
hop: the nodes of a batch are distinct and have their own features; the labelled pairs are the sampled edges with
label 1 and then the random pairs with label 0; all indices are valid; every message of training goes to a
node from one of its neighbors (or from the filler); and each node of a labelled pair gets a message from each
of its sampled neighbors. -/
theorem C85_batch_partial {F : Type} {d : Dataset} {hop1 hop2 : List Int → List Int} {feature : Int → F}
    {nbrs : Int → List Int} {pos : List (Int × Int)} {neg : List Int} (hf : 0 < d.fanout.1)
    (hneg : neg.length = 2 * pos.length)
    (h1 : ∀ nodes, SampledFor (NbrOr (-1) nbrs) d.fanout.1 nodes (hop1 nodes))
    (h2 : ∀ nodes, SampledFor (NbrOr (-1) nbrs) d.fanout.2 nodes (hop2 nodes)) :
    let b := query d hop1 hop2 feature pos neg
    let pairs := pos ++ (neg.take pos.length).zip (neg.drop pos.length)
    b.nodes.Nodup ∧ b.feats = b.nodes.map feature ∧
    (b.labelSrc.length = pairs.length ∧ b.labelDst.length = pairs.length ∧ b.labels.length = pairs.length) ∧
    (∀ k s t, pairs[k]? = some (s, t) →
      (b.labelSrc[k]?.bind fun i => b.nodes[i]?) = some s ∧ (b.labelDst[k]?.bind fun i => b.nodes[i]?) = some t ∧
      b.labels[k]? = some (if k < pos.length then 1 else 0)) ∧
    (∀ i ∈ b.cols ++ b.rows, i < b.nodes.length) ∧
    (∀ u v, (u, v) ∈ trainMessages b → NbrOr (-1) nbrs v u) ∧
    ∃ seed : List Int, seed.Nodup ∧ (∀ v, v ∈ seed ↔ ∃ p ∈ pairs, v = p.1 ∨ v = p.2) ∧
      ∀ i j v u, seed[i]? = some v → j < d.fanout.1 → (hop1 seed)[i * d.fanout.1 + j]? = some u →
        (u, v) ∈ trainMessages b := by
  intro b pairs
  let n := pos.length
  let xs := pos.map (·.1) ++ neg.take n
  let ys := pos.map (·.2) ++ neg.drop n
  let seed := sortUnique (xs ++ ys)
  have hx : xs.length = 2 * n := by simp only [xs, List.length_append, List.length_map, List.length_take]; omega
  have hy : ys.length = 2 * n := by simp only [ys, List.length_append, List.length_map, List.length_drop]; omega
  have hpairs : pairs = xs.zip ys := by
    show pos ++ _ = _
    simp only [xs, ys]
    rw [List.zip_append (by simp), List.zip_map']
    simp [n]
  have hseed : seed.Nodup := sortUnique_nodup _
  have hlen1 := (h1 seed).1
  obtain ⟨m1, ⟨more, m2⟩, m3, m4, m5⟩ := makeEdgeIndex_spec (hop2 := hop2) hf hseed hlen1
  have hmsg : trainMessages b = ((hop1 seed).zip (repeatEach d.fanout.1 seed)) ++
      (sndRows d.fanout hop1 hop2 seed).map fun p => (p.2, p.1) := by
    have e : trainMessages b = ((makeEdgeIndex d.fanout hop1 hop2 seed).2.2.map
        fun i => (makeEdgeIndex d.fanout hop1 hop2 seed).1.getD i 0).zip
        ((makeEdgeIndex d.fanout hop1 hop2 seed).2.1.map
        fun i => (makeEdgeIndex d.fanout hop1 hop2 seed).1.getD i 0) := rfl
    rw [e, m4, m5, List.zip_append (by rw [repeatEach_length, hlen1]), zip_fst_snd]
  have hsrc : b.labelSrc = xs.map seed.idxOf := by
    show ((xs ++ ys).map seed.idxOf).take (2 * n) = _
    rw [List.map_append]
    exact List.take_left' (by rw [List.length_map, hx])
  have hdst : b.labelDst = ys.map seed.idxOf := by
    show ((xs ++ ys).map seed.idxOf).drop (2 * n) = _
    rw [List.map_append]
    exact List.drop_left' (by rw [List.length_map, hx])
  have hlab : b.labels = List.replicate n 1 ++ List.replicate n 0 := rfl
  have hnode : ∀ x ∈ xs ++ ys, b.nodes[seed.idxOf x]? = some x := by
    intro x hxm
    have hin : x ∈ seed := (sortUnique_mem x _).2 hxm
    have hb : b.nodes = seed ++ more := m2
    rw [hb, List.getElem?_append_left (List.idxOf_lt_length_of_mem hin), getElem?_idxOf hin]
  have hlen : pairs.length = 2 * n := by rw [hpairs, List.length_zip, hx, hy]; omega
  refine ⟨m1, rfl, ⟨?_, ?_, ?_⟩, ?_, m3, ?_, seed, hseed, ?_, ?_⟩
  · rw [hsrc, List.length_map, hx, hlen]
  · rw [hdst, List.length_map, hy, hlen]
  · rw [hlab, hlen]; simp; omega
  · intro k s t hk
    have hklt : k < 2 * n := by
      rw [← hlen]
      exact (List.getElem?_eq_some_iff.1 hk).1
    rw [hpairs, List.getElem?_zip_eq_some] at hk
    obtain ⟨k1, k2⟩ := hk
    refine ⟨?_, ?_, ?_⟩
    · rw [hsrc, List.getElem?_map, k1]
      exact hnode s (List.mem_append.2 (Or.inl (List.mem_of_getElem? k1)))
    · rw [hdst, List.getElem?_map, k2]
      exact hnode t (List.mem_append.2 (Or.inr (List.mem_of_getElem? k2)))
    · rw [hlab]
      by_cases hkn : k < n
      · rw [List.getElem?_append_left (by simpa using hkn), List.getElem?_replicate, if_pos hkn, if_pos hkn]
      · rw [List.getElem?_append_right (by simp; omega), List.getElem?_replicate, if_pos (by simp; omega), if_neg hkn]
  · intro u v huv
    rw [hmsg] at huv
    rcases List.mem_append.1 huv with hm | hm
    · exact mem_zip_sampled (h1 seed) (mem_zip_swap hm)
    · obtain ⟨p, hp, e⟩ := List.mem_map.1 hm
      cases e
      exact mem_zip_sampled (h2 _) ((mem_uniqueRows _ _).1 hp)
  · intro v
    show v ∈ sortUnique (xs ++ ys) ↔ _
    rw [sortUnique_mem, hpairs, List.mem_append]
    constructor
    · rintro (h | h)
      · obtain ⟨k, hk⟩ := List.getElem?_of_mem h
        have hkl := (List.getElem?_eq_some_iff.1 hk).1
        have hky : k < ys.length := by omega
        refine ⟨(v, ys[k]), List.mem_of_getElem? (i := k) ?_, Or.inl rfl⟩
        rw [List.getElem?_zip_eq_some]
        exact ⟨hk, List.getElem?_eq_getElem hky⟩
      · obtain ⟨k, hk⟩ := List.getElem?_of_mem h
        have hkl := (List.getElem?_eq_some_iff.1 hk).1
        have hkx : k < xs.length := by omega
        refine ⟨(xs[k], v), List.mem_of_getElem? (i := k) ?_, Or.inr rfl⟩
        rw [List.getElem?_zip_eq_some]
        exact ⟨List.getElem?_eq_getElem hkx, hk⟩
    · rintro ⟨⟨s, t⟩, hp, h⟩
      have := List.of_mem_zip hp
      rcases h with h | h
      · rw [h]; exact Or.inl this.1
      · rw [h]; exact Or.inr this.2
  · intro i j v u hv hj hu
    rw [hmsg]
    exact List.mem_append.2 (Or.inl (mem_zip_swap (zip_sampled_mem hv hj hu)))

/-- A graph with the edges 0 → 1, 1 → 2 and 2 → 0; the answers of the sampler are the only neighbor, twice. -/
def C85_nbrs (v : Int) : List Int := if v = 0 then [1] else if v = 1 then [2] else if v = 2 then [0] else []

/-- The sampler for that graph. -/
def C85_hop (f : Nat) (nodes : List Int) : List Int := repeatEach f (nodes.map fun v => (C85_nbrs v).headD (-1))

theorem C85_hop_ok (f : Nat) (nodes : List Int) : SampledFor (NbrOr (-1) C85_nbrs) f nodes (C85_hop f nodes) := by
  refine ⟨by rw [C85_hop, repeatEach_length, List.length_map], ?_⟩
  intro i j v u hv hj hu
  rw [C85_hop, repeatEach_get hj, List.getElem?_map, hv] at hu
  simp only [Option.map_some, Option.some.injEq] at hu
  subst hu
  unfold NbrOr C85_nbrs
  repeat' split
  all_goals simp

/-- The hypotheses are met: two sampled edges and two random pairs. -/
example : (0 < (Dataset.init 2 (2, 1) 5).fanout.1) ∧ [4, 0, 2, 2].length = 2 * [((0 : Int), (1 : Int)), (1, 2)].length ∧
    (query (Dataset.init 2 (2, 1) 5) (C85_hop 2) (C85_hop 1) id [(0, 1), (1, 2)] [4, 0, 2, 2]).nodes = [0, 1, 2, 4, -1] ∧
    (query (Dataset.init 2 (2, 1) 5) (C85_hop 2) (C85_hop 1) id [(0, 1), (1, 2)] [4, 0, 2, 2]).labelSrc = [0, 1, 3, 0] ∧
    (query (Dataset.init 2 (2, 1) 5) (C85_hop 2) (C85_hop 1) id [(0, 1), (1, 2)] [4, 0, 2, 2]).labelDst = [1, 2, 2, 2] ∧
    (1, 0) ∈ trainMessages (query (Dataset.init 2 (2, 1) 5) (C85_hop 2) (C85_hop 1) id [(0, 1), (1, 2)] [4, 0, 2, 2]) := by
  decide +kernel

/-- In evaluation messages go from a node to its neighbors; each edge of the nodes once. If the graph is symmetric these are
messages between the same nodes as in training. -/
theorem C85_evaluation_partial (nbrs : Int → List Int) (nodes : List Int) :
    evalMessages nbrs nodes = (nodes.flatMap fun v => (nbrs v).map fun u => (v, u)) ∧
    ((∀ v u, u ∈ nbrs v → v ∈ nbrs u) → ∀ u v, u ∈ nodes → u ∈ nbrs v → (u, v) ∈ evalMessages nbrs nodes) := by
  have e : evalMessages nbrs nodes = (nodes.flatMap fun v => (nbrs v).map fun u => (v, u)) := by
    unfold evalMessages
    induction nodes with
    | nil => rfl
    | cons v nodes ih =>
      simp only [List.flatMap_cons]
      rw [List.zip_append (by simp), ih]
      congr 1
      apply List.ext_getElem?
      intro k
      rw [List.getElem?_map]
      cases h : (nbrs v)[k]? with
      | none =>
        have := List.getElem?_eq_none_iff.1 h
        rw [List.getElem?_eq_none (by simp; omega)]
        rfl
      | some u =>
        have := (List.getElem?_eq_some_iff.1 h).1
        simp only [Option.map_some]
        rw [List.getElem?_zip_eq_some]
        exact ⟨by rw [List.getElem?_replicate, if_pos this], h⟩
  refine ⟨e, ?_⟩
  intro hsym u v hu huv
  rw [e]
  exact List.mem_flatMap.2 ⟨u, hu, List.mem_map.2 ⟨v, hsym v u huv, rfl⟩⟩

example : evalMessages C85_nbrs [0, 1, 2] = [(0, 1), (1, 2), (2, 0)] := by decide

/-- In a directed graph training and evaluation use opposite directions: with the edge 0 → 1 node 0 learns from node 1 in
training, and node 1 from node 0 in evaluation. -/
theorem C85_direction_refuted :
    (1, 0) ∈ trainMessages (query (Dataset.init 2 (2, 1) 5) (C85_hop 2) (C85_hop 1) id [(0, 1), (1, 2)] [4, 0, 2, 2]) ∧
    (1, 0) ∉ evalMessages C85_nbrs [0, 1, 2, 3, 4] ∧ (0, 1) ∈ evalMessages C85_nbrs [0, 1, 2, 3, 4] ∧
    (0, 1) ∉ trainMessages (query (Dataset.init 2 (2, 1) 5) (C85_hop 2) (C85_hop 1) id [(0, 1), (1, 2)] [4, 0, 2, 2]) := by
  decide +kernel

/-- The batch size that is asked for has no effect. -/
theorem C85_batch_size_refuted (n : Nat) (fanout : Nat × Nat) (numNodes : Nat) :
    (Dataset.init n fanout numNodes).batchSize = 256 := rfl

/-- The last node is never drawn as one of the random nodes. -/
theorem C85_negative_refuted (d : Dataset) : ¬ IsNegative d ((d.numNodes : Int) - 1) := by
  intro h
  have := h.2
  omega

/-- Without neighbors in the first hop the batch has no nodes and the labelled pairs point nowhere. -/
theorem C85_fanout_refuted :
    (query (Dataset.init 2 (0, 1) 5) (C85_hop 0) (C85_hop 1) id [(0, 1)] [4, 0]).nodes = [] ∧
    (query (Dataset.init 2 (0, 1) 5) (C85_hop 0) (C85_hop 1) id [(0, 1)] [4, 0]).labelSrc = [0, 2] := by
  decide +kernel

end DeepGNN
