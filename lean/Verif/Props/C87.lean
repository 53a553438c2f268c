import Verif.Model.Pyg
import Verif.Props.C76

/-
C87 The PyTorch Geometric example sees the graph.
-/

namespace DeepGNN

open PyClient Pyg

variable {C : WeightCodec} {wm : Option Nat} {m : Meta} {parts : List (List (List Rec))} {g : Graph}

namespace Pyg

theorem sources_filled : ∀ (ids : List Int) (answers : List (List Nbr)), answers.length = ids.length →
    sources ids ((answers.map (·.length)).map some) =
      .ok ((ids.zip answers).flatMap fun x => x.2.map fun _ => x.1)
  | [], [], _ => rfl
  | n :: ids, a :: as, h => by
    simp only [List.map_cons, sources]
    rw [sources_filled ids as (by simpa using h)]
    simp [Res.map, Res.bind, List.flatMap_cons, List.map_const']

theorem zip_flatMap : ∀ (ids : List Int) (answers : List (List Nbr)), answers.length = ids.length →
    ((ids.zip answers).flatMap fun x => x.2.map fun _ => x.1).zip (answers.flatten.map (·.dst)) =
      (ids.zip answers).flatMap fun x => x.2.map fun y => (x.1, y.dst)
  | [], [], _ => rfl
  | n :: ids, a :: as, h => by
    simp only [List.zip_cons_cons, List.flatMap_cons, List.flatten_cons, List.map_append]
    rw [List.zip_append (by simp), zip_flatMap ids as (by simpa using h), List.zip_map']

theorem tensorLong_small {l : List Int} (h : ∀ x ∈ l, x.natAbs ≤ 2 ^ 24) : tensorLong l = l := by
  rw [tensorLong, List.map_congr_left fun x hx => f32_small (h x hx)]
  simp

theorem foldl_total : ∀ (batches : List (List Rat)) (s : Rat),
    batches.foldl (fun (s : Rat) b => s + b.sum / (b.length : Rat) * (b.length : Rat)) s = s + batches.flatten.sum
  | [], s => by simp [Rat.add_zero]
  | b :: bs, s => by
    rw [List.foldl_cons, foldl_total bs, List.flatten_cons, List.sum_append]
    cases b with
    | nil => simp; grind
    | cons x b =>
      have : (((x :: b).length : Nat) : Rat) ≠ 0 := length_ne (by simp)
      rw [Rat.div_mul_cancel this]
      grind

theorem foldl_examples : ∀ (batches : List (List Rat)) (s : Nat),
    batches.foldl (fun (s : Nat) b => s + b.length) s = s + batches.flatten.length
  | [], s => by simp
  | b :: bs, s => by
    rw [List.foldl_cons, foldl_examples bs, List.flatten_cons, List.length_append]
    omega

end Pyg

/-- For every graph, edge type and list of at least two or no nodes, if ids are at most 2^24: the edges shown to PyTorch
Geometric are exactly the edges of this type from the nodes, in the order of the nodes.  Missing: larger ids
(`C87_large_refuted`), a single node (`C87_single_refuted`). -/
theorem C87_edges_partial (h : Built C wm m parts g) (ids : List Int) (hids : ids.length ≠ 1) (t : Int)
    (ht : -(2 ^ 31) ≤ t ∧ t < 2 ^ 31)
    (hsrc : ∀ n ∈ ids, n.natAbs ≤ 2 ^ 24) (hdst : ∀ r ∈ Spec.edgeRecords parts, r.src ∈ ids → r.typ = t → r.dst.natAbs ≤ 2 ^ 24) :
    ∃ srcs dsts, edgeIndex g (loadtxt ids) t = .ok (srcs, dsts) ∧ srcs.length = dsts.length ∧
      srcs.zip dsts = ids.flatMap fun n =>
        ((Spec.edgeRecords parts).filter fun r => r.src = n ∧ r.typ = t).map fun r => (r.src, r.dst) := by
  have hload : loadtxt ids = Spec.vector ids := by
    match ids, hids with
    | [], _ => rfl
    | [_], h => simp at h
    | _ :: _ :: _, _ => rfl
  obtain ⟨answers, h1, h2, h3, -⟩ := C76_neighbors_partial h ids [t] (ts := none) (Or.inl rfl)
    (by intro t' ht'; rw [List.mem_singleton.1 ht']; exact ht)
    (by
      intro n _ x _ y _ _ _ hy ⟨t', ht', hlt, hlt'⟩
      rw [List.mem_singleton] at hy ht'
      omega)
  have hans : ∀ x ∈ ids.zip answers, x.2.map (fun y => (x.1, y.dst)) =
      ((Spec.edgeRecords parts).filter fun r => r.src = x.1 ∧ r.typ = t).map fun r => (r.src, r.dst) := by
    intro x hx
    have := congrArg (fun l => l.map fun y : Int × Int => (x.1, y.1)) (h3 x hx).1
    simp only [List.map_map, Spec.neighbors] at this
    refine Eq.trans (Eq.trans ?_ this) ?_
    · rfl
    · simp only [List.mem_singleton]
      apply List.map_congr_left
      intro r hr
      have := (List.mem_filter.1 hr).2
      simp only [decide_eq_true_eq] at this
      simp [Spec.reported, this.1]
  have hflat : ((ids.zip answers).flatMap fun x => x.2.map fun y => (x.1, y.dst)) = ids.flatMap fun n =>
        ((Spec.edgeRecords parts).filter fun r => r.src = n ∧ r.typ = t).map fun r => (r.src, r.dst) := by
    have e : ids = (ids.zip answers).map (·.1) := by rw [List.map_fst_zip (by omega)]
    conv => rhs; rw [e]
    rw [List.flatMap_map, List.flatMap_def, List.flatMap_def, List.map_congr_left hans]
  refine ⟨(ids.zip answers).flatMap fun x => x.2.map fun _ => x.1, answers.flatten.map (·.dst), ?_, ?_, ?_⟩
  · rw [hload, edgeIndex]
    simp only [SamplerCache.checkTypes, h1, Res.bind, Spec.neighborsOf, Spec.filled, vector_data, sources_filled ids answers h2,
      Res.map]
    rw [tensorLong_small, tensorLong_small]
    · intro d hd
      obtain ⟨y, hy, rfl⟩ := List.mem_map.1 hd
      obtain ⟨a, ha, hya⟩ := List.mem_flatten.1 hy
      obtain ⟨i, hi, rfl⟩ := List.mem_iff_getElem.1 ha
      have hm : (ids[i]'(by omega), y.dst) ∈ ((ids.zip answers).flatMap fun x => x.2.map fun y => (x.1, y.dst)) :=
        List.mem_flatMap.2 ⟨(ids[i]'(by omega), answers[i]), List.mem_iff_getElem.2 ⟨i, by simp; omega, by simp⟩,
          List.mem_map.2 ⟨y, hya, rfl⟩⟩
      rw [hflat] at hm
      obtain ⟨n, hn, hm⟩ := List.mem_flatMap.1 hm
      obtain ⟨r, hr, he⟩ := List.mem_map.1 hm
      obtain ⟨hr1, hr2⟩ := List.mem_filter.1 hr
      simp only [decide_eq_true_eq] at hr2
      rw [← (Prod.mk.inj he).2]
      exact hdst r hr1 (by rw [hr2.1]; exact hn) hr2.2
    · intro n hn
      obtain ⟨x, hx, hn⟩ := List.mem_flatMap.1 hn
      obtain ⟨y, -, rfl⟩ := List.mem_map.1 hn
      exact hsrc _ (List.of_mem_zip hx).1
  · clear hans hflat h3 h1 hload hdst hsrc hids
    induction ids generalizing answers with
    | nil => cases answers with
      | nil => rfl
      | cons a as => simp at h2
    | cons n ids ih => cases answers with
      | nil => simp at h2
      | cons a as => simp [List.flatMap_cons, ih as (by simpa using h2)]
  · rw [zip_flatMap ids answers h2, hflat]

/-- For every graph and at least two nodes: `x` holds 121 values of feature 0 of each node, `y` the value of feature 1, 4
bytes each.  Missing: a single node (`C87_batch_refuted`). -/
theorem C87_features_partial (h : Built C wm m parts g) (ids : List Int) (hids : ids.length ≠ 1) :
    getTensor g ids "x" = .ok ⟨[ids.length, 121, 4], ids.flatMap fun n => Spec.fit (121 * 4) (Spec.nodeFeature parts n 0)⟩ ∧
    getTensor g ids "y" = .ok ⟨[ids.length, 4], ids.flatMap fun n => Spec.fit 4 (Spec.nodeFeature parts n 1)⟩ := by
  have hx := C76_node_features_partial h 4 ids [(0, 121)] (ts := none) (Or.inl rfl)
  have hy := C76_node_features_partial h 4 ids [(1, 1)] (ts := none) (Or.inl rfl)
  simp only [Spec.vector] at hx hy
  constructor
  · rw [getTensor, show feature "x" = (0, 121) from rfl, hx]
    simp [Res.map, Res.bind, squeeze, hids]
  · rw [getTensor, show feature "y" = (1, 1) by decide, hy]
    simp [Res.map, Res.bind, squeeze, hids]

/-- The loss of an epoch is the mean over all examples, however they are divided into batches. -/
theorem C87_loss (batches : List (List Rat)) (h : batches.flatten ≠ []) :
    trainLoss batches = some (batches.flatten.sum / (batches.flatten.length : Rat)) := by
  rw [trainLoss, foldl_total, foldl_examples]
  simp only [Nat.zero_add, Rat.zero_add]
  rw [if_neg (by have := List.length_pos_iff.2 h; omega)]

/-- The labels to learn are the sampled edges, if ids are at most 2^24. -/
theorem C87_labels_partial (edges : List (Int × Int × Int)) (h : ∀ e ∈ edges, e.1.natAbs ≤ 2 ^ 24 ∧ e.2.1.natAbs ≤ 2 ^ 24) :
    labelIndex edges = (edges.map (·.1), edges.map (·.2.1)) := by
  rw [labelIndex, tensorLong_small, tensorLong_small]
  · intro x hx
    obtain ⟨e, he, rfl⟩ := List.mem_map.1 hx
    exact (h e he).2
  · intro x hx
    obtain ⟨e, he, rfl⟩ := List.mem_map.1 hx
    exact (h e he).1

/-- A graph with nodes of two types, and of edges of two types. -/
def C87_example : List (List (List Rec)) :=
  [[[⟨1, -1, 0, 1, none, none, [some [1, 2, 3, 4], some [5, 6, 7, 8]]⟩, ⟨1, 2, 0, 1, none, none, []⟩, ⟨1, 3, 0, 1, none, none, []⟩,
     ⟨1, 1, 1, 1, none, none, []⟩],
    [⟨2, -1, 2, 1, none, none, [some [9, 9, 9, 9]]⟩, ⟨2, 1, 0, 1, none, none, []⟩], [⟨3, -1, 0, 1, none, none, []⟩]]]

/-- Non-vacuity. -/
example : ∃ g, Built intCodec none ⟨2, 0, -1⟩ C87_example g ∧
    (∀ r ∈ Spec.edgeRecords C87_example, r.src ∈ [(2 : Int), 3, 1] → r.typ = 0 → r.dst.natAbs ≤ 2 ^ 24) ∧
    edgeIndex g (loadtxt [2, 3, 1]) 0 = .ok ([2, 1, 1], [1, 2, 3]) ∧
    getTensor g [1, 2] "y" = .ok ⟨[2, 4], [5, 6, 7, 8, 0, 0, 0, 0]⟩ := by
  obtain ⟨g, hg, hb⟩ := built_of_check (wm := none) (m := ⟨2, 0, -1⟩) (parts := C87_example) (by decide +kernel)
  refine ⟨g, hb, by decide +kernel, ?_, ?_⟩
  · have : (graphOf intCodec none ⟨2, 0, -1⟩ C87_example).bind (fun g => some (edgeIndex g (loadtxt [2, 3, 1]) 0)) =
        some (.ok ([2, 1, 1], [1, 2, 3])) := by decide +kernel
    rw [hg] at this
    exact Option.some.inj this
  · have := (C87_features_partial hb [1, 2] (by decide)).2
    rw [this]
    decide +kernel

example : trainLoss [[1, 2], [6]] = some 3 := by decide +kernel
example : labelIndex [(1, 2, 0), (3, 4, 1)] = ([1, 3], [2, 4]) := by decide +kernel

/-- The claim that the edges are those of the graph is false for large ids: 16777217 is shown as 16777216. -/
theorem C87_large_refuted : ∃ parts g, Built intCodec none ⟨0, 0, -1⟩ parts g ∧
    (Spec.edgeRecords parts).map (fun r => (r.src, r.dst)) = [(16777217, 5), (16777219, 16777217)] ∧
    edgeIndex g (loadtxt [16777217, 16777219]) 0 = .ok ([16777216, 16777220], [5, 16777216]) := by
  obtain ⟨g, hg, hb⟩ := built_of_check (wm := none) (m := ⟨0, 0, -1⟩)
    (parts := [[[⟨16777217, 5, 0, 1, none, none, []⟩], [⟨16777219, 16777217, 0, 1, none, none, []⟩]]]) (by decide +kernel)
  refine ⟨_, g, hb, by decide +kernel, ?_⟩
  have : (graphOf intCodec none ⟨0, 0, -1⟩ [[[⟨16777217, 5, 0, 1, none, none, []⟩],
      [⟨16777219, 16777217, 0, 1, none, none, []⟩]]]).bind (fun g => some (edgeIndex g (loadtxt [16777217, 16777219]) 0)) =
      some (.ok ([16777216, 16777220], [5, 16777216])) := by decide +kernel
  rw [hg] at this
  exact Option.some.inj this

/-- The claim is false for a file with one node: it is read as a number, not as an array, and the query fails. -/
theorem C87_single_refuted (g : Graph) (n t : Int) : edgeIndex g (loadtxt [n]) t = .raised := rfl

/-- The claim that `x` has a row per node is false for a single node: the dimension of the nodes is removed. -/
theorem C87_batch_refuted (h : Built C wm m parts g) (n : Int) :
    getTensor g [n] "x" = .ok ⟨[121, 4], Spec.fit (121 * 4) (Spec.nodeFeature parts n 0)⟩ := by
  have hx := C76_node_features_partial h 4 [n] [(0, 121)] (ts := none) (Or.inl rfl)
  simp only [Spec.vector] at hx
  rw [getTensor, show feature "x" = (0, 121) from rfl, hx]
  simp [Res.map, Res.bind, squeeze]

/-- The claim that the stated numbers of nodes bound the ids of the edges is false: sources are counted by type 0, though the
listed nodes may have another type, as the test nodes of the example. -/
theorem C87_size_refuted : ∃ g, Built intCodec none ⟨2, 0, -1⟩ C87_example g ∧
    Spec.nodeTypes C87_example = [(1, 0), (2, 2), (3, 0)] ∧ edgeSize [2, 0, 1] = .ok (2, 3) ∧
    edgeIndex g (loadtxt [2, 2]) 0 = .ok ([2, 2], [1, 1]) := by
  obtain ⟨g, hg, hb⟩ := built_of_check (wm := none) (m := ⟨2, 0, -1⟩) (parts := C87_example) (by decide +kernel)
  refine ⟨g, hb, by decide +kernel, by decide +kernel, ?_⟩
  have : (graphOf intCodec none ⟨2, 0, -1⟩ C87_example).bind (fun g => some (edgeIndex g (loadtxt [2, 2]) 0)) =
      some (.ok ([2, 2], [1, 1])) := by decide +kernel
  rw [hg] at this
  exact Option.some.inj this

/-- The claim that the test score tells about the test data is false: it is the score of the first batch of the training
data, whatever the test data is. -/
theorem C87_test_refuted {β : Type} (score : β → Rat) (b : β) (bs testLoader testLoader' : List β) :
    test score (b :: bs) testLoader = some (score b) ∧ test score (b :: bs) testLoader = test score (b :: bs) testLoader' :=
  ⟨rfl, rfl⟩

end DeepGNN
