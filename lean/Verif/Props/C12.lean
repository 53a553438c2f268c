import Verif.Proofs.SparseFeatures
import Verif.Proofs.Concrete

/-
C12 Sparse features decode to what was encoded.
-/

namespace DeepGNN
open Spec (Sparse HasSparse)

variable {C : WeightCodec} {wm : Option Nat} {m : Meta} {parts : List (List (List Rec))} {g : Graph}

/-- Conversion and decoding, for every well-formed sparse value in either accepted shape, wherever it is
in the feature file and whatever was decoded before: the coordinates are returned tuple by tuple, each
behind the prefix, and the value bytes unchanged. -/
theorem C12_roundtrip {x : Sparse} (hx : x.Ok) {raw : RawFeature} (hr : Spec.Describes raw x)
    (pre post : Bytes) (i : Int) (s : SparseState) :
    ∃ b, convertFeature raw = some (some b) ∧
      deserializeSparse (pre ++ b ++ post) pre.length b.length i s =
        some { s with dim := x.dim, indices := s.indices ++ x.coords.flatMap fun row => i :: row,
                      values := s.values ++ x.values.flatten } :=
  ⟨_, convert_describes hx hr, deserialize_encSparse hx pre post i s⟩

/-- The sparse value of feature `f` of node `n`: that of the first record of `n` that has one. -/
def C12_value (parts : List (List (List Rec))) (D : Nat → List (Option Bytes) → Option Sparse) (f : Nat)
    (n : Int) : Option Sparse :=
  (Spec.nodeRecords parts n).findSome? fun r => D f r.features

/-- Node queries: `D f fl` is the sparse value feature `f` has in a record with the features `fl`.  For
every list of nodes (known or not, repeated or not) and features the reply has, per feature, the
coordinates of the values of the nodes in request order, each behind the position of its node, and the
value bytes in the same order; the dimension is the common dimension of the values, 0 if there are
none. -/
theorem C12_nodes (h : Built C wm m parts g) (nodes : List Int) (feats : List Nat)
    (D : Nat → List (Option Bytes) → Option Sparse)
    (hD : ∀ n ∈ nodes, ∀ f ∈ feats, ∀ r ∈ Spec.nodeRecords parts n, HasSparse r.features f (D f r.features))
    (dim : Nat → Nat)
    (hdim : ∀ n ∈ nodes, ∀ f ∈ feats, ∀ x, C12_value parts D f n = some x → x.dim = dim f) :
    g.nodeSparse feats nodes = some (feats.map fun f =>
      (if ∃ n ∈ nodes, (C12_value parts D f n).isSome then dim f else 0,
       nodes.zipIdx.flatMap fun (n, i) => match C12_value parts D f n with
         | none => []
         | some x => x.coords.flatMap fun row => (i : Int) :: row,
       nodes.flatMap fun n => match C12_value parts D f n with
         | none => []
         | some x => x.values.flatten)) := by
  obtain ⟨items, hg, hc⟩ := h.graphOk
  have key := hg.nodeSparseLoop (fun it hit => (hc it hit).1) feats nodes D hD 0
    (List.replicate feats.length {}) (by simp)
  simp only [Graph.nodeSparse]
  rw [key, Option.map_some]
  refine congrArg some ?_
  exact sparse_reply (C12_value parts D) nodes feats dim hdim

/-- Edge queries: for every list of edges (known or not, repeated or not) and features the reply has, per feature, the
coordinates and values `val f e` of the edges in request order.  A value is the sparse value of that feature in a record
of the edge; and if the edge was given once, it is the value of its record. -/
theorem C12_edges (h : Built C wm m parts g) (edges : List EdgeId) (feats : List Nat)
    (D : Nat → List (Option Bytes) → Option Sparse)
    (hD : ∀ e ∈ edges, ∀ f ∈ feats, ∀ r ∈ Spec.edgesBetween parts e.src e.dst e.typ, HasSparse r.features f (D f r.features))
    (dim : Nat → Nat)
    (hdim : ∀ e ∈ edges, ∀ f ∈ feats, ∀ r ∈ Spec.edgesBetween parts e.src e.dst e.typ, ∀ x,
      D f r.features = some x → x.dim = dim f) :
    ∃ val : Nat → EdgeId → Option Sparse,
      (∀ f e, (∀ x, val f e = some x → ∃ r ∈ Spec.edgesBetween parts e.src e.dst e.typ, D f r.features = some x) ∧
        ∀ r, Spec.edgesBetween parts e.src e.dst e.typ = [r] → val f e = D f r.features) ∧
      g.edgeSparse feats edges = some (feats.map fun f =>
        (if ∃ e ∈ edges, (val f e).isSome then dim f else 0,
         edges.zipIdx.flatMap fun (e, i) => match val f e with
           | none => []
           | some x => x.coords.flatMap fun row => (i : Int) :: row,
         edges.flatMap fun e => match val f e with
           | none => []
           | some x => x.values.flatten)) := by
  obtain ⟨items, hg, hc⟩ := h.graphOk
  refine ⟨edgeSparseVal D items, fun f e => hg.edgeSparseVal_spec D f e, ?_⟩
  have key := hg.edgeSparseLoop (fun it hit => (hc it hit).2) feats edges D hD 0
    (List.replicate feats.length {}) (by simp)
  simp only [Graph.edgeSparse]
  rw [key, Option.map_some]
  refine congrArg some (sparse_reply (edgeSparseVal D items) edges feats dim ?_)
  intro e he f hf x hx
  obtain ⟨r, hr, h1⟩ := (hg.edgeSparseVal_spec D f e).1 x hx
  exact hdim e he f hf r hr x h1

/-- A matrix with two rows, a vector, and a missing feature. -/
def C12_a : Sparse := ⟨2, [[3, 4], [5, 6]], [[1], [2]]⟩
def C12_b : Sparse := ⟨2, [[7, 8]], [[9]]⟩
def C12_example : List (List (List Rec)) :=
  [[[⟨1, -1, 0, 1, none, none, [some (encSparse C12_a)]⟩, ⟨2, -1, 0, 1, none, none, [none]⟩]],
   [[⟨3, -1, 0, 1, none, none, [some (encSparse C12_b)]⟩]]]
def C12_sparse (_ : Nat) (fl : List (Option Bytes)) : Option Sparse :=
  if fl = [some (encSparse C12_a)] then some C12_a else if fl = [some (encSparse C12_b)] then some C12_b else none

theorem C12_a_ok : C12_a.Ok :=
  ⟨by decide, by decide, by decide, by decide, by decide, by decide⟩
theorem C12_b_ok : C12_b.Ok :=
  ⟨by decide, by decide, by decide, by decide, by decide, by decide⟩

/-- Non-vacuity: the hypotheses hold and the reply is the one expected. -/
example : ∃ g, Built intCodec none ⟨1, 0, -1⟩ C12_example g ∧
    (∀ n ∈ [3, 2, 1, 8], ∀ r ∈ Spec.nodeRecords C12_example n, HasSparse r.features 0 (C12_sparse 0 r.features)) ∧
    g.nodeSparse [0] [3, 2, 1, 8] = some [(2, [0, 7, 8, 2, 3, 4, 2, 5, 6], [9, 1, 2])] := by
  obtain ⟨g, hg, hb⟩ := built_of_check (wm := none) (m := ⟨1, 0, -1⟩) (parts := C12_example)
    (by decide +kernel)
  have this : (graphOf intCodec none ⟨1, 0, -1⟩ C12_example).map (fun g => g.nodeSparse [0] [3, 2, 1, 8]) =
      some (some [(2, [0, 7, 8, 2, 3, 4, 2, 5, 6], [9, 1, 2])]) := by decide +kernel
  rw [hg] at this
  have h1 : Spec.nodeRecords C12_example 1 = [⟨1, -1, 0, 1, none, none, [some (encSparse C12_a)]⟩] := by
    decide +kernel
  have h2 : Spec.nodeRecords C12_example 2 = [⟨2, -1, 0, 1, none, none, [none]⟩] := by decide +kernel
  have h3 : Spec.nodeRecords C12_example 3 = [⟨3, -1, 0, 1, none, none, [some (encSparse C12_b)]⟩] := by
    decide +kernel
  have h4 : Spec.nodeRecords C12_example 8 = [] := by decide +kernel
  have d1 : C12_sparse 0 [some (encSparse C12_a)] = some C12_a := by decide +kernel
  have d2 : C12_sparse 0 [none] = none := by decide +kernel
  have d3 : C12_sparse 0 [some (encSparse C12_b)] = some C12_b := by decide +kernel
  refine ⟨g, hb, ?_, Option.some.inj this⟩
  intro n hn r hr
  simp only [List.mem_cons, List.not_mem_nil, or_false] at hn
  rcases hn with rfl | rfl | rfl | rfl
  · rw [h3, List.mem_singleton] at hr; subst hr
    simp only [d3, HasSparse]
    exact ⟨C12_b_ok, _, Spec.Describes.mat 2 [[7, 8]] [[9]], _,
      convert_describes C12_b_ok (Spec.Describes.mat 2 [[7, 8]] [[9]]), rfl⟩
  · rw [h2, List.mem_singleton] at hr; subst hr
    simp [d2, HasSparse]
  · rw [h1, List.mem_singleton] at hr; subst hr
    simp only [d1, HasSparse]
    exact ⟨C12_a_ok, _, Spec.Describes.mat 2 [[3, 4], [5, 6]] [[1], [2]], _,
      convert_describes C12_a_ok (Spec.Describes.mat 2 [[3, 4], [5, 6]] [[1], [2]]), rfl⟩
  · rw [h4] at hr; simp at hr

/-- Edges with sparse values in two partitions. -/
def C12_edge_example : List (List (List Rec)) :=
  [[[⟨1, 2, 0, 1, none, none, [some (encSparse C12_a)]⟩, ⟨1, 3, 0, 1, none, none, [none]⟩]],
   [[⟨3, 2, 1, 1, none, none, [some (encSparse C12_b)]⟩]]]

/-- Non-vacuity for edges: the hypotheses hold and the reply is the one expected; the last edge does not exist. -/
example : ∃ g, Built intCodec none ⟨0, 1, -1⟩ C12_edge_example g ∧
    (∀ e ∈ [(⟨3, 2, 1⟩ : EdgeId), ⟨1, 3, 0⟩, ⟨1, 2, 0⟩, ⟨3, 2, 0⟩], ∀ f ∈ [0],
      ∀ r ∈ Spec.edgesBetween C12_edge_example e.src e.dst e.typ, HasSparse r.features f (C12_sparse f r.features) ∧
        ∀ x, C12_sparse f r.features = some x → x.dim = 2) ∧
    g.edgeSparse [0] [⟨3, 2, 1⟩, ⟨1, 3, 0⟩, ⟨1, 2, 0⟩, ⟨3, 2, 0⟩] = some [(2, [0, 7, 8, 2, 3, 4, 2, 5, 6], [9, 1, 2])] := by
  obtain ⟨g, hg, hb⟩ := built_of_check (wm := none) (m := ⟨0, 1, -1⟩) (parts := C12_edge_example) (by decide +kernel)
  have this : (graphOf intCodec none ⟨0, 1, -1⟩ C12_edge_example).map
      (fun g => g.edgeSparse [0] [⟨3, 2, 1⟩, ⟨1, 3, 0⟩, ⟨1, 2, 0⟩, ⟨3, 2, 0⟩]) =
      some (some [(2, [0, 7, 8, 2, 3, 4, 2, 5, 6], [9, 1, 2])]) := by decide +kernel
  rw [hg] at this
  have h1 : Spec.edgesBetween C12_edge_example 1 2 0 = [⟨1, 2, 0, 1, none, none, [some (encSparse C12_a)]⟩] := by
    decide +kernel
  have h2 : Spec.edgesBetween C12_edge_example 1 3 0 = [⟨1, 3, 0, 1, none, none, [none]⟩] := by decide +kernel
  have h3 : Spec.edgesBetween C12_edge_example 3 2 1 = [⟨3, 2, 1, 1, none, none, [some (encSparse C12_b)]⟩] := by
    decide +kernel
  have h4 : Spec.edgesBetween C12_edge_example 3 2 0 = [] := by decide +kernel
  have d1 : C12_sparse 0 [some (encSparse C12_a)] = some C12_a := by decide +kernel
  have d2 : C12_sparse 0 [none] = none := by decide +kernel
  have d3 : C12_sparse 0 [some (encSparse C12_b)] = some C12_b := by decide +kernel
  refine ⟨g, hb, ?_, Option.some.inj this⟩
  intro e he f hf r hr
  rw [List.mem_singleton] at hf
  subst hf
  simp only [List.mem_cons, List.not_mem_nil, or_false] at he
  rcases he with rfl | rfl | rfl | rfl
  · rw [h3, List.mem_singleton] at hr; subst hr
    simp only [d3, HasSparse]
    refine ⟨⟨C12_b_ok, _, Spec.Describes.mat 2 [[7, 8]] [[9]], _,
      convert_describes C12_b_ok (Spec.Describes.mat 2 [[7, 8]] [[9]]), rfl⟩, ?_⟩
    rintro x h; cases h; rfl
  · rw [h2, List.mem_singleton] at hr; subst hr
    simp [d2, HasSparse]
  · rw [h1, List.mem_singleton] at hr; subst hr
    simp only [d1, HasSparse]
    refine ⟨⟨C12_a_ok, _, Spec.Describes.mat 2 [[3, 4], [5, 6]] [[1], [2]], _,
      convert_describes C12_a_ok (Spec.Describes.mat 2 [[3, 4], [5, 6]] [[1], [2]]), rfl⟩, ?_⟩
    rintro x h; cases h; rfl
  · rw [h4] at hr; simp at hr

/-- Non-vacuity of the vector shape. -/
example : Spec.Describes (.sparse (.vec [4, 7]) [[1], [2]]) ⟨1, [[4], [7]], [[1], [2]]⟩ ∧
    (⟨1, [[4], [7]], [[1], [2]]⟩ : Sparse).Ok :=
  ⟨Spec.Describes.vec [4, 7] [[1], [2]], ⟨by decide, by decide, by decide, by decide, by decide, by decide⟩⟩

/-- **Refuted** for the remaining accepted shape: one value given with its coordinates as a vector
("both [[a,b]] and [a,b] are ok", writers.py:703).  The dimension is recorded as 1 (708-711), so the one
value comes back with two one-dimensional coordinates instead of one two-dimensional. -/
theorem C12_vector_refuted :
    ∃ (b : Bytes) (g : Graph),
      convertFeature (.sparse (.vec [7, 8]) [[9]]) = some (some b) ∧
      Built intCodec none ⟨1, 0, -1⟩ [[[⟨1, -1, 0, 1, none, none, [some b]⟩]]] g ∧
      g.nodeSparse [0] [1] = some [(1, [0, 7, 0, 8], [9])] := by
  let b := ((convertFeature (.sparse (.vec [7, 8]) [[9]])).join).getD []
  obtain ⟨g, hg, hb⟩ := built_of_check (wm := none) (m := ⟨1, 0, -1⟩)
    (parts := [[[⟨1, -1, 0, 1, none, none, [some b]⟩]]]) (by decide +kernel)
  have this : (graphOf intCodec none ⟨1, 0, -1⟩ [[[⟨1, -1, 0, 1, none, none, [some b]⟩]]]).map
      (fun g => g.nodeSparse [0] [1]) = some (some [(1, [0, 7, 0, 8], [9])]) := by decide +kernel
  rw [hg] at this
  exact ⟨b, g, by decide +kernel, hb, Option.some.inj this⟩

/-- With the matrix form of the same input the value has one two-dimensional coordinate. -/
theorem C12_matrix_form :
    ∃ b, convertFeature (.sparse (.mat 2 [[7, 8]]) [[9]]) = some (some b) ∧
      deserializeSparse b 0 b.length 0 {} = some { dim := 2, indices := [0, 7, 8], values := [9] } := by
  obtain ⟨b, h1, h2⟩ := C12_roundtrip C12_b_ok (Spec.Describes.mat 2 [[7, 8]] [[9]]) [] [] 0 {}
  refine ⟨b, h1, ?_⟩
  simpa [C12_b] using h2

end DeepGNN
