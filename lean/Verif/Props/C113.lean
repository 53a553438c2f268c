import Verif.Proofs.TemporalSparse
import Verif.Props.C12

/-
C113 A sparse feature at a given time is the version in force.
-/

namespace DeepGNN
open Spec (Sparse HasSparseHist InForce)

variable {C : WeightCodec} {wm : Option Nat} {m : Meta} {parts : List (List (List Rec))} {g : Graph}

/-- Node queries: `H f fl` are the versions (creation time and sparse value) of feature `f` in a record with the
features `fl`, and `val f (n, t)` is the version in force at `t` among those of all records of node `n`.  For every
list of nodes (known or not, repeated or not), each with a time, and every list of features, the reply has, per
feature, the coordinates of these values in request order, each behind the position of its node, and the value bytes
in the same order.  Missing: nodes with several records that have different versions, one of them with more than one
coordinate tuple (false, `C113_overwrite_refuted`). -/
theorem C113_nodes_partial (h : Built C wm m parts g) (nodes : List (Int × Int)) (feats : List Nat)
    (H : Nat → List (Option Bytes) → List (Int × Sparse)) (val : Nat → Int × Int → Option Sparse)
    (hH : ∀ x ∈ nodes, ∀ f ∈ feats, ∀ r ∈ Spec.nodeRecords parts x.1, HasSparseHist r.features f (H f r.features))
    (hval : ∀ x ∈ nodes, ∀ f ∈ feats, InForce (Spec.versions H f (Spec.nodeRecords parts x.1)) x.2 (val f x))
    (htimes : ∀ x ∈ nodes, ∀ f ∈ feats, ∀ y ∈ Spec.versions H f (Spec.nodeRecords parts x.1),
      ∀ z ∈ Spec.versions H f (Spec.nodeRecords parts x.1), y.1 = z.1 → y = z)
    (hone : ∀ x ∈ nodes, ∀ f ∈ feats,
      (∀ y ∈ Spec.versions H f (Spec.nodeRecords parts x.1), y.2.coords.length = 1) ∨
      ∀ r ∈ Spec.nodeRecords parts x.1, ∀ r' ∈ Spec.nodeRecords parts x.1, H f r.features = H f r'.features)
    (dim : Nat → Nat) (hdim : ∀ x ∈ nodes, ∀ f ∈ feats, ∀ v, val f x = some v → v.dim = dim f) :
    g.nodeSparseAt feats nodes = some (feats.map fun f =>
      (if ∃ x ∈ nodes, (val f x).isSome then dim f else 0,
       nodes.zipIdx.flatMap fun (x, i) => match val f x with
         | none => []
         | some v => v.coords.flatMap fun row => (i : Int) :: row,
       nodes.flatMap fun x => match val f x with
         | none => []
         | some v => v.values.flatten)) := by
  obtain ⟨items, hg, hc⟩ := h.graphOk
  obtain ⟨ss', h1, h2⟩ := hg.nodeSparseAtLoop (fun it hit => (hc it hit).1) feats H val nodes hH hone htimes hval 0
    (List.replicate feats.length ({}, 0)) (by simp)
  rw [Graph.nodeSparseAt, h1, Option.map_some]
  refine congrArg some (Eq.trans ?_ (sparse_reply val nodes feats dim hdim))
  have h3 : (ss'.map fun s => (s.1.dim, s.1.indices, s.1.values)) = ss'.map fun s => s.1.out := rfl
  rw [h3, h2, List.map_zipWith]
  have h4 : (List.replicate feats.length (({}, 0) : SparseState × Nat)).map (·.1) =
      List.replicate feats.length ({} : SparseState) := by simp
  rw [← h4, List.zipWith_map_right]
  rfl

/-- Edge queries, for edges given at most once.  Missing: edges with several records (false,
`C113_edges_refuted`). -/
theorem C113_edges_partial (h : Built C wm m parts g) (edges : List (EdgeId × Int)) (feats : List Nat)
    (H : Nat → List (Option Bytes) → List (Int × Sparse)) (val : Nat → EdgeId × Int → Option Sparse)
    (hH : ∀ x ∈ edges, ∀ f ∈ feats, ∀ r ∈ Spec.edgesBetween parts x.1.src x.1.dst x.1.typ,
      HasSparseHist r.features f (H f r.features))
    (hval : ∀ x ∈ edges, ∀ f ∈ feats,
      InForce (Spec.versions H f (Spec.edgesBetween parts x.1.src x.1.dst x.1.typ)) x.2 (val f x))
    (htimes : ∀ x ∈ edges, ∀ f ∈ feats, ∀ y ∈ Spec.versions H f (Spec.edgesBetween parts x.1.src x.1.dst x.1.typ),
      ∀ z ∈ Spec.versions H f (Spec.edgesBetween parts x.1.src x.1.dst x.1.typ), y.1 = z.1 → y = z)
    (hone : ∀ x ∈ edges, (Spec.edgesBetween parts x.1.src x.1.dst x.1.typ).length ≤ 1)
    (dim : Nat → Nat) (hdim : ∀ x ∈ edges, ∀ f ∈ feats, ∀ v, val f x = some v → v.dim = dim f) :
    g.edgeSparseAt feats edges = some (feats.map fun f =>
      (if ∃ x ∈ edges, (val f x).isSome then dim f else 0,
       edges.zipIdx.flatMap fun (x, i) => match val f x with
         | none => []
         | some v => v.coords.flatMap fun row => (i : Int) :: row,
       edges.flatMap fun x => match val f x with
         | none => []
         | some v => v.values.flatten)) := by
  obtain ⟨items, hg, hc⟩ := h.graphOk
  obtain ⟨ss', h1, h2⟩ := hg.edgeSparseAtLoop (fun it hit => (hc it hit).2) feats H val edges hH hone htimes hval 0
    (List.replicate feats.length {}) (by simp)
  rw [Graph.edgeSparseAt, h1, Option.map_some]
  refine congrArg some (Eq.trans ?_ (sparse_reply val edges feats dim hdim))
  have h3 : (ss'.map fun s => (s.dim, s.indices, s.values)) = ss'.map SparseState.out := rfl
  rw [h3, h2, List.map_zipWith]
  rfl

/-- Sparse features as the converter stores them (without a history) cannot be read at a time: wherever such a value
with at most 8 bytes per coordinate is the last one in the feature file, the lookup takes the number of coordinates
for a number of versions and reads past the end of the file, at every time. -/
theorem C113_plain_refuted {x : Sparse} (hx : x.Ok) {raw : RawFeature} (hr : Spec.Describes raw x) {b : Bytes}
    (hb : convertFeature raw = some (some b)) (hv : x.values.flatten.length ≤ 8 * (x.dim * x.coords.length))
    (pre : Bytes) (t : Int) : deserializeTemporal (pre ++ b) pre.length t = none := by
  rw [convert_describes hx hr, Option.some.injEq, Option.some.injEq] at hb
  subst hb
  have hne : 0 < x.coords.length := by rw [hx.count]; exact List.length_pos_iff.2 hx.nonempty
  have hm : 0 < x.dim * x.coords.length := Nat.mul_pos hx.dim_pos hne
  have hlen : (encSparse x).length = 8 + 8 * (x.dim * x.coords.length) + x.values.flatten.length := by
    simp only [encSparse, List.length_append, cU32, length_leBytes, length_encCoords, length_flatten_rows hx.rows]
  have r1 : readAt (pre ++ encSparse x) pre.length 4 = some (cU32 (x.dim * x.coords.length)) := by
    have := readAt_exact pre (cU32 (x.dim * x.coords.length)) (cU32 x.dim ++ encCoords x.coords.flatten ++ x.values.flatten)
    simpa [cU32, encSparse] using this
  have n1 : leNat (cU32 (x.dim * x.coords.length)) = x.dim * x.coords.length := by
    have := hx.size
    rw [cU32, leNat_leBytes]; omega
  rw [deserializeTemporal, r1, Option.bind_some]
  simp only [n1]
  rw [if_neg (by omega), readAt, if_neg (by rw [List.length_append, hlen]; omega)]
  rfl

/-- Versions: one tuple at 3, two at 5, one at 8. -/
def C113_old : Sparse := ⟨2, [[1, 2]], [[4]]⟩
def C113_hist : List (Int × Sparse) := [(5, C12_a), (3, C113_old)]
def C113_new : List (Int × Sparse) := [(8, C12_b)]
def C113_bytes (l : List (Int × Sparse)) : Bytes := serializeTemporal (l.map fun x => (x.1, encSparse x.2))
/-- The versions in a record. -/
def C113_H (_ : Nat) (fl : List (Option Bytes)) : List (Int × Sparse) :=
  if fl = [some (C113_bytes C113_hist)] then C113_hist
  else if fl = [some (C113_bytes C113_new)] then C113_new
  else if fl = [some (C113_bytes [(3, C113_old)])] then [(3, C113_old)] else []

theorem C113_old_ok : C113_old.Ok := ⟨by decide, by decide, by decide, by decide, by decide, by decide⟩

theorem C113_has {hist : List (Int × Sparse)} (h : ∀ x ∈ hist, x.2.Ok)
    (hh : Spec.HistOk (hist.map fun x => (x.1, encSparse x.2))) : HasSparseHist [some (C113_bytes hist)] 0 hist :=
  Or.inr ⟨encSparse, fun x hx => ⟨h x hx, _, Spec.Describes.mat x.2.dim x.2.coords x.2.values,
    convert_describes (h x hx) (Spec.Describes.mat x.2.dim x.2.coords x.2.values)⟩, rfl, hh⟩

theorem C113_has_hist : HasSparseHist [some (C113_bytes C113_hist)] 0 C113_hist :=
  C113_has (by
    intro x hx
    simp only [C113_hist, List.mem_cons, List.not_mem_nil, or_false] at hx
    rcases hx with rfl | rfl
    · exact C12_a_ok
    · exact C113_old_ok) ⟨by decide +kernel, by decide +kernel, by decide +kernel⟩
theorem C113_has_new : HasSparseHist [some (C113_bytes C113_new)] 0 C113_new :=
  C113_has (by
    intro x hx
    simp only [C113_new, List.mem_cons, List.not_mem_nil, or_false] at hx
    subst hx
    exact C12_b_ok) ⟨by decide +kernel, by decide +kernel, by decide +kernel⟩
theorem C113_has_old : HasSparseHist [some (C113_bytes [(3, C113_old)])] 0 [(3, C113_old)] :=
  C113_has (by
    intro x hx
    simp only [List.mem_cons, List.not_mem_nil, or_false] at hx
    subst hx
    exact C113_old_ok) ⟨by decide +kernel, by decide +kernel, by decide +kernel⟩

/-- Node 1 in two partitions, with versions of one tuple; node 2 in one, with versions of one and two tuples. -/
def C113_example : List (List (List Rec)) :=
  [[[⟨1, -1, 0, 1, none, none, [some (C113_bytes [(3, C113_old)])]⟩,
     ⟨2, -1, 0, 1, none, none, [some (C113_bytes C113_hist)]⟩]],
   [[⟨1, -1, 0, 1, none, none, [some (C113_bytes C113_new)]⟩]]]

/-- Non-vacuity: the histories are as required, and the replies at the times 7, 9 and 2 are the versions in force. -/
example : ∃ g, Built intCodec (some 9) ⟨1, 0, 9⟩ C113_example g ∧
    (∀ n ∈ [(1 : Int), 2], ∀ r ∈ Spec.nodeRecords C113_example n, HasSparseHist r.features 0 (C113_H 0 r.features)) ∧
    Spec.versions C113_H 0 (Spec.nodeRecords C113_example 1) = [(3, C113_old), (8, C12_b)] ∧
    Spec.versions C113_H 0 (Spec.nodeRecords C113_example 2) = C113_hist ∧
    g.nodeSparseAt [0] [(1, 7), (2, 7), (1, 9), (1, 2), (2, 4)] =
      some [(2, [0, 1, 2, 1, 3, 4, 1, 5, 6, 2, 7, 8, 4, 1, 2], [4, 1, 2, 9, 4])] := by
  obtain ⟨g, hg, hb⟩ := built_of_check (wm := some 9) (m := ⟨1, 0, 9⟩) (parts := C113_example) (by decide +kernel)
  have this : (graphOf intCodec (some 9) ⟨1, 0, 9⟩ C113_example).bind
      (fun g => g.nodeSparseAt [0] [(1, 7), (2, 7), (1, 9), (1, 2), (2, 4)]) =
      some [(2, [0, 1, 2, 1, 3, 4, 1, 5, 6, 2, 7, 8, 4, 1, 2], [4, 1, 2, 9, 4])] := by decide +kernel
  rw [hg, Option.bind_some] at this
  refine ⟨g, hb, ?_, by decide +kernel, by decide +kernel, this⟩
  have h1 : Spec.nodeRecords C113_example 1 =
      [⟨1, -1, 0, 1, none, none, [some (C113_bytes [(3, C113_old)])]⟩,
       ⟨1, -1, 0, 1, none, none, [some (C113_bytes C113_new)]⟩] := by decide +kernel
  have h2 : Spec.nodeRecords C113_example 2 = [⟨2, -1, 0, 1, none, none, [some (C113_bytes C113_hist)]⟩] := by
    decide +kernel
  have d1 : C113_H 0 [some (C113_bytes [(3, C113_old)])] = [(3, C113_old)] := by decide +kernel
  have d2 : C113_H 0 [some (C113_bytes C113_new)] = C113_new := by decide +kernel
  have d3 : C113_H 0 [some (C113_bytes C113_hist)] = C113_hist := by decide +kernel
  intro n hn r hr
  simp only [List.mem_cons, List.not_mem_nil, or_false] at hn
  rcases hn with rfl | rfl
  · rw [h1] at hr
    simp only [List.mem_cons, List.not_mem_nil, or_false] at hr
    rcases hr with rfl | rfl
    · rw [d1]; exact C113_has_old
    · rw [d2]; exact C113_has_new
  · rw [h2, List.mem_singleton] at hr
    subst hr
    rw [d3]; exact C113_has_hist

/-- Node 2 in two partitions; the older version has two tuples. -/
def C113_two : List (List (List Rec)) :=
  [[[⟨2, -1, 0, 1, none, none, [some (C113_bytes C113_hist)]⟩]],
   [[⟨2, -1, 0, 1, none, none, [some (C113_bytes C113_new)]⟩]]]

/-- If the older version has two tuples, replacing it removes only one of them: at time 9 the version in force is
that of time 8 with one tuple and one value, the reply has two tuples and one value, and the first tuple belongs to
the replaced version. -/
theorem C113_overwrite_refuted : ∃ g, Built intCodec (some 9) ⟨1, 0, 9⟩ C113_two g ∧
    (∀ r ∈ Spec.nodeRecords C113_two 2, HasSparseHist r.features 0 (C113_H 0 r.features)) ∧
    InForce (Spec.versions C113_H 0 (Spec.nodeRecords C113_two 2)) 9 (some ⟨2, [[7, 8]], [[9]]⟩) ∧
    g.nodeSparseAt [0] [(2, 9)] = some [(2, [0, 3, 4, 0, 7, 8], [9])] := by
  obtain ⟨g, hg, hb⟩ := built_of_check (wm := some 9) (m := ⟨1, 0, 9⟩) (parts := C113_two) (by decide +kernel)
  have this : (graphOf intCodec (some 9) ⟨1, 0, 9⟩ C113_two).bind (fun g => g.nodeSparseAt [0] [(2, 9)]) =
      some [(2, [0, 3, 4, 0, 7, 8], [9])] := by decide +kernel
  rw [hg, Option.bind_some] at this
  have h1 : Spec.nodeRecords C113_two 2 = [⟨2, -1, 0, 1, none, none, [some (C113_bytes C113_hist)]⟩,
       ⟨2, -1, 0, 1, none, none, [some (C113_bytes C113_new)]⟩] := by decide +kernel
  have d2 : C113_H 0 [some (C113_bytes C113_new)] = C113_new := by decide +kernel
  have d3 : C113_H 0 [some (C113_bytes C113_hist)] = C113_hist := by decide +kernel
  refine ⟨g, hb, ?_, ?_, this⟩
  · intro r hr
    rw [h1] at hr
    simp only [List.mem_cons, List.not_mem_nil, or_false] at hr
    rcases hr with rfl | rfl
    · rw [d3]; exact C113_has_hist
    · rw [d2]; exact C113_has_new
  · have hv : Spec.versions C113_H 0 (Spec.nodeRecords C113_two 2) = [(5, C12_a), (3, C113_old), (8, C12_b)] := by
      decide +kernel
    rw [hv]
    exact ⟨8, by simp [C12_b], by decide, by decide⟩

/-- One edge in one partition, and the same edge in two partitions. -/
def C113_edge : List (List (List Rec)) :=
  [[[⟨2, -1, 0, 1, none, none, []⟩, ⟨2, 3, 0, 1, none, none, [some (C113_bytes C113_hist)]⟩]]]
def C113_edge_two : List (List (List Rec)) :=
  [[[⟨2, -1, 0, 1, none, none, []⟩, ⟨2, 3, 0, 1, none, none, [some (C113_bytes C113_hist)]⟩]],
   [[⟨2, -1, 0, 1, none, none, []⟩, ⟨2, 3, 0, 1, none, none, [some (C113_bytes C113_new)]⟩]]]

/-- Non-vacuity for edges: the reply at 4, at 7 and, for an unknown edge, nothing. -/
example : ∃ g, Built intCodec (some 9) ⟨0, 1, 9⟩ C113_edge g ∧
    (Spec.edgesBetween C113_edge 2 3 0).length = 1 ∧
    (∀ r ∈ Spec.edgesBetween C113_edge 2 3 0, HasSparseHist r.features 0 (C113_H 0 r.features)) ∧
    g.edgeSparseAt [0] [(⟨2, 3, 0⟩, 4), (⟨2, 4, 0⟩, 7), (⟨2, 3, 0⟩, 7)] =
      some [(2, [0, 1, 2, 2, 3, 4, 2, 5, 6], [4, 1, 2])] := by
  obtain ⟨g, hg, hb⟩ := built_of_check (wm := some 9) (m := ⟨0, 1, 9⟩) (parts := C113_edge) (by decide +kernel)
  have this : (graphOf intCodec (some 9) ⟨0, 1, 9⟩ C113_edge).bind
      (fun g => g.edgeSparseAt [0] [(⟨2, 3, 0⟩, 4), (⟨2, 4, 0⟩, 7), (⟨2, 3, 0⟩, 7)]) =
      some [(2, [0, 1, 2, 2, 3, 4, 2, 5, 6], [4, 1, 2])] := by decide +kernel
  rw [hg, Option.bind_some] at this
  have h1 : Spec.edgesBetween C113_edge 2 3 0 = [⟨2, 3, 0, 1, none, none, [some (C113_bytes C113_hist)]⟩] := by
    decide +kernel
  have d3 : C113_H 0 [some (C113_bytes C113_hist)] = C113_hist := by decide +kernel
  refine ⟨g, hb, by rw [h1]; rfl, ?_, this⟩
  intro r hr
  rw [h1, List.mem_singleton] at hr
  subst hr
  rw [d3]; exact C113_has_hist

/-- An edge with records in two partitions: the replaced version is not removed at all, the reply at 9 has the values
of both versions. -/
theorem C113_edges_refuted : ∃ g, Built intCodec (some 9) ⟨0, 1, 9⟩ C113_edge_two g ∧
    (∀ r ∈ Spec.edgesBetween C113_edge_two 2 3 0, HasSparseHist r.features 0 (C113_H 0 r.features)) ∧
    InForce (Spec.versions C113_H 0 (Spec.edgesBetween C113_edge_two 2 3 0)) 9 (some ⟨2, [[7, 8]], [[9]]⟩) ∧
    g.edgeSparseAt [0] [(⟨2, 3, 0⟩, 9)] = some [(2, [0, 3, 4, 0, 5, 6, 0, 7, 8], [1, 2, 9])] := by
  obtain ⟨g, hg, hb⟩ := built_of_check (wm := some 9) (m := ⟨0, 1, 9⟩) (parts := C113_edge_two) (by decide +kernel)
  have this : (graphOf intCodec (some 9) ⟨0, 1, 9⟩ C113_edge_two).bind
      (fun g => g.edgeSparseAt [0] [(⟨2, 3, 0⟩, 9)]) =
      some [(2, [0, 3, 4, 0, 5, 6, 0, 7, 8], [1, 2, 9])] := by decide +kernel
  rw [hg, Option.bind_some] at this
  have h1 : Spec.edgesBetween C113_edge_two 2 3 0 = [⟨2, 3, 0, 1, none, none, [some (C113_bytes C113_hist)]⟩,
       ⟨2, 3, 0, 1, none, none, [some (C113_bytes C113_new)]⟩] := by decide +kernel
  have d2 : C113_H 0 [some (C113_bytes C113_new)] = C113_new := by decide +kernel
  have d3 : C113_H 0 [some (C113_bytes C113_hist)] = C113_hist := by decide +kernel
  refine ⟨g, hb, ?_, ?_, this⟩
  · intro r hr
    rw [h1] at hr
    simp only [List.mem_cons, List.not_mem_nil, or_false] at hr
    rcases hr with rfl | rfl
    · rw [d3]; exact C113_has_hist
    · rw [d2]; exact C113_has_new
  · have hv : Spec.versions C113_H 0 (Spec.edgesBetween C113_edge_two 2 3 0) =
        [(5, C12_a), (3, C113_old), (8, C12_b)] := by decide +kernel
    rw [hv]
    exact ⟨8, by simp [C12_b], by decide, by decide⟩

/-- Non-vacuity of `C113_plain_refuted`: one tuple of two coordinates with a value of one byte. -/
example (pre : Bytes) (t : Int) : deserializeTemporal (pre ++ encSparse C12_b) pre.length t = none :=
  C113_plain_refuted C12_b_ok (Spec.Describes.mat 2 [[7, 8]] [[9]])
    (convert_describes C12_b_ok (Spec.Describes.mat 2 [[7, 8]] [[9]])) (by decide) pre t

end DeepGNN
