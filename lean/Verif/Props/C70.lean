import Verif.Proofs.Storage
import Verif.Props.C10
import Verif.Props.C12
import Verif.Props.C58

/-
C70 Features kept on disk are the features kept in memory.
-/

namespace DeepGNN

open Storage
open Spec

variable {C : WeightCodec} {wm : Option Nat} {m : Meta} {parts : List (List (List Rec))} {g : Graph}

/-- Features of nodes, with or without times. As long as no feature file is larger than 2 GiB, whatever a query
answers with the features on disk, it answers with the features in memory: dense values, strings and sparse values,
for all nodes, times and features asked for. -/
theorem C70_nodes_never_wrong_partial (h : Built C wm m parts g) (hs : Spec.FilesUpTo2G parts) :
    (∀ nodes ts feats out v, Storage.nodeFeature .disk g nodes ts feats out = some v →
      g.nodeFeature nodes ts feats out = some v) ∧
    (∀ feats q out v, Storage.nodeString .disk g feats q out = some v → g.nodeString feats q out = some v) ∧
    ∀ feats nodes v, Storage.nodeSparse .disk g feats nodes = some v → g.nodeSparse feats nodes = some v := by
  obtain ⟨items, hg, -⟩ := h.graphOk
  refine ⟨fun nodes ts feats out v hv => ?_, fun feats q out v hv => ?_, fun feats nodes v hv => ?_⟩
  · rw [← memory_nodeFeature]; exact nodeFeature_never hg hs nodes ts feats out v hv
  · rw [← memory_nodeString]; exact nodeString_never hg hs feats q out v hv
  · rw [← memory_nodeSparse]; exact nodeSparse_never hg hs feats nodes v hv

/-- The same for features of edges. -/
theorem C70_edges_never_wrong_partial (h : Built C wm m parts g) (hs : Spec.FilesUpTo2G parts) :
    (∀ edges ts feats v, Storage.edgeFeature .disk g edges ts feats = some v →
      g.edgeFeature edges ts feats = some v) ∧
    (∀ feats q out v, Storage.edgeString .disk g feats q out = some v → g.edgeString feats q out = some v) ∧
    ∀ feats edges v, Storage.edgeSparse .disk g feats edges = some v → g.edgeSparse feats edges = some v := by
  obtain ⟨items, hg, -⟩ := h.graphOk
  refine ⟨fun edges ts feats v hv => ?_, fun feats q out v hv => ?_, fun feats edges v hv => ?_⟩
  · rw [← memory_edgeFeature]; exact edgeFeature_never hg hs edges ts feats v hv
  · rw [← memory_edgeString]; exact edgeString_never hg hs feats q out v hv
  · rw [← memory_edgeSparse]; exact edgeSparse_never hg hs feats edges v hv

/-- Dense features: if no file is larger than 2 GiB and in no partition the last feature is empty, the answers on disk
are those in memory. -/
theorem C70_dense_partial (h : Built C wm m parts g) (hs : Spec.FilesUpTo2G parts)
    (hl : ∀ c ∈ parts, Spec.EndsNonEmpty (Spec.nodeSlots c) ∧ Spec.EndsNonEmpty (Spec.edgeSlots c)) :
    (∀ nodes feats out, Storage.nodeFeature .disk g nodes none feats out = g.nodeFeature nodes none feats out) ∧
    ∀ edges feats, Storage.edgeFeature .disk g edges none feats = g.edgeFeature edges none feats := by
  obtain ⟨items, hg, -⟩ := h.graphOk
  refine ⟨fun nodes feats out => ?_, fun edges feats => ?_⟩
  · rw [← memory_nodeFeature]
    exact (nodeFeature_never hg hs _ _ _ _).antisymm (nodeFeature_now hg hs (fun c hc => (hl c hc).1) _ _ _)
  · rw [← memory_edgeFeature]
    exact (edgeFeature_never hg hs _ _ _).antisymm (edgeFeature_now hg hs (fun c hc => (hl c hc).2) _ _)

/-- Dense features at given times: if the features asked for are histories of values written by the converter (or
missing), the answers on disk are those in memory. -/
theorem C70_dense_times_partial (h : Built C wm m parts g) (hs : Spec.FilesUpTo2G parts) (ts : List Int)
    (feats : List (Nat × Nat)) :
    (∀ nodes out, (∀ n ∈ nodes, ∀ f ∈ feats, ∀ r ∈ Spec.nodeRecords parts n,
        ∃ hist, Spec.HasHist r.features f.1 hist) →
      Storage.nodeFeature .disk g nodes (some ts) feats out = g.nodeFeature nodes (some ts) feats out) ∧
    ∀ edges, (∀ e ∈ edges, ∀ f ∈ feats, ∀ r ∈ Spec.edgesBetween parts e.src e.dst e.typ,
        ∃ hist, Spec.HasHist r.features f.1 hist) →
      Storage.edgeFeature .disk g edges (some ts) feats = g.edgeFeature edges (some ts) feats := by
  obtain ⟨items, hg, hc⟩ := h.graphOk
  refine ⟨fun nodes out hH => ?_, fun edges hH => ?_⟩
  · rw [← memory_nodeFeature]
    exact (nodeFeature_never hg hs _ _ _ _).antisymm (nodeFeature_at hg hs _ _ _ _ hH)
  · rw [← memory_edgeFeature]
    exact (edgeFeature_never hg hs _ _ _).antisymm
      (edgeFeature_at hg hs (fun it hit => (hc it hit).2) _ _ _ hH)

/-- Strings: the answers on disk are those in memory, also for empty strings; where times are given, the features
asked for have to be histories. -/
theorem C70_strings_partial (h : Built C wm m parts g) (hs : Spec.FilesUpTo2G parts) (feats : List Nat) (out : Bytes) :
    (∀ q, (∀ x ∈ q, x.2 ≠ none → ∀ f ∈ feats, ∀ r ∈ Spec.nodeRecords parts x.1,
        ∃ hist, Spec.HasHist r.features f hist) →
      Storage.nodeString .disk g feats q out = g.nodeString feats q out) ∧
    ∀ q, (∀ x ∈ q, x.2 ≠ none → ∀ f ∈ feats, ∀ r ∈ Spec.edgesBetween parts x.1.src x.1.dst x.1.typ,
        ∃ hist, Spec.HasHist r.features f hist) →
      Storage.edgeString .disk g feats q out = g.edgeString feats q out := by
  obtain ⟨items, hg, hc⟩ := h.graphOk
  refine ⟨fun q hH => ?_, fun q hH => ?_⟩
  · rw [← memory_nodeString]
    exact (nodeString_never hg hs _ _ _).antisymm (nodeString_all hg hs _ _ _ hH)
  · rw [← memory_edgeString]
    exact (edgeString_never hg hs _ _ _).antisymm
      (edgeString_all hg hs (fun it hit => (hc it hit).2) _ _ _ hH)

/-- Sparse features: if the features asked for are sparse values with a value of at least one byte (or missing), the
answers on disk are those in memory. -/
theorem C70_sparse_partial (h : Built C wm m parts g) (hs : Spec.FilesUpTo2G parts) (feats : List Nat) :
    (∀ nodes, (∀ n ∈ nodes, ∀ f ∈ feats, ∀ r ∈ Spec.nodeRecords parts n, ∃ x, Spec.HasSparse r.features f x ∧
        ∀ y, x = some y → y.values.flatten ≠ []) →
      Storage.nodeSparse .disk g feats nodes = g.nodeSparse feats nodes) ∧
    ∀ edges, (∀ e ∈ edges, ∀ f ∈ feats, ∀ r ∈ Spec.edgesBetween parts e.src e.dst e.typ, ∃ x,
        Spec.HasSparse r.features f x ∧ ∀ y, x = some y → y.values.flatten ≠ []) →
      Storage.edgeSparse .disk g feats edges = g.edgeSparse feats edges := by
  obtain ⟨items, hg, hc⟩ := h.graphOk
  refine ⟨fun nodes hH => ?_, fun edges hH => ?_⟩
  · rw [← memory_nodeSparse]
    exact (nodeSparse_never hg hs _ _).antisymm (nodeSparse_all hg hs _ _ hH)
  · rw [← memory_edgeSparse]
    exact (edgeSparse_never hg hs _ _).antisymm
      (edgeSparse_all hg hs (fun it hit => (hc it hit).2) _ _ hH)

/-- Two partitions with features of nodes and edges, one of them empty. -/
def C70_example : List (List (List Rec)) :=
  [[[⟨1, -1, 0, 1, none, none, [some [1, 2], some []]⟩, ⟨1, 2, 0, 1, none, none, [some [3]]⟩,
     ⟨2, -1, 0, 1, none, none, [some [], some [4]]⟩]],
   [[⟨3, -1, 0, 1, none, none, [some [5, 6, 7]]⟩]]]

/-- Non-vacuity: the hypotheses of the theorems hold for a graph with dense features and strings, ... -/
example : ∃ g, Built intCodec none ⟨2, 1, -1⟩ C70_example g ∧ Spec.FilesUpTo2G C70_example ∧
    (∀ c ∈ C70_example, Spec.EndsNonEmpty (Spec.nodeSlots c) ∧ Spec.EndsNonEmpty (Spec.edgeSlots c)) ∧
    Storage.nodeFeature .disk g [2, 9, 1, 3] none [(0, 2), (1, 1)] (List.replicate 12 0) =
      some [0, 0, 4, 0, 0, 0, 1, 2, 0, 5, 6, 0] ∧
    Storage.edgeFeature .disk g [⟨1, 2, 0⟩] none [(0, 2)] = some [3, 0] ∧
    Storage.nodeString .disk g [1, 0] [(2, none), (1, none)] [] = some ([1, 0, 0, 2], [4, 1, 2]) := by
  obtain ⟨g, hg, hb⟩ := built_of_check (wm := none) (m := ⟨2, 1, -1⟩) (parts := C70_example) (by decide +kernel)
  have this : (graphOf intCodec none ⟨2, 1, -1⟩ C70_example).map (fun g =>
      (Storage.nodeFeature .disk g [2, 9, 1, 3] none [(0, 2), (1, 1)] (List.replicate 12 0),
       Storage.edgeFeature .disk g [⟨1, 2, 0⟩] none [(0, 2)],
       Storage.nodeString .disk g [1, 0] [(2, none), (1, none)] [])) =
      some (some [0, 0, 4, 0, 0, 0, 1, 2, 0, 5, 6, 0], some [3, 0], some ([1, 0, 0, 2], [4, 1, 2])) := by
    decide +kernel
  rw [hg] at this
  obtain ⟨e1, e2⟩ := Prod.mk.inj (Option.some.inj this)
  obtain ⟨e2, e3⟩ := Prod.mk.inj e2
  refine ⟨g, hb, ?_, ?_, e1, e2, e3⟩
  · intro c hc
    simp only [C70_example, List.mem_cons, List.not_mem_nil, or_false] at hc
    rcases hc with rfl | rfl <;> decide +kernel
  · intro c hc
    simp only [C70_example, List.mem_cons, List.not_mem_nil, or_false] at hc
    rcases hc with rfl | rfl <;>
      constructor <;> intro v hv <;> simp [Spec.nodeSlots, Spec.edgeSlots] at hv <;> subst hv <;> simp

/-- ... with histories, ... -/
example : ∃ g, Built intCodec (some 30) ⟨1, 1, 30⟩ C10_example g ∧ Spec.FilesUpTo2G C10_example ∧
    [9, 14, 15, 19, 25].mapM (fun t => Storage.nodeFeature .disk g [1] (some [t]) [(0, 2)] [0, 0]) =
      some [[0, 0], [1, 0], [3, 0], [3, 0], [2, 2]] ∧
    [4, 5, 8, 9].mapM (fun t => Storage.edgeFeature .disk g [⟨1, 2, 0⟩] (some [t]) [(0, 1)]) =
      some [[0], [7], [7], [8]] := by
  obtain ⟨g, hg, hb⟩ := built_of_check (wm := some 30) (m := ⟨1, 1, 30⟩) (parts := C10_example) (by decide +kernel)
  have this : (graphOf intCodec (some 30) ⟨1, 1, 30⟩ C10_example).map (fun g =>
      ([9, 14, 15, 19, 25].mapM (fun t => Storage.nodeFeature .disk g [1] (some [t]) [(0, 2)] [0, 0]),
       [4, 5, 8, 9].mapM (fun t => Storage.edgeFeature .disk g [⟨1, 2, 0⟩] (some [t]) [(0, 1)]))) =
      some (some [[0, 0], [1, 0], [3, 0], [3, 0], [2, 2]], some [[0], [7], [7], [8]]) := by decide +kernel
  rw [hg] at this
  obtain ⟨e1, e2⟩ := Prod.mk.inj (Option.some.inj this)
  refine ⟨g, hb, ?_, e1, e2⟩
  intro c hc
  simp only [C10_example, List.mem_cons, List.not_mem_nil, or_false] at hc
  rcases hc with rfl | rfl <;> decide +kernel

/-- ... and with sparse values. -/
example : ∃ g, Built intCodec none ⟨1, 0, -1⟩ C12_example g ∧ Spec.FilesUpTo2G C12_example ∧
    (∀ n ∈ [3, 2, 1, 8], ∀ f ∈ [0], ∀ r ∈ Spec.nodeRecords C12_example n, ∃ x, Spec.HasSparse r.features f x ∧
      ∀ y, x = some y → y.values.flatten ≠ []) ∧
    Storage.nodeSparse .disk g [0] [3, 2, 1, 8] = some [(2, [0, 7, 8, 2, 3, 4, 2, 5, 6], [9, 1, 2])] := by
  obtain ⟨g, hg, hb⟩ := built_of_check (wm := none) (m := ⟨1, 0, -1⟩) (parts := C12_example)
    (by decide +kernel)
  have this : (graphOf intCodec none ⟨1, 0, -1⟩ C12_example).map (fun g => Storage.nodeSparse .disk g [0] [3, 2, 1, 8]) =
      some (some [(2, [0, 7, 8, 2, 3, 4, 2, 5, 6], [9, 1, 2])]) := by decide +kernel
  rw [hg] at this
  have hr : ∀ n ∈ [3, 2, 1, 8], ∀ r ∈ Spec.nodeRecords C12_example n, r.features = [some (encSparse C12_a)] ∨
      r.features = [none] ∨ r.features = [some (encSparse C12_b)] := by decide +kernel
  refine ⟨g, hb, ?_, ?_, Option.some.inj this⟩
  · intro c hc
    simp only [C12_example, List.mem_cons, List.not_mem_nil, or_false] at hc
    rcases hc with rfl | rfl <;> decide +kernel
  · intro n hn f hf r hr'
    rw [List.mem_singleton.1 hf]
    rcases hr n hn r hr' with e | e | e <;> rw [e]
    · exact ⟨some C12_a, ⟨C12_a_ok, _, .mat _ _ _, _, convert_describes C12_a_ok (.mat _ _ _), rfl⟩,
        fun y hy => by cases hy; decide⟩
    · exact ⟨none, rfl, fun y hy => by cases hy⟩
    · exact ⟨some C12_b, ⟨C12_b_ok, _, .mat _ _ _, _, convert_describes C12_b_ok (.mat _ _ _), rfl⟩,
        fun y hy => by cases hy; decide⟩

/-- **Refuted** where the last feature of a partition is empty: with the features in memory the value is filled with
zeros, as that of any other empty feature, but on disk the query throws (`DiskStorage::read` refuses the offset, which
is the size of the file, although no bytes are to be read) and the exception ends the process. -/
theorem C70_empty_refuted : ∃ g, Built intCodec none ⟨1, 0, -1⟩
      [[[⟨1, -1, 0, 1, none, none, [some [1]]⟩, ⟨2, -1, 0, 1, none, none, [some []]⟩]]] g ∧
    g.nodeFeature [2] none [(0, 1)] [0] = some [0] ∧
    Storage.nodeFeature .disk g [2] none [(0, 1)] [0] = none ∧
    Storage.nodeFeature .disk g [1] none [(0, 1)] [0] = some [1] := by
  obtain ⟨g, hg, hb⟩ := built_of_check (wm := none) (m := ⟨1, 0, -1⟩)
    (parts := [[[⟨1, -1, 0, 1, none, none, [some [1]]⟩, ⟨2, -1, 0, 1, none, none, [some []]⟩]]]) (by decide +kernel)
  have this : (graphOf intCodec none ⟨1, 0, -1⟩
      [[[⟨1, -1, 0, 1, none, none, [some [1]]⟩, ⟨2, -1, 0, 1, none, none, [some []]⟩]]]).map (fun g =>
      (g.nodeFeature [2] none [(0, 1)] [0], Storage.nodeFeature .disk g [2] none [(0, 1)] [0],
       Storage.nodeFeature .disk g [1] none [(0, 1)] [0])) = some (some [0], none, some [1]) := by decide +kernel
  rw [hg] at this
  obtain ⟨e1, e2⟩ := Prod.mk.inj (Option.some.inj this)
  obtain ⟨e2, e3⟩ := Prod.mk.inj e2
  exact ⟨g, hb, e1, e2, e3⟩

/-- A graph of two nodes; the feature of the first one fills 4 GiB. -/
def C70_large (z : Bytes) : List (List (List Rec)) :=
  [[[⟨0, -1, 0, 1, none, none, [some z]⟩, ⟨1, -1, 0, 1, none, none, [some [7]]⟩]]]

theorem C70_large_aux (z : Bytes) (hz : z.length = 2 ^ 32) (h0 : z.take 1 = [0]) :
    ∃ g, Built intCodec none ⟨1, 0, -1⟩ (C70_large z) g ∧
      g.nodeFeature [1] none [(0, 1)] [0] = some [7] ∧
      Storage.nodeFeature .disk g [1] none [(0, 1)] [0] = some [0] := by
  have hsz : inputSize [[(⟨0, -1, 0, 1, none, none, [some z]⟩ : Rec), ⟨1, -1, 0, 1, none, none, [some [7]]⟩]] =
      z.length + 65 := by
    simp [inputSize, recordSize]; omega
  obtain ⟨fs, g, -, -, hb⟩ := C58_accepts intCodec none (C70_large z) (by
      intro c hc
      rw [List.mem_singleton.1 hc]
      refine ⟨?_, ?_, ?_⟩
      · intro r hr
        simp only [List.flatten_cons, List.flatten_nil, List.append_nil, List.mem_cons, List.not_mem_nil,
          or_false] at hr
        rcases hr with rfl | rfl <;> constructor <;> simp [TimeFits]
      · intro a r s b he hr hs
        have : r ∈ a ++ r :: s :: b := by simp
        rw [← he] at this
        simp only [List.flatten_cons, List.flatten_nil, List.append_nil, List.mem_cons, List.not_mem_nil,
          or_false] at this
        rcases this with rfl | rfl <;> exact absurd rfl hr
      · intro call hcall
        rw [List.mem_singleton.1 hcall]
        simp [LifetimesNested])
    (by
      intro c hc
      rw [List.mem_singleton.1 hc, hsz, hz]; decide)
    (by intro r hr; simp [edgeRecords, allRecords, C70_large] at hr)
    ⟨1, 0, -1⟩ (by decide)
    (by
      intro r hr
      simp only [allRecords, C70_large, List.flatten_cons, List.flatten_nil, List.append_nil, List.mem_cons,
        List.not_mem_nil, or_false] at hr
      rcases hr with rfl | rfl <;> simp)
  obtain ⟨items, hg, -⟩ := hb.graphOk
  obtain ⟨it, rfl, hit⟩ : ∃ it, items = [it] ∧ ItemFrom _ it := by
    cases hg.src with
    | cons h1 h2 => cases h2; exact ⟨_, rfl, h1⟩
  have hok := hg.ok it (by simp)
  have hids : it.blks.map (·.id) = [0, 1] := by rw [hit.ids]; rfl
  have hedges : ∀ b ∈ it.blks, b.edges = [] := by
    intro b hb
    have h1 : it.blks.flatMap (fun b => b.edges.map (fun e => (b.id, e))) = [] := by rw [hit.edges]; rfl
    have := List.flatMap_eq_nil_iff.1 h1 b hb
    simpa using this
  have hfilter : it.blks.filter (fun b => b.typ ≠ -1) = it.blks := by
    rw [List.filter_eq_self]
    intro b hb
    have : b.typ ≠ -1 := fun ht => hit.hasEdge b hb ht (hedges b hb)
    simpa using this
  have hnodes := hit.nodes
  rw [hfilter] at hnodes
  obtain ⟨b0, b1, hbs⟩ : ∃ b0 b1, it.blks = [b0, b1] := by
    match hbl : it.blks with
    | [] => simp [hbl] at hids
    | [_] => simp [hbl] at hids
    | [a, b] => exact ⟨a, b, rfl⟩
    | _ :: _ :: _ :: _ => simp [hbl] at hids
  have hb0 : b0.id = 0 ∧ b0.feats = [some z] ∧ b1.id = 1 ∧ b1.feats = [some [7]] := by
    rw [hbs] at hnodes
    simp [nodeRecs] at hnodes
    exact ⟨hnodes.1.1, hnodes.1.2.2, hnodes.2.1, hnodes.2.2.2⟩
  have hall : allNodeFeats it.blks = [some z, some [7]] := by
    rw [hbs]; simp [allNodeFeats, hb0]
  have hidx : it.part.nodeFeatureIndex = [0, 2 ^ 32, 2 ^ 32 + 1] := by
    rw [hok.loaded.nodeFeatureIndex (by decide), hall]
    simp [featSize, offsFrom, starts, hz]
  have hdata : it.part.nodeFeatures = z ++ [7] := by
    rw [hok.loaded.nodeFeatures (by decide), hall]
    simp [featBytes]
  have hni : it.part.nodeIndex = [0, 1, 2] := by
    rw [hok.loaded.nodeIndex, hbs]
    simp [offsFrom, starts, hb0]
  have hent := entries_items hg.parts_eq hg.inv 1
  have he : g.entries 1 = some [(it.part, 1)] := by
    rw [hent.1]; simp [hbs, hb0]
  have hm : ∃ x, g.nodeMap 1 = some x := by
    cases hx : g.nodeMap 1 with
    | some x => exact ⟨x, rfl⟩
    | none => exact absurd hb0.2.2.1 (hent.2.1 hx it (by simp) b1 (by simp [hbs]))
  obtain ⟨x, hm⟩ := hm
  have hr : featRange it.part.nodeFeatureIndex 1 2 0 = some (some (2 ^ 32, 1)) := by
    rw [hidx]; decide
  have hlen : it.part.nodeFeatures.length = 2 ^ 32 + 1 := by rw [hdata]; simp [hz]
  have hne : it.part.nodeFeatureIndex ≠ [] := by rw [hidx]; simp
  have hmem : readAt (z ++ [7]) (2 ^ 32) 1 = some [7] := by
    have := readAt_exact z [7] []
    rw [List.append_nil, hz] at this
    exact this
  have hdisk : diskRead (z ++ [7]) {} (2 ^ 32) 1 = some ([0], ⟨1, false⟩) := by
    have ht : seek {} (2 ^ 32) = ⟨0, false⟩ := by decide
    have h1 : (z ++ [7]).take 1 = [0] := by
      rw [List.take_append_of_le_length (by omega)]; exact h0
    have hl : (z ++ [7]).length = 2 ^ 32 + 1 := by simp [hz]
    simp only [diskRead, ht, hl]
    rw [if_neg (by simp), if_neg (by omega), if_pos (by omega), List.drop_zero, h1]
  have hq : ∀ k b, (Storage.copyFeature 1 (2 ^ 32) 1).run k (z ++ [7]) = some b →
      Storage.nodeFeature k g [1] none [(0, 1)] [0] = some b := by
    intro k b hk
    have h2 : Storage.stepAll (Storage.nodeFeatureStep it.part.nodeFeatureIndex 1 2 none) [(0, 1)] [(-1, [0])] =
        (Storage.copyFeature 1 (2 ^ 32) 1).bind fun v => .ret [(0, v)] := by
      simp only [Storage.stepAll, Storage.nodeFeatureStep, hr]
      rfl
    have h3 : ((Storage.copyFeature 1 (2 ^ 32) 1).bind fun v => Rd.ret [((0 : Int), v)]).run k (z ++ [7]) = some [(0, b)] := by
      cases k with
      | memory =>
        simp only [Rd.run] at hk ⊢
        rw [Rd.mem_bind, hk]; rfl
      | disk =>
        simp only [Storage.copyFeature, Rd.run, Rd.disk, Rd.bind, Nat.min_self, hdisk, Option.bind_some,
          Option.map_some, Option.some.injEq] at hk ⊢
        rw [← hk]
    have h1 : Storage.nodeFeatureP k it.part 1 none [(0, 1)] [(-1, [0])] = some [(0, b)] := by
      rw [Storage.nodeFeatureP, if_neg hne, hni, hdata]
      simp only [List.getElem?_cons_succ, List.getElem?_cons_zero, Option.bind_some]
      rw [h2, h3]
    simp [Storage.nodeFeature, Storage.nodeFeature1, hm, he, slices, tsList, h1]
  refine ⟨g, hb, ?_, ?_⟩
  · rw [← memory_nodeFeature]
    refine hq _ _ ?_
    simp [Storage.copyFeature, Rd.run, Rd.mem, hmem]
  · refine hq _ _ ?_
    simp [Storage.copyFeature, Rd.run, Rd.disk, hdisk]

/-- **Refuted** for feature files of more than 2 GiB: the position in the file is passed as a 32-bit `int`
(`platform_fseek`, locator.cc:87-95). Here the feature of the second node is the byte at offset 4 GiB; the query on
disk returns the first byte of the file instead. -/
theorem C70_large_refuted : ∃ z : Bytes, ∃ g, Built intCodec none ⟨1, 0, -1⟩ (C70_large z) g ∧
    g.nodeFeature [1] none [(0, 1)] [0] = some [7] ∧
    Storage.nodeFeature .disk g [1] none [(0, 1)] [0] = some [0] := by
  refine ⟨List.replicate (2 ^ 32) 0, C70_large_aux _ List.length_replicate ?_⟩
  rw [List.take_replicate]
  rfl

end DeepGNN
