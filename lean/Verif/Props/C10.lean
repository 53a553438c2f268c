import Verif.Proofs.TemporalFeature
import Verif.Proofs.Concrete

/-
C10 Temporal feature value is the latest one not after the timestamp.
-/

namespace DeepGNN

variable {C : WeightCodec} {wm : Option Nat} {m : Meta} {parts : List (List (List Rec))} {g : Graph}

/-- The stored form of a history, in whatever order its values were given and wherever it is in the
feature file: a lookup at `t` locates exactly the bytes of the latest value not after `t`, together with
its creation time; if all values are newer it finds nothing. -/
theorem C10_roundtrip {hist : List (Int × Bytes)} (h : Spec.HistOk hist) (pre post : Bytes) (t : Int) :
    ∃ off size ts, deserializeTemporal (pre ++ serializeTemporal hist ++ post) pre.length t = some (off, size, ts) ∧
      ((∃ v, Spec.IsLatest hist t (ts, v) ∧
          ((pre ++ serializeTemporal hist ++ post).drop off).take size = v ∧ v.length = size) ∨
       (size = 0 ∧ ts = -1 ∧ ∀ x ∈ hist, t < x.1)) := by
  rcases deserialize_serialize h pre post t with ⟨h1, h2⟩ | ⟨x, off, h1, h2, pre', post', h3, h4⟩
  · exact ⟨_, _, _, h1, Or.inr ⟨rfl, rfl, h2⟩⟩
  · refine ⟨_, _, _, h2, Or.inl ⟨x.2, h1, ?_, rfl⟩⟩
    rw [h3, ← h4, List.append_assoc, List.drop_left, List.take_left]

/-- With distinct creation times there is only one latest value. -/
theorem C10_latest_unique {hist : List (Int × Bytes)} (hd : ∀ x ∈ hist, ∀ y ∈ hist, x.1 = y.1 → x = y)
    {t : Int} {v w : Bytes} (hv : Spec.LatestValue hist t v) (hw : Spec.LatestValue hist t w) : v = w := by
  rcases hv with ⟨c, h1, h2, h3⟩ | ⟨rfl, h1⟩ <;> rcases hw with ⟨d, h4, h5, h6⟩ | ⟨rfl, h4⟩
  · have := h3 _ h4 h5
    have := h6 _ h1 h2
    have := hd _ h1 _ h4 (by simp only at *; omega)
    exact (Prod.mk.inj this).2
  · have := h4 _ h1; simp only at *; omega
  · have := h1 _ h4; simp only at *; omega
  · rfl

/-- Node feature queries: for every batch of nodes and timestamps, if the requested features of each
requested node are histories in all its records (or absent), the reply holds for each node and feature
the latest value not after the node's timestamp, in all the partitions together. -/
theorem C10_node_features (h : Built C wm m parts g) (nodes : List Int) (ts : List Int)
    (hts : ts.length = nodes.length) (feats : List (Nat × Nat)) (out : Bytes)
    (hout : out.length = (feats.map (·.2)).sum * nodes.length)
    (H : Nat → List (Option Bytes) → List (Int × Bytes))
    (hH : ∀ n ∈ nodes, ∀ f ∈ feats, ∀ r ∈ Spec.nodeRecords parts n, Spec.HasHist r.features f.1 (H f.1 r.features)) :
    ∃ rows, g.nodeFeature nodes (some ts) feats out = some rows.flatten ∧ rows.length = nodes.length ∧
      ∀ x ∈ (nodes.zip ts).zip rows, Spec.Row feats (fun fid v =>
        Spec.LatestValue ((Spec.nodeRecords parts x.1.1).flatMap fun r => H fid r.features) x.1.2 v) x.2 := by
  obtain ⟨items, hg, hc⟩ := h.graphOk
  simp only [Graph.nodeFeature]
  rw [if_neg (by omega)]
  obtain ⟨rows, h1, h2, h3⟩ := mapM_exists
    (fun x : (Int × Option Int) × Bytes => g.nodeFeature1 feats x.1.1 x.1.2 x.2)
    (fun x row => ∀ t, x.1.2 = some t → Spec.Row feats (fun fid v =>
        Spec.LatestValue ((Spec.nodeRecords parts x.1.1).flatMap fun r => H fid r.features) t v) row)
    ((nodes.zip (tsList (some ts) nodes.length)).zip
      (slices (List.replicate nodes.length (feats.map (·.2)).sum) out)) (by
      rintro ⟨⟨n, t⟩, b⟩ hx
      obtain ⟨hx1, hx2⟩ := List.of_mem_zip hx
      obtain ⟨hn, ht⟩ := List.of_mem_zip hx1
      obtain ⟨t, -, rfl⟩ := List.mem_map.1 ht
      have hl : (nodes.zip (tsList (some ts) nodes.length)).length = nodes.length := by
        simp [tsList, hts]
      have hb := zip_slices (feats.map (·.2)).sum (nodes.zip (tsList (some ts) nodes.length)) out
        (by rw [hl]; exact hout) ((n, some t), b) (by rw [hl]; exact hx)
      obtain ⟨vs, h1, h2, h3⟩ := hg.nodeFeatureAt1 (fun it hit => (hc it hit).1) feats n t H
        (fun f hf r hr => hH n hn f hf r hr) b hb
      refine ⟨_, h1, ?_⟩
      intro t' ht'
      cases ht'
      exact ⟨vs, h2, rfl, h3⟩)
  rw [h1]
  refine ⟨rows, rfl, by simpa [tsList, hts] using h2, ?_⟩
  rintro ⟨⟨n, t⟩, row⟩ hx
  have hlen : rows.length = nodes.length := by simpa [tsList, hts] using h2
  obtain ⟨i, hi, hxi⟩ := List.mem_iff_getElem.1 hx
  simp only [List.getElem_zip, Prod.mk.injEq] at hxi
  simp only [List.length_zip] at hi
  have hmem : (((n, some t), (slices (List.replicate nodes.length (feats.map (·.2)).sum) out)[i]'(by simp; omega)), row) ∈
      ((nodes.zip (tsList (some ts) nodes.length)).zip
        (slices (List.replicate nodes.length (feats.map (·.2)).sum) out)).zip rows := by
    refine List.mem_iff_getElem.2 ⟨i, by simp [tsList]; omega, ?_⟩
    simp [tsList, hxi]
  exact h3 _ hmem t rfl

/-- Edge feature queries: if the requested features of the edge are histories in all records of the
edge (or absent), the value of each feature is the latest one not after the timestamp in one of these
records, and empty if there is no such edge. -/
theorem C10_edge_features (h : Built C wm m parts g) (e : EdgeId) (t : Int) (feats : List (Nat × Nat))
    (H : Nat → List (Option Bytes) → List (Int × Bytes))
    (hH : ∀ f ∈ feats, ∀ r ∈ Spec.edgesBetween parts e.src e.dst e.typ, Spec.HasHist r.features f.1 (H f.1 r.features)) :
    ∃ row, g.edgeFeature [e] (some [t]) feats = some row ∧ Spec.Row feats (fun fid v =>
        (Spec.edgesBetween parts e.src e.dst e.typ = [] ∧ v = []) ∨
        ∃ r ∈ Spec.edgesBetween parts e.src e.dst e.typ, Spec.LatestValue (H fid r.features) t v) row := by
  obtain ⟨items, hg, hc⟩ := h.graphOk
  obtain ⟨row, h1, h2⟩ := hg.edgeFeatureAt1 (fun it hit => (hc it hit).2) feats e t H hH
  refine ⟨row, ?_, h2⟩
  simp [Graph.edgeFeature, tsList, h1]

/-- Histories given out of order; node 1 has one in each of two partitions. -/
def C10_example : List (List (List Rec)) :=
  [[[⟨1, -1, 0, 1, none, none, [some (serializeTemporal [(20, [2, 2]), (10, [1])])]⟩,
     ⟨1, 2, 0, 1, none, none, [some (serializeTemporal [(5, [7]), (9, [8])])]⟩]],
   [[⟨1, -1, 0, 1, none, none, [some (serializeTemporal [(15, [3])])]⟩]]]

/-- The histories in `C10_example`. -/
def C10_hist (_ : Nat) (fl : List (Option Bytes)) : List (Int × Bytes) :=
  if fl = [some (serializeTemporal [(20, [2, 2]), (10, [1])])] then [(20, [2, 2]), (10, [1])]
  else if fl = [some (serializeTemporal [(15, [3])])] then [(15, [3])]
  else [(5, [7]), (9, [8])]

/-- Non-vacuity: the hypotheses hold, and the replies are those expected. -/
example : ∃ g, Built intCodec (some 30) ⟨1, 1, 30⟩ C10_example g ∧
    (∀ r ∈ Spec.nodeRecords C10_example 1, Spec.HasHist r.features 0 (C10_hist 0 r.features)) ∧
    (∀ r ∈ Spec.edgesBetween C10_example 1 2 0, Spec.HasHist r.features 0 (C10_hist 0 r.features)) ∧
    [9, 14, 15, 19, 25].mapM (fun t => g.nodeFeature [1] (some [t]) [(0, 2)] [0, 0]) =
      some [[0, 0], [1, 0], [3, 0], [3, 0], [2, 2]] ∧
    [4, 5, 8, 9].mapM (fun t => g.edgeFeature [⟨1, 2, 0⟩] (some [t]) [(0, 1)]) = some [[0], [7], [7], [8]] := by
  obtain ⟨g, hg, hb⟩ := built_of_check (wm := some 30) (m := ⟨1, 1, 30⟩) (parts := C10_example)
    (by decide +kernel)
  have h1 : Spec.nodeRecords C10_example 1 =
      [⟨1, -1, 0, 1, none, none, [some (serializeTemporal [(20, [2, 2]), (10, [1])])]⟩,
       ⟨1, -1, 0, 1, none, none, [some (serializeTemporal [(15, [3])])]⟩] := by decide +kernel
  have h2 : Spec.edgesBetween C10_example 1 2 0 =
      [⟨1, 2, 0, 1, none, none, [some (serializeTemporal [(5, [7]), (9, [8])])]⟩] := by decide +kernel
  have h3 : C10_hist 0 [some (serializeTemporal [(20, [2, 2]), (10, [1])])] = [(20, [2, 2]), (10, [1])] := by
    decide +kernel
  have h4 : C10_hist 0 [some (serializeTemporal [(15, [3])])] = [(15, [3])] := by decide +kernel
  have h5 : C10_hist 0 [some (serializeTemporal [(5, [7]), (9, [8])])] = [(5, [7]), (9, [8])] := by
    decide +kernel
  have this : (graphOf intCodec (some 30) ⟨1, 1, 30⟩ C10_example).map (fun g =>
      ([9, 14, 15, 19, 25].mapM (fun t => g.nodeFeature [1] (some [t]) [(0, 2)] [0, 0]),
       [4, 5, 8, 9].mapM (fun t => g.edgeFeature [⟨1, 2, 0⟩] (some [t]) [(0, 1)]))) =
      some (some [[0, 0], [1, 0], [3, 0], [3, 0], [2, 2]], some [[0], [7], [7], [8]]) := by decide +kernel
  rw [hg] at this
  obtain ⟨e1, e2⟩ := Prod.mk.inj (Option.some.inj this)
  refine ⟨g, hb, ?_, ?_, e1, e2⟩
  · intro r hr
    rw [h1] at hr
    rcases List.mem_cons.1 hr with rfl | hr
    · exact Or.inr ⟨by rw [h3]; rfl, by rw [h3]; exact ⟨by decide, by decide, by decide⟩⟩
    · rw [List.mem_singleton.1 hr]
      exact Or.inr ⟨by rw [h4]; rfl, by rw [h4]; exact ⟨by decide, by decide, by decide⟩⟩
  · intro r hr
    rw [h2] at hr
    rw [List.mem_singleton.1 hr]
    exact Or.inr ⟨by rw [h5]; rfl, by rw [h5]; exact ⟨by decide, by decide, by decide⟩⟩

/-- **Refuted** for features that were not given.  A query at a timestamp for a feature the node's record
leaves out (`null`) should return zeros, but the bytes of the next feature are taken for its history:
here feature 0 of node 1 was not given and the reply for it is the value of feature 1
(partition.cc:495-501 does not check the stored size, unlike the string and sparse queries). -/
theorem C10_missing_refuted :
    ∃ (parts : List (List (List Rec))) (g : Graph), Built intCodec (some 30) ⟨2, 0, 30⟩ parts g ∧
      Spec.nodeRecords parts 1 = [⟨1, -1, 0, 1, none, none, [none, some (serializeTemporal [(5, [7])])]⟩] ∧
      g.nodeFeature [1] none [(0, 1)] [9] = some [0] ∧
      g.nodeFeature [1] (some [6]) [(0, 1)] [9] = some [7] := by
  let P : List (List (List Rec)) :=
    [[[⟨1, -1, 0, 1, none, none, [none, some (serializeTemporal [(5, [7])])]⟩]]]
  obtain ⟨g, hg, hb⟩ := built_of_check (wm := some 30) (m := ⟨2, 0, 30⟩) (parts := P) (by decide +kernel)
  have this : (graphOf intCodec (some 30) ⟨2, 0, 30⟩ P).map (fun g =>
      (g.nodeFeature [1] none [(0, 1)] [9], g.nodeFeature [1] (some [6]) [(0, 1)] [9])) =
      some (some [0], some [7]) := by decide +kernel
  rw [hg] at this
  obtain ⟨e1, e2⟩ := Prod.mk.inj (Option.some.inj this)
  exact ⟨P, g, hb, by decide +kernel, e1, e2⟩

end DeepGNN
