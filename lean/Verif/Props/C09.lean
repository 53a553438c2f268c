import Verif.Proofs.EdgeFeatures
import Verif.Props.C08

/-
C09 Edge features belong to the requested edge.
-/

namespace DeepGNN

variable {C : WeightCodec} {wm : Option Nat} {m : Meta} {parts : List (List (List Rec))} {g : Graph}

/-- For all requested edges, feature ids and sizes: the reply consists, edge after edge and feature
after feature, of a value truncated or padded to the requested size.  The value is empty if there is
no edge with that source, destination and type, and otherwise it was given to the converter for that
feature in a record of that edge. -/
theorem C09_edge_features (h : Built C wm m parts g) (edges : List EdgeId) (feats : List (Nat × Nat)) :
    ∃ val : EdgeId → Nat → Bytes,
      g.edgeFeature edges none feats =
        some (edges.flatMap fun e => feats.flatMap fun f => Spec.fit f.2 (val e f.1)) ∧
      ∀ e fid, (Spec.edgesBetween parts e.src e.dst e.typ = [] → val e fid = []) ∧
        (Spec.edgesBetween parts e.src e.dst e.typ ≠ [] →
          ∃ r ∈ Spec.edgesBetween parts e.src e.dst e.typ, val e fid = Spec.featureOf r fid) := by
  obtain ⟨items, hg, hc⟩ := h.graphOk
  refine ⟨fun e fid => edgeValue (nodeBlks items e.src) e.dst e.typ fid, ?_,
    fun e fid => hg.edgeValue_spec e.src e.dst e.typ fid⟩
  simp only [Graph.edgeFeature, tsList]
  have key : ((edges.zip (List.replicate edges.length (none : Option Int))).mapM fun x =>
      g.edgeFeature1 feats x.1 x.2 (List.replicate (feats.map (·.2)).sum 0)) =
      some (edges.map fun e => feats.flatMap fun f =>
        Spec.fit f.2 (edgeValue (nodeBlks items e.src) e.dst e.typ f.1)) := by
    rw [mapM_some_map _ (fun x => feats.flatMap fun f =>
        Spec.fit f.2 (edgeValue (nodeBlks items x.1.src) x.1.dst x.1.typ f.1))]
    · congr 1
      clear hc
      induction edges with
      | nil => rfl
      | cons e es ih =>
        simp only [List.length_cons, List.replicate_succ, List.zip_cons_cons, List.map_cons, ih]
    · rintro ⟨e, t⟩ hx
      have ht : t = none := (List.mem_replicate.1 (List.of_mem_zip hx).2).2
      subst ht
      exact hg.edgeFeature1 (fun it hit => (hc it hit).2) feats e
  rw [key, Option.map_some, ← List.flatMap_def]

/-- If the edge was given once, its features are returned. -/
theorem C09_unique (h : Built C wm m parts g) (e : EdgeId) (r : Rec) (feats : List (Nat × Nat))
    (hr : Spec.edgesBetween parts e.src e.dst e.typ = [r]) :
    g.edgeFeature [e] none feats =
      some (feats.flatMap fun f => Spec.fit f.2 (Spec.featureOf r f.1)) := by
  obtain ⟨val, h1, h2⟩ := C09_edge_features h [e] feats
  rw [h1]
  simp only [List.flatMap_cons, List.flatMap_nil, List.append_nil]
  congr 2
  funext f
  obtain ⟨r', hr', h3⟩ := (h2 e f.1).2 (by rw [hr]; simp)
  rw [hr, List.mem_singleton] at hr'
  rw [h3, hr']

/-- Non-vacuity: edges of node 1 in both partitions, a missing edge and an unknown node. -/
example : ∃ g, Built intCodec none ⟨3, 2, -1⟩ C08_example g ∧
    g.edgeFeature [⟨1, 5, 2⟩] none [(0, 1), (1, 2)] = some [0, 8, 7] ∧
    g.edgeFeature [⟨1, 3, 0⟩] none [(0, 2), (1, 2)] = some [1, 0, 0, 0] ∧
    g.edgeFeature [⟨1, 3, 1⟩, ⟨8, 1, 0⟩] none [(0, 2)] = some [0, 0, 0, 0] := by
  obtain ⟨g, hg, hb⟩ := built_of_check (wm := none) (m := ⟨3, 2, -1⟩) (parts := C08_example)
    (by decide +kernel)
  refine ⟨g, hb, ?_, ?_, ?_⟩
  · rw [C09_unique hb ⟨1, 5, 2⟩ ⟨1, 5, 2, 7, none, none, [none, some [8, 7, 6]]⟩ _ (by decide +kernel)]
    decide +kernel
  · rw [C09_unique hb ⟨1, 3, 0⟩ ⟨1, 3, 0, 5, none, none, [some [1]]⟩ _ (by decide +kernel)]
    decide +kernel
  · obtain ⟨val, h1, h2⟩ := C09_edge_features hb [⟨1, 3, 1⟩, ⟨8, 1, 0⟩] [(0, 2)]
    rw [h1]
    simp only [List.flatMap_cons, List.flatMap_nil, List.append_nil]
    rw [(h2 ⟨1, 3, 1⟩ 0).1 (by decide +kernel), (h2 ⟨8, 1, 0⟩ 0).1 (by decide +kernel)]
    decide +kernel

end DeepGNN
