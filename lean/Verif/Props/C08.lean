import Verif.Proofs.Features
import Verif.Proofs.Concrete

/-
C08 Dense node features survive conversion.
-/

namespace DeepGNN

variable {C : WeightCodec} {wm : Option Nat} {m : Meta} {parts : List (List (List Rec))} {g : Graph}

/-- For all nodes, feature ids and sizes and whatever the caller's buffer contained: the reply
consists, node after node and feature after feature, of the value given to the converter, truncated
or padded with zeros to the requested size. -/
theorem C08_node_features (h : Built C wm m parts g) (nodes : List Int) (feats : List (Nat × Nat))
    (out : Bytes) (hout : out.length = (feats.map (·.2)).sum * nodes.length) :
    g.nodeFeature nodes none feats out =
      some (nodes.flatMap fun n => feats.flatMap fun f => Spec.fit f.2 (Spec.nodeFeature parts n f.1)) := by
  obtain ⟨items, hg, hc⟩ := h.graphOk
  simp only [Graph.nodeFeature]
  rw [if_neg (by omega)]
  have key := mapM_zip_slices (fun (x : Int × Option Int) b => g.nodeFeature1 feats x.1 x.2 b)
    (fun x => feats.flatMap fun f => Spec.fit f.2 (Spec.nodeFeature parts x.1 f.1))
    (nodes.zip (tsList none nodes.length)) (feats.map (·.2)).sum out (by simpa [tsList] using hout) (by
      rintro ⟨n, t⟩ hx b hb
      have ht : t = none := by
        have := (List.of_mem_zip hx).2
        simpa [tsList] using (List.mem_replicate.1 this).2
      subst ht
      exact hg.nodeFeature1 (fun it hit => (hc it hit).1) feats n b hb)
  have hl : (nodes.zip (tsList none nodes.length)).length = nodes.length := by simp [tsList]
  rw [hl] at key
  rw [key, Option.map_some, ← List.flatMap_def]
  congr 1
  simp only [tsList]
  clear key hl hout
  induction nodes with
  | nil => rfl
  | cons n ns ih => simp only [List.length_cons, List.replicate_succ, List.zip_cons_cons, List.flatMap_cons, ih]

/-- In particular, a node with a single node record has the features of that record, and a node
without a record, or whose record has no such feature, has zeros. -/
theorem C08_record (parts : List (List (List Rec))) (n : Int) (fid : Nat) :
    (∀ r, Spec.nodeRecords parts n = [r] → Spec.nodeFeature parts n fid = Spec.featureOf r fid) ∧
    (Spec.nodeRecords parts n = [] → Spec.nodeFeature parts n fid = []) ∧
    (∀ size, Spec.fit size [] = List.replicate size 0) := by
  refine ⟨?_, ?_, ?_⟩
  · intro r hr
    simp only [Spec.nodeFeature, hr, List.find?_cons, List.find?_nil]
    by_cases hf : fid < r.features.length
    · simp [hf]
    · have : r.features[fid]? = none := List.getElem?_eq_none_iff.2 (by omega)
      simp [hf, Spec.featureOf, this]
  · intro hr
    simp [Spec.nodeFeature, hr]
  · intro size; simp [Spec.fit]

/-- Two partitions; node 1 has a missing feature in the middle and an edge with a feature, node 2 has
edges only, node 3 one feature. -/
def C08_example : List (List (List Rec)) :=
  [[[⟨1, -1, 3, 1, none, none, [some [1, 2, 3], none, some [4]]⟩,
     ⟨1, 2, 0, 2, none, none, [some [9, 9]]⟩, ⟨1, 5, 2, 7, none, none, [none, some [8, 7, 6]]⟩],
    [⟨2, 1, 1, 4, none, none, []⟩]],
   [[⟨3, -1, 0, 1, none, none, [some [5]]⟩, ⟨1, 3, 0, 5, none, none, [some [1]]⟩]]]

/-- Non-vacuity: truncated, missing, padded and unknown features of known and unknown nodes, read into
a buffer full of garbage. -/
example : ∃ g, Built intCodec none ⟨3, 2, -1⟩ C08_example g ∧
    g.nodeFeature [3, 1, 2, 8] none [(0, 2), (1, 1), (2, 3)] (List.replicate 24 255) =
      some [5, 0, 0, 0, 0, 0, 1, 2, 0, 4, 0, 0, 0, 0, 0, 0, 0, 0, 0, 0, 0, 0, 0, 0] := by
  obtain ⟨g, -, hb⟩ := built_of_check (wm := none) (m := ⟨3, 2, -1⟩) (parts := C08_example)
    (by decide +kernel)
  refine ⟨g, hb, ?_⟩
  rw [C08_node_features hb _ _ _ (by decide)]
  decide +kernel

end DeepGNN
