import Verif.Props.C03

/-
C04 neighbor_count agrees with neighbors (no timestamps).
-/

namespace DeepGNN

/-- Whatever the types requested, `NeighborCount` reports for every node the number of neighbours
`FullNeighbor` returns for it. -/
theorem C04_count_eq {C : WeightCodec} {wm : Option Nat} {m : Meta}
    {parts : List (List (List Rec))} {g : Graph} (h : Built C wm m parts g) (nodes types : List Int) :
    ∃ answers : Int → List Nbr,
      (∀ n, g.fullNeighbor [n] none types = some (answers n, [(answers n).length])) ∧
      g.fullNeighbor nodes none types =
        some (nodes.flatMap answers, nodes.map fun n => (answers n).length) ∧
      g.neighborCount nodes types = some (nodes.map fun n => (answers n).length) := by
  obtain ⟨items, hg, -⟩ := h.graphOk
  refine ⟨fun n => (foundSeen items n types).map gnbr, ?_, ?_, ?_⟩
  · intro n; simp [Graph.fullNeighbor, hg.fullNeighbor1]
  · simp only [Graph.fullNeighbor]
    rw [mapM_some_map _ (fun n => ((foundSeen items n types).map gnbr, (foundSeen items n types).length))
      nodes (fun n _ => hg.fullNeighbor1 n types)]
    simp [List.flatMap_def, Function.comp_def]
  · simp only [Graph.neighborCount]
    rw [mapM_some_map _ (fun n => (foundEdges items n types).length) nodes
      (fun n _ => hg.neighborCount1 n types)]
    congr 1
    apply List.map_congr_left
    intro n _
    have := congrArg List.length (foundSeen_noWeight items n types)
    simpa using this.symm

/-- Non-vacuity: the count of node 1, spread over two partitions. -/
example : ∃ g, Built intCodec none ⟨0, 0, -1⟩ C02_example g ∧
    g.neighborCount [1, 2, 1] [0, 1] = some [2, 0, 2] := by
  obtain ⟨g, hg, hb⟩ := built_of_check (wm := none) (m := ⟨0, 0, -1⟩) (parts := C02_example)
    (by decide +kernel)
  refine ⟨g, hb, ?_⟩
  have : (graphOf intCodec none ⟨0, 0, -1⟩ C02_example).bind (fun g => g.neighborCount [1, 2, 1] [0, 1]) =
      some [2, 0, 2] := by decide +kernel
  rw [hg] at this; exact this

end DeepGNN
