import Verif.Proofs.Remote

/-
C23 Remote neighbour queries do not depend on reply order.
-/

namespace DeepGNN

/-- `n` nodes are queried; server `i` answers `answers[i]`, one list of neighbours per node (a list that is too short
means no neighbours).  In all orders of events the client returns, node after node, the answers of the servers in
their configured order, and the number of neighbours of every node. -/
theorem C23_neighbors (n : Nat) (answers : List (List (List Nbr))) (hne : answers ≠ []) (evs : List (Ev NbrReply))
    (h : Spec.Schedule (answers.map Spec.replyOf) evs) :
    remoteNeighbors n evs answers.length =
      some (some ((List.range n).flatMap fun k => answers.flatMap fun l => l.getD k [],
        (List.range n).map fun k => (answers.flatMap fun l => l.getD k []).length)) := by
  have := waitAll_eq (fun rs => mergeNodes 0 n (rs.map fun r => (r, 0))) ⟨[], []⟩ (answers.map Spec.replyOf)
    (by simpa using hne) evs h
  rw [List.length_map] at this
  rw [remoteNeighbors, this]
  congr 1
  rw [List.map_map]
  exact (mergeNodes_eq n 0 answers).trans (by rw [← List.range_eq_range']; rfl)

/-- Counts of neighbours: the sums over the servers, in all orders of events. -/
theorem C23_counts (n : Nat) (answers : List (List Nat)) (hne : answers ≠ []) (evs : List (Ev (List Nat)))
    (h : Spec.Schedule answers evs) :
    remoteCounts n evs answers.length =
      some ((List.range n).map fun k => (answers.map fun l => l.getD k 0).sum) := by
  rw [remoteCounts, waitAll_eq _ _ answers hne evs h]
  congr 1
  rw [foldl_addCounts]
  apply List.ext_getElem?
  intro i
  simp only [List.getElem?_map, List.getElem?_zipIdx, List.getElem?_replicate, Nat.zero_add]
  by_cases hi : i < n
  · simp [hi]
  · simp [hi, List.getElem?_eq_none_iff.2 (show (List.range n).length ≤ i by simp; omega)]

/-! Examples: two servers, the second one answers first. -/

example : Spec.Schedule [10, 20] [Ev.recv 1 20, Ev.run 1, Ev.recv 0 10, Ev.run 0] := ⟨by decide, by decide⟩

/-- Node 0 has neighbours on both servers, node 1 only on the second. -/
def C23_example : List (List (List Nbr)) := [[[⟨2, 0, 1⟩, ⟨3, 0, 1⟩], []], [[⟨4, 1, 2⟩], [⟨5, 0, 1⟩]]]

example : ∃ evs, Spec.Schedule (C23_example.map Spec.replyOf) evs ∧
    remoteNeighbors 2 evs 2 = some (some ([⟨2, 0, 1⟩, ⟨3, 0, 1⟩, ⟨4, 1, 2⟩, ⟨5, 0, 1⟩], [3, 1])) := by
  refine ⟨[.recv 1 (Spec.replyOf [[⟨4, 1, 2⟩], [⟨5, 0, 1⟩]]), .recv 0 (Spec.replyOf [[⟨2, 0, 1⟩, ⟨3, 0, 1⟩], []]), .run 1, .run 0],
    ⟨by decide, by decide⟩, by decide⟩

end DeepGNN
