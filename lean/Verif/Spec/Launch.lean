/-
What it means that servers share the partitions of a graph.
-/

namespace DeepGNN.Spec

/-- Every server gets a list of partitions, all from the given folder, and every partition of the graph is loaded by exactly
one server, once; nothing else is loaded. -/
structure SharePartitions (load : Nat → Option (List (String × Nat))) (servers : Nat) (path : String) (ids : List Nat) : Prop where
  starts : ∀ s < servers, ∃ l, load s = some l
  once : ∀ id, id ∈ ids → ∃ s < servers, ∃ l, load s = some l ∧ l.count (path, id) = 1 ∧
    ∀ s' < servers, ∀ l', load s' = some l' → (path, id) ∈ l' → s' = s
  only : ∀ s < servers, ∀ l, load s = some l → ∀ x, x ∈ l → x.1 = path ∧ x.2 ∈ ids

end DeepGNN.Spec
