import Verif.Proofs.Alias

/-
C20 Alias tables represent the weights exactly.
-/

namespace DeepGNN

/-- For every list of non-negative weights with positive sum the construction ends with every
probability written and in range, an alias in range wherever one is used, and the table gives the
element at position `i` exactly `len * w_i` of the `len * sum(w)` equally likely outcomes, a share of
`w_i / sum(w)`. -/
theorem C20_exact (weights : List Int) (hw : ∀ w ∈ weights, 0 ≤ w) (hs : 0 < weights.sum) :
    ∃ t prob, vose weights = some t ∧ t.prob = prob.map some ∧
      prob.length = weights.length ∧ t.alias.length = weights.length ∧
      (∀ i < weights.length, 0 ≤ prob.getD i 0 ∧ prob.getD i 0 ≤ weights.sum ∧
        (prob.getD i 0 < weights.sum → ∃ k, t.alias.getD i none = some k ∧ k < weights.length)) ∧
      ∀ i < weights.length, Spec.tableShare weights.sum prob t.alias i = weights.length * weights.getD i 0 := by
  obtain ⟨t, h1, h2, h3, h4, h5, h6⟩ := vose_spec weights hw hs
  exact ⟨t, t.w, h1, h4, h2, h3, h5, h6⟩

/-- Non-vacuity: weights 1, 3, 0, 2, 4 with sum 10; slot 1 never needs an alias. -/
example : ∃ t, vose [1, 3, 0, 2, 4] = some t ∧
    t.prob = [some 5, some 10, some 0, some 5, some 5] ∧ t.alias = [some 4, none, some 4, some 1, some 3] ∧
    (List.range 5).map (Spec.tableShare 10 [5, 10, 0, 5, 5] t.alias) = [5, 15, 0, 10, 20] := by
  refine ⟨⟨[5, 10, 0, 5, 5], [some 4, none, some 4, some 1, some 3], [some 5, some 10, some 0, some 5, some 5]⟩, ?_⟩
  decide +kernel

end DeepGNN
