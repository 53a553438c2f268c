import Verif.Proofs.Sampling

/-
C17 Reservoir keeps distinct stream positions.
-/

namespace DeepGNN

/-- Feed blocks of any sizes to a reservoir of size `out0.length`, whose slots initially hold `out0`.
For all draws and skip lengths, after any number of blocks the first `min k seen` slots hold elements
from distinct positions of the stream seen so far and the others are untouched.  (The statement is about
every list of blocks, hence about every prefix of a longer one.) -/
theorem C17_reservoir {α} (R : Draws) (blocks : List (List α)) (out0 : List α) (hk : 0 < out0.length) (s : Nat) :
    ∃ out a s', blocks.foldlM (fun st xs => AlgL.add R (store xs) xs.length st)
        (out0, ({ k := out0.length } : AlgL), s) = some (out, a, s') ∧
      out.length = out0.length ∧ Spec.Selection blocks.flatten out0 out := by
  have := AlgL.run_selection R blocks out0 hk s
  simpa only [AlgL.run] using this

/-- Three blocks of sizes 2, 0 and 3 into two slots. -/
example (R : Draws) : ∃ out a s',
    [[10, 11], [], [12, 13, 14]].foldlM (fun st xs => AlgL.add R (store xs) xs.length st)
        ([0, 0], ({ k := 2 } : AlgL), 0) = some (out, a, s') ∧
      out.length = 2 ∧ out.Nodup ∧ ∀ x ∈ out, x ∈ [10, 11, 12, 13, 14] := by
  obtain ⟨out, a, s', h1, h2, chosen, ps, h3, h4, h5, h6⟩ :=
    C17_reservoir R [[10, 11], [], [12, 13, 14]] [0, 0] (by decide) 0
  refine ⟨out, a, s', h1, h2, ?_⟩
  have hl : chosen.length = 2 := by rw [h4]; rfl
  have ho : out = chosen := by rw [h3, hl]; simp
  rw [ho]
  have hmem : ∀ x ∈ chosen, x ∈ [10, 11, 12, 13, 14] := by
    intro x hx
    have : some x ∈ ps.map fun p => [[10, 11], [], [12, 13, 14]].flatten[p]? := by
      rw [h6]; exact List.mem_map_of_mem hx
    obtain ⟨p, -, hp⟩ := List.mem_map.1 this
    exact List.mem_of_getElem? hp
  refine ⟨?_, hmem⟩
  have h7 : (chosen.map some).Nodup := by
    rw [← h6]
    simp only [List.Nodup, List.pairwise_map]
    refine h5.imp_of_mem ?_
    intro a b ha hb hab he
    have hs : ∀ p ∈ ps, p < 5 := by
      intro p hp
      have : [[10, 11], [], [12, 13, 14]].flatten[p]? ∈ chosen.map some := by
        rw [← h6]; exact List.mem_map_of_mem hp
      obtain ⟨x, -, hx⟩ := List.mem_map.1 this
      exact (List.getElem?_eq_some_iff.1 hx.symm).1
    have key : ∀ a < 5, ∀ b < 5, a ≠ b →
        [[10, 11], [], [12, 13, 14]].flatten[a]? ≠ [[10, 11], [], [12, 13, 14]].flatten[b]? := by decide
    exact key a (hs a ha) b (hs b hb) hab he
  simpa only [List.Nodup, List.pairwise_map, ne_eq, Option.some.injEq] using h7

end DeepGNN
