import Verif.Proofs.TriletterEmbedding

/-
C119 The embedding of a word is made of its own letter groups and its position.
-/

namespace DeepGNN
open Letters Letters.Spec

/-- For every batch whose width is a number of whole words, with positions in the table: a row for every text, in order, and in it
for every word the sum of its own letter groups and its position; the zeros that fill up a word add nothing.  Row 0 of the table
is zero (`padding_idx=0`). -/
theorem C119_words (letterTable posTable : List Int) (h0 : letterTable.getD 0 0 = 0) (letters n : Nat) (hl : 0 < letters)
    (hn : 0 < n) (hp : n < posTable.length) (ids : List (List Nat)) (hb : Batch letterTable (n * letters) ids) :
    Letters.forward letterTable posTable letters (n * letters) ids =
      some (ids.map fun text => (List.range n).map (embed letterTable posTable letters text)) := by
  obtain ⟨hne, hb⟩ := hb
  have hpos : 0 < n * letters := Nat.mul_pos hn hl
  rw [Letters.forward, if_neg (by omega)]
  simp only [Nat.mul_div_cancel n hl]
  rw [mapM_range, mapM_lookup (by
    intro c hc
    obtain ⟨i, hi, rfl⟩ := List.mem_map.1 hc
    have := List.mem_range.1 hi
    omega), Option.bind_some, mapM_lookup (by
    intro c hc
    obtain ⟨t, ht, hct⟩ := List.mem_flatten.1 hc
    exact (hb t ht).2 c hct), Option.bind_some]
  have hlen : (ids.flatten.map fun c => letterTable.getD c 0).length = ids.length * (n * letters) := by
    rw [List.length_map, length_flatten (n * letters) ids fun t ht => (hb t ht).1]
  have hg : groups (n * letters) ids.length (ids.flatten.map fun c => letterTable.getD c 0) =
      ids.map fun t => t.map fun c => letterTable.getD c 0 := by
    rw [List.map_flatten]
    have := groups_flatten (n * letters) (ids.map fun t => t.map fun c => letterTable.getD c 0) (by
      intro r hr
      obtain ⟨t, ht, rfl⟩ := List.mem_map.1 hr
      rw [List.length_map]; exact (hb t ht).1)
    rwa [List.length_map] at this
  rw [viewSum, if_neg (by
    rw [hlen, Nat.mul_mod_left]
    omega), hlen, Nat.mul_div_cancel _ hpos, hg, Option.bind_some, addPositions, if_pos (Or.inl (by simp)),
    List.map_map, List.map_map]
  refine congrArg some (List.map_congr_left fun t _ => ?_)
  exact words_eq letterTable posTable h0 letters n t

/-- Otherwise there is an error, so words of different texts are never mixed: for a batch with a width that is not a number of
whole words, or without a word, or with more words than positions. -/
theorem C119_refused (letterTable posTable : List Int) (letters width : Nat) (ids : List (List Nat))
    (hb : Batch letterTable width ids) (h : width % letters ≠ 0 ∨ width = 0 ∨ posTable.length ≤ width / letters) :
    Letters.forward letterTable posTable letters width ids = none := by
  obtain ⟨hne, hb⟩ := hb
  have hids : 0 < ids.length := List.length_pos_iff.2 hne
  rw [Letters.forward]
  by_cases hl : letters = 0
  · rw [if_pos hl]
  rw [if_neg hl]
  simp only [mapM_range]
  by_cases hz : width / letters = 0
  · cases ((List.range (width / letters)).map (· + 1)).mapM (lookupRow posTable) with
    | none => rfl
    | some pos =>
      cases ids.flatten.mapM (lookupRow letterTable) with
      | none => rfl
      | some flat =>
        simp only [Option.bind_some]
        rw [viewSum, if_pos (Or.inl (by rw [hz, Nat.zero_mul]))]
        rfl
  by_cases hp : posTable.length ≤ width / letters
  · rw [mapM_lookup_none (c := width / letters) (List.mem_map.2 ⟨width / letters - 1, List.mem_range.2 (by omega), by omega⟩) hp]
    rfl
  have hm : width % letters ≠ 0 := by
    rcases h with h | h | h
    · exact h
    · exact absurd (by rw [h, Nat.zero_div]) hz
    · exact absurd h hp
  rw [mapM_lookup (by
    intro c hc
    obtain ⟨i, hi, rfl⟩ := List.mem_map.1 hc
    have := List.mem_range.1 hi
    omega), Option.bind_some, mapM_lookup (by
    intro c hc
    obtain ⟨t, ht, hct⟩ := List.mem_flatten.1 hc
    exact (hb t ht).2 c hct), Option.bind_some]
  have hlen : (ids.flatten.map fun c => letterTable.getD c 0).length = ids.length * width := by
    rw [List.length_map, length_flatten width ids fun t ht => (hb t ht).1]
  have hdiv := Nat.div_add_mod width letters
  have hsz : 0 < width / letters * letters := Nat.mul_pos (Nat.pos_of_ne_zero hz) (Nat.pos_of_ne_zero hl)
  have hlt : width / letters * letters < width := by
    have h1 := Nat.pos_of_ne_zero hm
    have h2 : letters * (width / letters) < letters * (width / letters) + width % letters := Nat.lt_add_of_pos_right h1
    rw [hdiv, Nat.mul_comm] at h2
    exact h2
  rw [viewSum]
  by_cases hmod : (ids.flatten.map fun c => letterTable.getD c 0).length % (width / letters * letters) = 0
  · rw [if_neg (by omega), Option.bind_some, addPositions]
    have hcount : ∀ k, ids.length * width = k * (width / letters * letters) → k ≠ ids.length ∧ ids.length ≠ 1 ∧ k ≠ 1 := by
      intro k hk
      have hgt : ids.length < k := by
        refine Nat.lt_of_not_le fun hle => ?_
        have h1 : k * (width / letters * letters) ≤ ids.length * (width / letters * letters) := Nat.mul_le_mul_right _ hle
        have h2 : ids.length * (width / letters * letters) < ids.length * width := Nat.mul_lt_mul_of_pos_left hlt hids
        omega
      refine ⟨by omega, fun h1 => ?_, by omega⟩
      rw [h1, Nat.one_mul] at hk
      refine hm ?_
      rw [hk, ← Nat.mul_assoc, Nat.mul_mod_left]
    obtain ⟨c1, c2, c3⟩ := hcount (ids.length * width / (width / letters * letters))
      (Nat.div_mul_cancel (Nat.dvd_of_mod_eq_zero (hlen ▸ hmod))).symm
    have hcl : ∀ (f : List Int → List Int) (l : List Int),
        ((groups (width / letters * letters) (ids.length * width / (width / letters * letters)) l).map f).length =
          ids.length * width / (width / letters * letters) := by
      intro f l; simp [groups]
    rw [hlen, hcl, if_neg (by omega), if_neg c3]
  · rw [if_pos (Or.inr hmod)]; rfl

/-- The order of the letter groups in a word does not matter, nor does the place of the zeros, nor anything else in the text. -/
theorem C119_own_word (letterTable posTable : List Int) (letters i : Nat) (a b : List Nat)
    (h : (wordOf letters a i).Perm (wordOf letters b i)) :
    embed letterTable posTable letters a i = embed letterTable posTable letters b i := by
  rw [embed, embed, total_perm (h.map _)]

/-- Two texts of two words of at most three letter groups. -/
def letterIds : List (List Nat) := [[1, 2, 0, 3, 0, 0], [2, 1, 0, 0, 0, 0]]

example : Batch [0, 10, 200, 3000] 6 letterIds := ⟨by decide, by decide⟩
example : Letters.forward [0, 10, 200, 3000] [0, 1, 2] 3 6 letterIds = some [[211, 3002], [211, 2]] := by decide +kernel
/-- A width of five: refused. -/
example : Letters.forward [0, 10, 200, 3000] [0, 1, 2] 3 5 [[1, 2, 0, 3, 0], [1, 2, 0, 3, 0], [1, 2, 0, 3, 0]] = none := by
  decide +kernel
example : (wordOf 3 [1, 2, 0, 3, 0, 0] 0).Perm (wordOf 3 [0, 2, 1, 0, 0, 0] 0) := by decide

end DeepGNN
