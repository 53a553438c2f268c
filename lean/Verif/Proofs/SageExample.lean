import Verif.Spec.SageExample
import Verif.Proofs.Gat

/-! Lemmas about the PyTorch GraphSAGE example. -/

namespace DeepGNN.SageExample

open DeepGNN.Spec

/-- Distinct values in the order of their first occurrence. -/
def firstOcc : List Int → List Int
  | [] => []
  | x :: xs => x :: (firstOcc xs).filter (· ≠ x)

theorem mem_firstOcc (y : Int) : ∀ xs, y ∈ firstOcc xs ↔ y ∈ xs
  | [] => Iff.rfl
  | x :: xs => by
    simp only [firstOcc, List.mem_cons, List.mem_filter, mem_firstOcc y xs, decide_eq_true_eq]
    by_cases h : y = x
    · simp [h]
    · simp [h]

theorem firstOcc_nodup : ∀ xs, (firstOcc xs).Nodup
  | [] => List.nodup_nil
  | x :: xs => by
    refine List.nodup_cons.2 ⟨?_, (firstOcc_nodup xs).filter _⟩
    simp [List.mem_filter]

theorem firstOcc_append : ∀ (a b : List Int),
    firstOcc (a ++ b) = firstOcc a ++ (firstOcc b).filter (· ∉ a)
  | [], b => by
    simp only [List.nil_append, firstOcc]
    exact (List.filter_eq_self.2 (by simp)).symm
  | x :: a, b => by
    simp only [List.cons_append, firstOcc, firstOcc_append a b, List.filter_append, List.cons.injEq, true_and,
      List.filter_filter]
    refine congrArg _ (List.filter_congr ?_)
    intro y _
    by_cases h : y = x <;> simp [h]

theorem firstOcc_replicate (v : Int) (n : Nat) : firstOcc (List.replicate (n + 1) v) = [v] := by
  induction n with
  | zero => rfl
  | succ n ih =>
    rw [List.replicate_succ, firstOcc, ih]
    simp

theorem firstOcc_repeat {f : Nat} (hf : 0 < f) : ∀ {seed : List Int}, seed.Nodup →
    firstOcc (repeatEach f seed) = seed
  | [], _ => rfl
  | v :: vs, h => by
    have h' := List.nodup_cons.1 h
    have ih := firstOcc_repeat hf (seed := vs) h'.2
    unfold repeatEach at ih ⊢
    rw [List.flatMap_cons, firstOcc_append, ih]
    obtain ⟨n, rfl⟩ : ∃ n, f = n + 1 := ⟨f - 1, by omega⟩
    rw [firstOcc_replicate, List.singleton_append, List.cons.injEq]
    refine ⟨rfl, List.filter_eq_self.2 ?_⟩
    intro y hy
    simp only [List.mem_replicate, decide_eq_true_eq]
    rintro ⟨_, e⟩
    exact h'.1 (e ▸ hy)

theorem firstOcc_idx : ∀ xs, ((firstOcc xs).map fun x => (xs.idxOf x : Int)).Pairwise (· < ·)
  | [] => List.Pairwise.nil
  | x :: xs => by
    simp only [firstOcc, List.map_cons, List.pairwise_cons, List.idxOf_cons_self]
    have e : ((firstOcc xs).filter (· ≠ x)).map (fun y => ((x :: xs).idxOf y : Int)) =
        (((firstOcc xs).filter (· ≠ x)).map fun y => (xs.idxOf y : Int)).map (· + 1) := by
      rw [List.map_map]
      refine List.map_congr_left fun y hy => ?_
      have : y ≠ x := by simpa using (List.mem_filter.1 hy).2
      have hb : (x == y) = false := by simpa using Ne.symm this
      rw [List.idxOf_cons, hb]
      simp
    rw [e]
    constructor
    · intro i hi
      simp only [List.mem_map] at hi
      obtain ⟨j, ⟨y, _, e1⟩, e2⟩ := hi
      omega
    · rw [List.pairwise_map]
      have hs : (((firstOcc xs).filter (· ≠ x)).map fun y => (xs.idxOf y : Int)).Sublist
          ((firstOcc xs).map fun y => (xs.idxOf y : Int)) := List.Sublist.map _ List.filter_sublist
      exact ((firstOcc_idx xs).sublist hs).imp fun h => by omega

theorem orderedUnique_eq (xs : List Int) : orderedUnique xs = firstOcc xs := by
  unfold orderedUnique
  have h : sortUnique ((sortUnique xs).map fun x => (xs.idxOf x : Int)) =
      (firstOcc xs).map fun x => (xs.idxOf x : Int) := by
    refine Gat.sorted_unique (sortUnique_sorted _) (firstOcc_idx xs) ?_
    intro y
    rw [sortUnique_mem]
    simp only [List.mem_map, sortUnique_mem, mem_firstOcc]
  rw [h, List.map_map]
  have : ∀ x ∈ firstOcc xs, ((fun i : Int => xs.getD i.toNat 0) ∘ fun x => (xs.idxOf x : Int)) x = id x := by
    intro x hx
    have hm := (mem_firstOcc x xs).1 hx
    have hlt := List.idxOf_lt_length_of_mem hm
    simp [Function.comp, List.getD, List.getElem?_eq_getElem hlt]
  rw [List.map_congr_left this, List.map_id]

/-! Rows -/

theorem mem_insertRow (p q : Int × Int) : ∀ l, q ∈ insertRow p l ↔ q = p ∨ q ∈ l
  | [] => by simp [insertRow]
  | x :: l => by
    unfold insertRow
    split
    · rename_i h; subst h; simp
    · split
      · simp
      · simp only [List.mem_cons, mem_insertRow p q l]
        constructor
        · rintro (h | h | h)
          · exact Or.inr (Or.inl h)
          · exact Or.inl h
          · exact Or.inr (Or.inr h)
        · rintro (h | h | h)
          · exact Or.inr (Or.inl h)
          · exact Or.inl h
          · exact Or.inr (Or.inr h)

theorem mem_uniqueRows (q : Int × Int) : ∀ l, q ∈ uniqueRows l ↔ q ∈ l
  | [] => Iff.rfl
  | p :: l => by
    have := mem_uniqueRows q l
    unfold uniqueRows at this ⊢
    rw [List.foldr_cons, mem_insertRow, this, List.mem_cons]

theorem repeatEach_length (f : Nat) : ∀ xs : List Int, (repeatEach f xs).length = xs.length * f
  | [] => by simp [repeatEach]
  | x :: xs => by
    have := repeatEach_length f xs
    unfold repeatEach at this ⊢
    rw [List.flatMap_cons, List.length_append, this, List.length_replicate, List.length_cons, Nat.add_mul]
    omega

theorem repeatEach_get {f j : Nat} (hj : j < f) : ∀ (xs : List Int) (i : Nat), (repeatEach f xs)[i * f + j]? = xs[i]?
  | [], i => by simp [repeatEach]
  | x :: xs, i => by
    have ih := repeatEach_get hj xs
    unfold repeatEach at ih ⊢
    rw [List.flatMap_cons]
    cases i with
    | zero =>
      rw [List.getElem?_append_left (by simp; omega), List.getElem?_replicate, if_pos (by omega)]
      rfl
    | succ i =>
      have hm : (i + 1) * f = i * f + f := by rw [Nat.add_mul, Nat.one_mul]
      rw [List.getElem?_append_right (by simp; omega), List.length_replicate, List.getElem?_cons_succ, ← ih i]
      congr 1
      omega

/-- The pairs of a node and its entry. -/
theorem mem_zip_sampled {related : Int → Int → Prop} {f : Nat} {nodes out : List Int}
    (h : SampledFor related f nodes out) {v u : Int} (hm : (v, u) ∈ (repeatEach f nodes).zip out) :
    related v u := by
  obtain ⟨k, hk⟩ := List.getElem?_of_mem hm
  rw [List.getElem?_zip_eq_some] at hk
  obtain ⟨h1, h2⟩ := hk
  have hklt : k < nodes.length * f := by
    have := (List.getElem?_eq_some_iff.1 h1).1
    rw [repeatEach_length] at this
    exact this
  have hf : 0 < f := by
    rcases Nat.eq_zero_or_pos f with e | e
    · subst e; simp at hklt
    · exact e
  have e : k = k / f * f + k % f := by rw [Nat.mul_comm]; exact (Nat.div_add_mod k f).symm
  have hj := Nat.mod_lt k hf
  rw [e, repeatEach_get hj] at h1
  rw [e] at h2
  exact h.2 _ _ v u h1 hj h2

theorem zip_sampled_mem {f : Nat} {nodes out : List Int} {i j : Nat} {v u : Int} (hv : nodes[i]? = some v)
    (hj : j < f) (hu : out[i * f + j]? = some u) : (v, u) ∈ (repeatEach f nodes).zip out := by
  refine List.mem_of_getElem? (i := i * f + j) ?_
  rw [List.getElem?_zip_eq_some]
  exact ⟨by rw [repeatEach_get hj]; exact hv, hu⟩

/-! The batch -/

theorem sortUnique_nodup (l : List Int) : (sortUnique l).Nodup :=
  (sortUnique_sorted l).imp fun h => by omega

theorem getD_idxOf {xs : List Int} {x : Int} (h : x ∈ xs) : xs.getD (xs.idxOf x) 0 = x := by
  have hlt := List.idxOf_lt_length_of_mem h
  simp [List.getD, List.getElem?_eq_getElem hlt]

theorem getElem?_idxOf {xs : List Int} {x : Int} (h : x ∈ xs) : xs[xs.idxOf x]? = some x := by
  have hlt := List.idxOf_lt_length_of_mem h
  simp [List.getElem?_eq_getElem hlt]

/-- The second hop, without duplicates. -/
def sndRows (fanout : Nat × Nat) (hop1 hop2 : List Int → List Int) (seed : List Int) : List (Int × Int) :=
  uniqueRows ((repeatEach fanout.2 (sortUnique (hop1 seed))).zip (hop2 (sortUnique (hop1 seed))))

theorem map_getD_idxOf {nodes : List Int} : ∀ (xs : List Int), (∀ x ∈ xs, x ∈ nodes) →
    (xs.map nodes.idxOf).map (fun i => nodes.getD i 0) = xs
  | [], _ => rfl
  | x :: xs, h => by
    simp only [List.map_cons]
    rw [getD_idxOf (h x List.mem_cons_self), map_getD_idxOf xs fun y hy => h y (List.mem_cons_of_mem _ hy)]

theorem makeEdgeIndex_spec {fanout : Nat × Nat} {hop1 hop2 : List Int → List Int} {seed : List Int}
    (hf : 0 < fanout.1) (hs : seed.Nodup) (hlen : (hop1 seed).length = seed.length * fanout.1) :
    let r := makeEdgeIndex fanout hop1 hop2 seed
    r.1.Nodup ∧ (∃ more, r.1 = seed ++ more) ∧ (∀ i ∈ r.2.1 ++ r.2.2, i < r.1.length) ∧
    (r.2.1.map fun i => r.1.getD i 0) = repeatEach fanout.1 seed ++ (sndRows fanout hop1 hop2 seed).map (·.1) ∧
    (r.2.2.map fun i => r.1.getD i 0) = hop1 seed ++ (sndRows fanout hop1 hop2 seed).map (·.2) := by
  intro r
  let snd := sndRows fanout hop1 hop2 seed
  let A := repeatEach fanout.1 seed ++ snd.map (·.1)
  let B := hop1 seed ++ snd.map (·.2)
  let nodes := orderedUnique (A ++ B)
  have hA : A.length = B.length := by
    simp only [A, B, List.length_append, repeatEach_length, hlen, List.length_map]
  have hn : (A ++ B).length / 2 = A.length := by rw [List.length_append]; omega
  have hr : r = (nodes, ((A ++ B).map nodes.idxOf).take A.length, ((A ++ B).map nodes.idxOf).drop A.length) := by
    show makeEdgeIndex fanout hop1 hop2 seed = _
    unfold makeEdgeIndex
    simp only [A, B, snd, nodes, sndRows] at hn ⊢
    rw [hn]
  have h1 : r.2.1 = A.map nodes.idxOf := by
    rw [hr, List.map_append]
    exact List.take_left' (by simp)
  have h2 : r.2.2 = B.map nodes.idxOf := by
    rw [hr, List.map_append]
    exact List.drop_left' (by simp)
  have h0 : r.1 = nodes := by rw [hr]
  have hmem : ∀ x ∈ A ++ B, x ∈ nodes := by
    intro x hx
    show x ∈ orderedUnique (A ++ B)
    rw [orderedUnique_eq, mem_firstOcc]
    exact hx
  rw [h0, h1, h2]
  refine ⟨?_, ?_, ?_, ?_, ?_⟩
  · show (orderedUnique _).Nodup
    rw [orderedUnique_eq]
    exact firstOcc_nodup _
  · show ∃ more, orderedUnique _ = _
    rw [orderedUnique_eq]
    simp only [A, List.append_assoc]
    rw [firstOcc_append, firstOcc_repeat hf hs]
    exact ⟨_, rfl⟩
  · intro i hi
    rw [← List.map_append] at hi
    obtain ⟨x, hx, e⟩ := List.mem_map.1 hi
    rw [← e]
    exact List.idxOf_lt_length_of_mem (hmem x hx)
  · exact map_getD_idxOf A fun x hx => hmem x (List.mem_append.2 (Or.inl hx))
  · exact map_getD_idxOf B fun x hx => hmem x (List.mem_append.2 (Or.inr hx))

theorem mem_zip_swap {α : Type} {xs ys : List α} {a b : α} (h : (a, b) ∈ xs.zip ys) : (b, a) ∈ ys.zip xs := by
  obtain ⟨k, hk⟩ := List.getElem?_of_mem h
  rw [List.getElem?_zip_eq_some] at hk
  refine List.mem_of_getElem? (i := k) ?_
  rw [List.getElem?_zip_eq_some]
  exact ⟨hk.2, hk.1⟩

theorem zip_fst_snd {α : Type} (l : List (α × α)) : (l.map (·.2)).zip (l.map (·.1)) = l.map fun p => (p.2, p.1) := by
  induction l with
  | nil => rfl
  | cons p l ih => simp [ih]

end DeepGNN.SageExample
