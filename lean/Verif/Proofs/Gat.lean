import Verif.Spec.Gat
import Verif.Proofs.Sage
import Verif.Proofs.SubGraph
import Verif.Proofs.LastN

/-
Layers on sparse matrices, row by row.
-/

namespace DeepGNN.Gat

open DeepGNN.Sage Arith Analysis

variable {α : Type} [Analysis α]

/-- The columns of the entries of row `i`. -/
def cols (edges : List (Nat × Nat)) (i : Nat) : List Nat := (edges.filter (·.1 == i)).map (·.2)

theorem rowOf_map {β : Type} (f : Nat × Nat → β) (i : Nat) : ∀ edges : List (Nat × Nat),
    rowOf i (edges.map fun e => (e, f e)) = (cols edges i).map fun j => ((i, j), f (i, j))
  | [] => rfl
  | e :: es => by
    have ih := rowOf_map f i es
    unfold rowOf cols at *
    rw [List.map_cons, List.filter_cons, List.filter_cons]
    by_cases h : e.1 = i
    · subst h
      simp only [beq_self_eq_true, if_true, List.map_cons, ih]
    · simp only [beq_iff_eq, h, if_false, ih]

theorem softmax_eq (l : List α) : Spec.softmax l = l.map fun v =>
    div (exp (sub v (l.tail.foldl Arith.max (l.headD zero)))) (total (l.map fun v => exp (sub v (l.tail.foldl Arith.max (l.headD zero))))) := by
  cases l with
  | nil => rfl
  | cons x xs => simp [Spec.softmax, List.map_map, Function.comp_def]

/-- The row of a softmax is the softmax of the row. -/
theorem sparseSoftmax_map (f : Nat × Nat → α) (edges : List (Nat × Nat)) :
    ∃ c : Nat × Nat → α, sparseSoftmax (edges.map fun e => (e, f e)) = edges.map (fun e => (e, c e)) ∧
      ∀ i, (cols edges i).map (fun j => c (i, j)) = Spec.softmax ((cols edges i).map fun j => f (i, j)) := by
  refine ⟨fun e => let row := (cols edges e.1).map fun j => f (e.1, j)
    div (exp (sub (f e) (row.tail.foldl Arith.max (row.headD zero)))) (total (row.map fun v => exp (sub v (row.tail.foldl Arith.max (row.headD zero))))), ?_, ?_⟩
  · unfold sparseSoftmax
    rw [List.map_map]
    apply List.map_congr_left
    intro e _
    simp only [Function.comp_apply, rowOf_map, List.map_map, Function.comp_def]
  · intro i
    rw [softmax_eq, List.map_map]
    rfl

theorem zipWith_map_same {β γ δ ε : Type} (f : γ → δ → ε) (g : β → γ) (k : β → δ) (l : List β) :
    List.zipWith f (l.map g) (l.map k) = l.map fun a => f (g a) (k a) := by
  induction l with
  | nil => rfl
  | cons a l ih => simp [ih]

/-- A sparse product, row by row. -/
theorem sparseMatmul_map (n w : Nat) (c : Nat × Nat → α) (edges : List (Nat × Nat)) (x : Mat α) (hx : x.length = n)
    (hr : ∀ e ∈ edges, e.1 < n ∧ e.2 < n) :
    sparseMatmul n w (edges.map fun e => (e, c e)) x = some ((List.range n).map fun i =>
      Spec.weightedSum w ((cols edges i).map fun j => c (i, j)) ((cols edges i).map fun j => x.getD j [])) := by
  unfold sparseMatmul
  rw [if_pos ⟨hx, by
    rw [List.all_map, List.all_eq_true]
    intro e he
    simp [hr e he]⟩]
  congr 1
  apply List.map_congr_left
  intro i _
  unfold Spec.weightedSum
  apply List.map_congr_left
  intro q _
  rw [rowOf_map, List.map_map, List.map_map, zipWith_map_same]
  rfl

theorem getD_map' {β γ : Type} (f : β → γ) (l : List β) {i : Nat} (h : i < l.length) (d : γ) (e : β) :
    (l.map f).getD i d = f (l.getD i e) := by
  simp [List.getD_eq_getElem?_getD, List.getElem?_map, List.getElem?_eq_getElem h]

theorem cols_lt {edges : List (Nat × Nat)} {n : Nat} (hr : ∀ e ∈ edges, e.1 < n ∧ e.2 < n) {i j : Nat} (h : j ∈ cols edges i) : j < n := by
  obtain ⟨e, he, rfl⟩ := List.mem_map.1 h
  exact (hr e (List.mem_filter.1 he).1).2

theorem score_eq {ws : Vec α} {x : Vec α} (b : α) (h : ws.length = x.length) :
    score ws b x = some (add (total (List.zipWith mul x ws)) b) := by
  unfold score
  rw [dense_eq (by simpa using h)]
  rfl

theorem linear_length (w : Mat α) (x : Vec α) : (Spec.linear w x).length = w.length := by simp [Spec.linear]

theorem attend_length {w d : Nat} {h : Head α} (hf : Spec.HeadFits w d h) (x : Vec α) (xs : List (Vec α)) :
    (Spec.attend h x xs).length = d := by
  simp [Spec.attend, Spec.weightedSum, hf.1, hf.2.2.2.2]

/-- An attention head, row by row. -/
theorem head_eq {w d : Nat} {h : Head α} (hf : Spec.HeadFits w d h) {n : Nat} {edges : List (Nat × Nat)} {feat : Mat α}
    (hn : feat.length = n) (hw : ∀ r ∈ feat, r.length = w) (hr : ∀ e ∈ edges, e.1 < n ∧ e.2 < n) :
    head h n edges feat = some ((List.range n).map fun i =>
      Spec.attend h (feat.getD i []) ((cols edges i).map fun j => feat.getD j [])) := by
  obtain ⟨h1, h2, h3, h4, h5⟩ := hf
  unfold head
  rw [mapM_map (g := Spec.linear h.w) (fun r hr' => dense_eq fun col hc => by rw [h2 col hc, hw r hr'])]
  simp only [Option.bind_some]
  have hs : ∀ s ∈ feat.map (Spec.linear h.w), s.length = d := by
    intro s hs
    obtain ⟨r, _, rfl⟩ := List.mem_map.1 hs
    rw [linear_length, h1]
  rw [mapM_map (fun s hs' => score_eq h.leftBias (by rw [h3, hs s hs'])), mapM_map (fun s hs' => score_eq h.rightBias (by rw [h4, hs s hs']))]
  simp only [Option.bind_some, List.map_map]
  rw [mapM_map (g := fun e => (e, leaky (add
      (add (total (List.zipWith mul (Spec.linear h.w (feat.getD e.1 [])) h.left)) h.leftBias)
      (add (total (List.zipWith mul (Spec.linear h.w (feat.getD e.2 [])) h.right)) h.rightBias)))) (by
    intro e he
    obtain ⟨ha, hb⟩ := hr e he
    rw [List.getElem?_map, List.getElem?_map, List.getElem?_eq_getElem (by omega), List.getElem?_eq_getElem (by omega)]
    simp only [Option.map_some, Option.bind_some, Function.comp_apply]
    rw [List.getD_eq_getElem?_getD, List.getD_eq_getElem?_getD, List.getElem?_eq_getElem (by omega), List.getElem?_eq_getElem (by omega)]
    rfl)]
  simp only [Option.bind_some]
  obtain ⟨c, hc1, hc2⟩ := sparseSoftmax_map (fun e : Nat × Nat => leaky (add
      (add (total (List.zipWith mul (Spec.linear h.w (feat.getD e.1 [])) h.left)) h.leftBias)
      (add (total (List.zipWith mul (Spec.linear h.w (feat.getD e.2 [])) h.right)) h.rightBias))) edges
  rw [hc1, sparseMatmul_map n h.w.length c edges _ (by rw [List.length_map, hn]) hr]
  simp only [Option.bind_some]
  rw [if_pos (by rw [h5, h1]), List.map_map]
  congr 1
  apply List.map_congr_left
  intro i _
  simp only [Function.comp_apply]
  rw [hc2]
  unfold Spec.attend
  have hj : (cols edges i).map (fun j => (feat.map (Spec.linear h.w)).getD j []) =
      ((cols edges i).map fun j => feat.getD j []).map (Spec.linear h.w) := by
    rw [List.map_map]
    apply List.map_congr_left
    intro j hj
    exact getD_map' _ _ (by rw [hn]; exact cols_lt hr hj) _ _
  rw [hj]
  simp only [List.map_map, Function.comp_def]

theorem getD_range {β : Type} (f : Nat → β) {n i : Nat} (h : i < n) (d : β) : ((List.range n).map f).getD i d = f i := by
  rw [getD_map' f _ (by simpa using h) d 0]
  simp [List.getD_eq_getElem?_getD, h]

/-- A layer of GAT that puts the heads side by side, row by row. -/
theorem concat_eq {w d : Nat} {heads : List (Head α)} (hne : heads ≠ []) (hf : ∀ h ∈ heads, Spec.HeadFits w d h) {n : Nat}
    {edges : List (Nat × Nat)} {feat : Mat α}
    (hn : feat.length = n) (hw : ∀ r ∈ feat, r.length = w) (hr : ∀ e ∈ edges, e.1 < n ∧ e.2 < n) :
    gatConv .concat heads n edges feat = some ((List.range n).map fun i =>
      Spec.sideBySide heads (feat.getD i []) ((cols edges i).map fun j => feat.getD j [])) := by
  unfold gatConv
  rw [mapM_map fun h hh => head_eq (hf h hh) hn hw hr]
  simp only [Option.bind_some]
  rw [if_neg (by simpa using hne)]
  congr 1
  apply List.map_congr_left
  intro i hi
  have hi' : i < n := by simpa using hi
  simp only [join, List.map_map, Spec.sideBySide, Function.comp_def]
  congr 1
  apply List.map_congr_left
  intro h _
  rw [getD_range _ hi']

/-- A layer of GAT that takes the mean of the heads, row by row. -/
theorem average_eq {w d : Nat} {heads : List (Head α)} (hne : heads ≠ []) (hf : ∀ h ∈ heads, Spec.HeadFits w d h) {n : Nat}
    {edges : List (Nat × Nat)} {feat : Mat α}
    (hn : feat.length = n) (hw : ∀ r ∈ feat, r.length = w) (hr : ∀ e ∈ edges, e.1 < n ∧ e.2 < n) :
    gatConv .average heads n edges feat = some ((List.range n).map fun i =>
      Spec.meanOfHeads heads (feat.getD i []) ((cols edges i).map fun j => feat.getD j [])) := by
  unfold gatConv
  rw [mapM_map fun h hh => head_eq (hf h hh) hn hw hr]
  simp only [Option.bind_some]
  rw [if_neg (by simpa using hne)]
  congr 1
  apply List.map_congr_left
  intro i hi
  have hi' : i < n := by simpa using hi
  have hmap : (heads.map fun h => (List.range n).map fun i =>
      Spec.attend h (feat.getD i []) ((cols edges i).map fun j => feat.getD j [])).map (fun o => o.getD i []) =
      heads.map fun h => Spec.attend h (feat.getD i []) ((cols edges i).map fun j => feat.getD j []) := by
    rw [List.map_map]
    apply List.map_congr_left
    intro h _
    simp only [Function.comp_apply]
    rw [getD_range _ hi']
  rw [hmap]
  cases heads with
  | nil => exact absurd rfl hne
  | cons h hs =>
    simp only [join, Spec.meanOfHeads, List.map_cons, List.tail_cons, List.headD_cons, List.foldl_map, List.length_cons, List.length_map]

/-- A layer of GCN, row by row. -/
theorem gcnConv_eq {w : Nat} {ws : Mat α} (hws : ∀ col ∈ ws, col.length = w) {n : Nat} {c : Nat × Nat → α} {edges : List (Nat × Nat)}
    {feat : Mat α} (hn : feat.length = n) (hw : ∀ r ∈ feat, r.length = w) (hr : ∀ e ∈ edges, e.1 < n ∧ e.2 < n) :
    gcnConv ws n (edges.map fun e => (e, c e)) feat = some ((List.range n).map fun i =>
      Spec.weightedSum ws.length ((cols edges i).map fun j => c (i, j)) ((cols edges i).map fun j => Spec.linear ws (feat.getD j []))) := by
  unfold gcnConv
  rw [mapM_map (g := Spec.linear ws) (fun r hr' => dense_eq fun col hc => by rw [hws col hc, hw r hr'])]
  simp only [Option.bind_some]
  rw [sparseMatmul_map n ws.length c edges _ (by rw [List.length_map, hn]) hr]
  congr 1
  apply List.map_congr_left
  intro i _
  congr 1
  apply List.map_congr_left
  intro j hj
  exact getD_map' _ _ (by rw [hn]; exact cols_lt hr hj) _ _

/-- The factor of row `i`. -/
def rowFactor (edges : List (Nat × Nat)) (i : Nat) : α :=
  let d : α := rsqrt (total ((cols edges i).map fun _ => one))
  if isInf d then zero else d

theorem gcnNormAdj_eq {n : Nat} {edges : List (Nat × Nat)} (hr : ∀ e ∈ edges, e.1 < n ∧ e.2 < n) :
    gcnNormAdj n (edges.map fun e => (e, (one : α))) = some (edges.map fun e => (e, mul (rowFactor edges e.1) (rowFactor edges e.2))) := by
  unfold gcnNormAdj
  rw [if_pos (by
    rw [List.all_map, List.all_eq_true]
    intro e he
    simp [hr e he])]
  dsimp only
  congr 1
  rw [List.map_map]
  apply List.map_congr_left
  intro e he
  obtain ⟨ha, hb⟩ := hr e he
  simp only [Function.comp_apply]
  rw [getD_range _ ha, getD_range _ hb]
  simp only [rowOf_map (fun _ => (one : α)), List.map_map, rowFactor, Function.comp_def]

/-- Two strictly increasing lists with the same members are equal. -/
theorem sorted_unique : ∀ {l m : List Int}, l.Pairwise (· < ·) → m.Pairwise (· < ·) → (∀ a, a ∈ l ↔ a ∈ m) → l = m
  | [], [], _, _, _ => rfl
  | [], b :: m, _, _, h => absurd ((h b).2 (List.mem_cons_self ..)) (List.not_mem_nil)
  | a :: l, [], _, _, h => absurd ((h a).1 (List.mem_cons_self ..)) (List.not_mem_nil)
  | a :: l, b :: m, h1, h2, h => by
    obtain ⟨h1a, h1b⟩ := List.pairwise_cons.1 h1
    obtain ⟨h2a, h2b⟩ := List.pairwise_cons.1 h2
    have hab : a = b := by
      rcases List.mem_cons.1 ((h a).1 (List.mem_cons_self ..)) with e | e
      · exact e
      · rcases List.mem_cons.1 ((h b).2 (List.mem_cons_self ..)) with e' | e'
        · exact e'.symm
        · have := h2a a e; have := h1a b e'; omega
    subst hab
    rw [sorted_unique h1b h2b fun c => ?_]
    constructor
    · intro hc
      rcases List.mem_cons.1 ((h c).1 (List.mem_cons_of_mem _ hc)) with e | e
      · have := h1a c hc; omega
      · exact e
    · intro hc
      rcases List.mem_cons.1 ((h c).2 (List.mem_cons_of_mem _ hc)) with e | e
      · have := h2a c hc; omega
      · exact e

theorem cols_sorted (i : Nat) : ∀ {edges : List (Nat × Nat)}, edges.Pairwise (fun a b => SubGraph.rowLt a b = true) →
    (cols edges i).Pairwise (· < ·) := by
  intro edges h
  unfold cols
  rw [List.pairwise_map]
  refine (List.Pairwise.filter _ h).imp_of_mem ?_
  intro a b ha hb hab
  have h1 : a.1 = i := by simpa using (List.mem_filter.1 ha).2
  have h2 : b.1 = i := by simpa using (List.mem_filter.1 hb).2
  rcases SubGraph.rowLt_iff.1 hab with h3 | h3
  · omega
  · exact h3.2

theorem mem_cols {edges : List (Nat × Nat)} {i j : Nat} : j ∈ cols edges i ↔ (i, j) ∈ edges := by
  unfold cols
  constructor
  · intro h
    obtain ⟨e, he, rfl⟩ := List.mem_map.1 h
    obtain ⟨h1, h2⟩ := List.mem_filter.1 he
    have : e.1 = i := by simpa using h2
    subst this
    exact h1
  · intro h
    exact List.mem_map.2 ⟨(i, j), List.mem_filter.2 ⟨h, by simp⟩, rfl⟩

end DeepGNN.Gat
