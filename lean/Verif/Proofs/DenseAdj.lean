import Verif.Spec.DenseAdj
import Verif.Proofs.Gat

/-
Rows of dense matrices with zeros.
-/

namespace DeepGNN.Gat

open DeepGNN.Sage Arith Analysis

variable {α : Type} [Analysis α]

theorem foldl_filter (z : Spec.ZeroOne α) {f : Nat → α} {p : Nat → Bool} : ∀ (l : List Nat) (acc : α), (∀ x ∈ l, p x = false → f x = zero) →
    (l.map f).foldl add acc = ((l.filter p).map f).foldl add acc
  | [], _, _ => rfl
  | x :: xs, acc, h => by
    have ih := foldl_filter z xs (add acc (f x)) fun y hy => h y (List.mem_cons_of_mem _ hy)
    rw [List.map_cons, List.foldl_cons, ih, List.filter_cons]
    cases hp : p x with
    | true => simp
    | false => rw [h x (List.mem_cons_self ..) hp, z.add_zero]; simp

theorem total_filter (z : Spec.ZeroOne α) {f : Nat → α} (p : Nat → Bool) (l : List Nat) (h : ∀ x ∈ l, p x = false → f x = zero) :
    total (l.map f) = total ((l.filter p).map f) := foldl_filter z l zero h

section
variable {big : α} {small : α → Prop} (sw : Spec.Swamps big small) {L v : Nat → α} {p : Nat → Bool}
include sw

theorem max_small (hs : ∀ x, small (L x)) (h1 : ∀ x, p x = true → v x = L x) (h0 : ∀ x, p x = false → v x = add (L x) big) :
    ∀ (l : List Nat) (acc : α), small acc →
      (l.map v).foldl Arith.max acc = ((l.filter p).map L).foldl Arith.max acc ∧ small ((l.map v).foldl Arith.max acc)
  | [], acc, ha => ⟨rfl, ha⟩
  | x :: xs, acc, ha => by
    rw [List.map_cons, List.foldl_cons, List.filter_cons]
    cases hp : p x with
    | true =>
      rw [h1 x hp]
      exact max_small hs h1 h0 xs _ (sw.small_max _ _ ha (hs x))
    | false =>
      rw [h0 x hp, (sw.above _ _ (hs x) ha).2]
      exact max_small hs h1 h0 xs _ ha

theorem max_low (hs : ∀ x, small (L x)) (h1 : ∀ x, p x = true → v x = L x) (h0 : ∀ x, p x = false → v x = add (L x) big) :
    ∀ (l : List Nat) (y : α), small y → l.filter p ≠ [] →
      (l.map v).foldl Arith.max (add y big) = ((l.filter p).map L).tail.foldl Arith.max (((l.filter p).map L).headD zero) ∧
        small ((l.map v).foldl Arith.max (add y big))
  | [], _, _, h => absurd rfl h
  | x :: xs, y, hy, h => by
    rw [List.filter_cons] at h
    rw [List.map_cons, List.foldl_cons, List.filter_cons]
    cases hp : p x with
    | true =>
      rw [h1 x hp, (sw.above _ _ hy (hs x)).1]
      exact max_small sw hs h1 h0 xs _ (hs x)
    | false =>
      rw [hp] at h
      rw [h0 x hp]
      rcases sw.choice y (L x) with e | e <;> rw [e]
      · exact max_low hs h1 h0 xs _ hy h
      · exact max_low hs h1 h0 xs _ (hs x) h

/-- The greatest number of a row is that of the entries that are not masked. -/
theorem max_row (hs : ∀ x, small (L x)) (h1 : ∀ x, p x = true → v x = L x) (h0 : ∀ x, p x = false → v x = add (L x) big)
    (l : List Nat) (hne : l.filter p ≠ []) :
    (l.map v).tail.foldl Arith.max ((l.map v).headD zero) = ((l.filter p).map L).tail.foldl Arith.max (((l.filter p).map L).headD zero) ∧
      small ((l.map v).tail.foldl Arith.max ((l.map v).headD zero)) := by
  cases l with
  | nil => exact absurd rfl hne
  | cons x xs =>
    rw [List.filter_cons] at hne ⊢
    rw [List.map_cons, List.tail_cons, List.headD_cons]
    cases hp : p x with
    | true =>
      rw [h1 x hp]
      exact max_small sw hs h1 h0 xs _ (hs x)
    | false =>
      rw [hp] at hne
      rw [h0 x hp]
      exact max_low sw hs h1 h0 xs _ (hs x) hne

/-- A weighted sum with the coefficients of a masked row is one over the entries that are not masked. -/
theorem masked_row (z : Spec.ZeroOne α) (hs : ∀ x, small (L x)) (h1 : ∀ x, p x = true → v x = L x)
    (h0 : ∀ x, p x = false → v x = add (L x) big) (n : Nat) (hne : (List.range n).filter p ≠ []) (x : Nat → α) :
    total ((List.range n).map fun j => mul ((softmaxRow ((List.range n).map v)).getD j zero) (x j)) =
      total (List.zipWith mul (Spec.softmax (((List.range n).filter p).map L)) (((List.range n).filter p).map x)) := by
  obtain ⟨hm, hsm⟩ := max_row sw hs h1 h0 (List.range n) hne
  unfold softmaxRow
  rw [softmax_eq]
  simp only
  simp only [← hm, List.map_map]
  rw [zipWith_map_same]
  generalize ((List.range n).map v).tail.foldl Arith.max (((List.range n).map v).headD zero) = M at hsm
  have hT : total ((List.range n).map ((fun u => exp (sub u M)) ∘ v)) = total (((List.range n).filter p).map fun j => exp (sub (L j) M)) := by
    rw [total_filter z p]
    · congr 1
      apply List.map_congr_left
      intro j hj
      simp only [Function.comp_apply]
      rw [h1 j (List.mem_filter.1 hj).2]
    · intro j _ hj
      simp only [Function.comp_apply]
      rw [h0 j hj, sw.vanishes _ _ (hs j) hsm]
  simp only [Function.comp_def] at hT ⊢
  rw [hT]
  rw [total_filter z p]
  · congr 1
    apply List.map_congr_left
    intro j hj
    obtain ⟨hj1, hj2⟩ := List.mem_filter.1 hj
    rw [getD_range _ (by simpa using hj1), h1 j hj2]
  · intro j hj hj2
    rw [getD_range _ (by simpa using hj), h0 j hj2, sw.vanishes _ _ (hs j) hsm, z.zero_div, z.zero_mul]

end

theorem sorted_unique_nat {l m : List Nat} (hl : l.Pairwise (· < ·)) (hm : m.Pairwise (· < ·)) (h : ∀ a, a ∈ l ↔ a ∈ m) : l = m := by
  have hinj : ∀ {a b : List Nat}, a.map Int.ofNat = b.map Int.ofNat → a = b := fun e =>
    (List.map_inj_right (fun _ _ e => Int.ofNat.inj e)).1 e
  apply hinj
  apply sorted_unique
  · rw [List.pairwise_map]; exact hl.imp fun h => Int.ofNat_lt.2 h
  · rw [List.pairwise_map]; exact hm.imp fun h => Int.ofNat_lt.2 h
  · intro a
    simp only [List.mem_map, h]

theorem cols_filter {n : Nat} {edges : List (Nat × Nat)} (he : Spec.EdgesOf n edges) (i : Nat) :
    (List.range n).filter (fun j => decide ((i, j) ∈ edges)) = cols edges i := by
  apply sorted_unique_nat
  · exact List.Pairwise.filter _ List.pairwise_lt_range
  · apply cols_sorted
    exact he.1.imp fun h => SubGraph.rowLt_iff.2 h
  · intro j
    rw [mem_cols, List.mem_filter, decide_eq_true_iff, List.mem_range]
    exact ⟨fun h => h.2, fun h => ⟨(he.2 _ h).2, h⟩⟩

theorem isSquare_range (n : Nat) (f : Nat → Nat → α) : isSquare n ((List.range n).map fun i => (List.range n).map fun j => f i j) = true := by
  simp [isSquare]

/-- A head on a matrix of zeros and ones. -/
theorem headDense_eq {big : α} {small : α → Prop} (z : Spec.ZeroOne α) (sw : Spec.Swamps big small) {w d : Nat} {h : Head α}
    (hf : Spec.HeadFits w d h) {n : Nat} {edges : List (Nat × Nat)} {feat : Mat α} (he : Spec.EdgesOf n edges)
    (hn : feat.length = n) (hw : ∀ r ∈ feat, r.length = w) (hsm : Spec.SmallLogits small h feat)
    (hne : ∀ i < n, ∃ j, (i, j) ∈ edges) :
    headDense big h n (Spec.zeroOne n edges) feat = head h n edges feat := by
  rw [head_eq hf hn hw he.2]
  obtain ⟨h1, h2, h3, h4, h5⟩ := hf
  unfold headDense
  rw [mapM_map (g := Spec.linear h.w) (fun r hr' => dense_eq fun col hc => by rw [h2 col hc, hw r hr'])]
  simp only [Option.bind_some]
  have hs : ∀ s ∈ feat.map (Spec.linear h.w), s.length = d := by
    intro s hs
    obtain ⟨r, _, rfl⟩ := List.mem_map.1 hs
    rw [linear_length, h1]
  rw [mapM_map (fun s hs' => score_eq h.leftBias (by rw [h3, hs s hs'])), mapM_map (fun s hs' => score_eq h.rightBias (by rw [h4, hs s hs']))]
  simp only [Option.bind_some]
  rw [if_pos ⟨by simp [hn], isSquare_range n _, by rw [h5, h1]⟩]
  congr 1
  unfold denseMatmul
  rw [List.map_map, List.map_map]
  apply List.map_congr_left
  intro i hi
  have hin : i < n := by simpa using hi
  simp only [Function.comp_apply]
  unfold Spec.attend Spec.weightedSum
  refine congrArg (fun v => (List.zipWith add v h.bias).map elu) ?_
  apply List.map_congr_left
  intro q _
  have hmem : ∀ j < n, feat.getD j [] ∈ feat := by
    intro j hj
    rw [List.getD_eq_getElem?_getD, List.getElem?_eq_getElem (by omega)]
    exact List.getElem_mem _
  let L : Nat → α := fun j => if j < n then leaky (add (add (total (List.zipWith mul (Spec.linear h.w (feat.getD i [])) h.left)) h.leftBias)
    (add (total (List.zipWith mul (Spec.linear h.w (feat.getD j [])) h.right)) h.rightBias)) else
      leaky (add (add (total (List.zipWith mul (Spec.linear h.w (feat.getD i [])) h.left)) h.leftBias)
    (add (total (List.zipWith mul (Spec.linear h.w (feat.getD i [])) h.right)) h.rightBias))
  let p : Nat → Bool := fun j => decide ((i, j) ∈ edges)
  let v : Nat → α := fun j => add (L j) (mul big (sub one (if (i, j) ∈ edges then one else zero)))
  have hsL : ∀ j, small (L j) := by
    intro j
    show small (if j < n then _ else _)
    split
    · exact hsm _ (hmem i hin) _ (hmem j ‹_›)
    · exact hsm _ (hmem i hin) _ (hmem i hin)
  have hv1 : ∀ j, p j = true → v j = L j := by
    intro j hj
    show add (L j) (mul big (sub one (if (i, j) ∈ edges then one else zero))) = L j
    rw [if_pos (of_decide_eq_true hj), z.one_sub_one, z.mul_zero, z.add_zero]
  have hv0 : ∀ j, p j = false → v j = add (L j) big := by
    intro j hj
    show add (L j) (mul big (sub one (if (i, j) ∈ edges then one else zero))) = add (L j) big
    rw [if_neg (of_decide_eq_false hj), z.one_sub_zero, z.mul_one]
  have hfil : (List.range n).filter p = cols edges i := cols_filter he i
  have hne' : (List.range n).filter p ≠ [] := by
    rw [hfil]
    obtain ⟨j, hj⟩ := hne i hin
    exact List.ne_nil_of_mem (mem_cols.2 hj)
  have key := masked_row sw (v := v) (p := p) z hsL hv1 hv0 n hne' (fun j => ((feat.map (Spec.linear h.w)).getD j []).getD q zero)
  have hrow : (List.range n).map v = (List.range n).map fun j => add (leaky (add
      (((feat.map (Spec.linear h.w)).map fun x => add (total (List.zipWith mul x h.left)) h.leftBias).getD i zero)
      (((feat.map (Spec.linear h.w)).map fun x => add (total (List.zipWith mul x h.right)) h.rightBias).getD j zero)))
      (mul big (sub one (((Spec.zeroOne n edges : Mat α).getD i []).getD j zero))) := by
    apply List.map_congr_left
    intro j hj
    have hjn : j < n := by simpa using hj
    unfold Spec.zeroOne
    rw [getD_range _ hin, getD_range _ hjn, List.map_map, List.map_map, getD_map' _ _ (by omega) _ [], getD_map' _ _ (by omega) _ []]
    show add (if j < n then _ else _) _ = _
    rw [if_pos hjn]
    rfl
  rw [← hrow, key, hfil]
  rw [List.map_map, List.map_map, List.map_map]
  congr 2
  · congr 1
    apply List.map_congr_left
    intro j hj
    show (if j < n then _ else _) = _
    rw [if_pos (cols_lt he.2 hj)]
    rfl
  · rw [List.map_map]
    apply List.map_congr_left
    intro j hj
    simp only [Function.comp_apply]
    rw [getD_map' _ _ (by have := cols_lt he.2 hj; omega) _ []]

/-- The product with a diagonal matrix on the left and on the right. -/
theorem diag_product (z : Spec.ZeroOne α) {n : Nat} (d : List α) (hd : d.length = n) (f : Nat → Nat → α) :
    denseMatmul n n (denseMatmul n n (diag d) ((List.range n).map fun i => (List.range n).map fun j => f i j)) (diag d) =
      (List.range n).map fun i => (List.range n).map fun j => mul (mul (d.getD i zero) (f i j)) (d.getD j zero) := by
  have single : ∀ (g : Nat → α) (i : Nat), i < n → (∀ j < n, j ≠ i → g j = zero) → total ((List.range n).map g) = g i := by
    intro g i hi hg
    rw [total_filter z (fun j => decide (j = i)) _ (fun j hj h => hg j (by simpa using hj) (of_decide_eq_false h))]
    have : (List.range n).filter (fun j => decide (j = i)) = [i] := by
      apply sorted_unique_nat (List.Pairwise.filter _ List.pairwise_lt_range) (List.pairwise_singleton ..)
      intro a
      rw [List.mem_filter, List.mem_range, List.mem_singleton, decide_eq_true_iff]
      exact ⟨fun h => h.2, fun h => ⟨h ▸ hi, h⟩⟩
    rw [this]
    show add zero (g i) = g i
    exact z.zero_add _
  unfold denseMatmul diag
  rw [hd, List.map_map, List.map_map]
  apply List.map_congr_left
  intro i hi
  have hin : i < n := by simpa using hi
  simp only [Function.comp_apply]
  apply List.map_congr_left
  intro j hj
  have hjn : j < n := by simpa using hj
  rw [single _ j hjn]
  · rw [getD_range _ hjn, getD_range _ hjn, getD_range _ hjn, if_pos rfl]
    rw [single _ i hin]
    · rw [getD_range _ hin, getD_range _ hin, getD_range _ hjn, if_pos rfl]
    · intro k hk hki
      rw [getD_range _ hk, if_neg (fun e => hki e.symm), z.zero_mul]
  · intro k hk hkj
    rw [getD_range (fun i => List.map (fun j => if i = j then d.getD i zero else zero) (List.range n)) hk, getD_range _ hjn, if_neg hkj, z.mul_zero]

theorem getD_of_map {β : Type} {l : List β} {f : Nat → β} {n : Nat} (h : l = (List.range n).map f) {i : Nat} (hi : i < n) (d : β) :
    l.getD i d = f i := by
  rw [h]; exact getD_range f hi d

/-- Normalisation of a matrix of zeros and ones. -/
theorem gcnNormAdjDense_eq (z : Spec.ZeroOne α) {n : Nat} {edges : List (Nat × Nat)} (he : Spec.EdgesOf n edges) :
    gcnNormAdjDense n (Spec.zeroOne n edges : Mat α) = some ((List.range n).map fun i => (List.range n).map fun j =>
      if (i, j) ∈ edges then mul (rowFactor edges i) (rowFactor edges j) else zero) := by
  unfold gcnNormAdjDense
  rw [if_pos (show isSquare n (Spec.zeroOne n edges : Mat α) = true from isSquare_range n _)]
  dsimp only
  have hd : (Spec.zeroOne n edges : Mat α).map (fun row => if isInf (rsqrt (total row)) = true then zero else rsqrt (total row)) =
      (List.range n).map fun i => rowFactor edges i := by
    unfold Spec.zeroOne
    rw [List.map_map]
    apply List.map_congr_left
    intro i _
    have ht : total ((List.range n).map fun j => if (i, j) ∈ edges then (one : α) else zero) = total ((cols edges i).map fun _ => one) := by
      rw [total_filter z (fun j => decide ((i, j) ∈ edges)), cols_filter he]
      · congr 1
        apply List.map_congr_left
        intro j hj
        rw [if_pos (mem_cols.1 hj)]
      · intro j _ h
        rw [if_neg (of_decide_eq_false h)]
    simp only [Function.comp_apply]
    rw [ht]
    rfl
  rw [hd]
  unfold Spec.zeroOne
  rw [diag_product z _ (by simp)]
  congr 1
  apply List.map_congr_left
  intro i hi
  apply List.map_congr_left
  intro j hj
  rw [getD_range _ (by simpa using hi), getD_range _ (by simpa using hj)]
  split
  · rw [z.mul_one]
  · rw [z.mul_zero, z.zero_mul]

end DeepGNN.Gat
