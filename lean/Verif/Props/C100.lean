import Verif.Proofs.Evaluate
import Verif.Proofs.Sage
import Verif.Proofs.Json
import Verif.Proofs.Retry

/-
C100: the accuracy and the loss reported for an evaluation of a supervised PyTorch model are those of all evaluated nodes: the part
of the nodes whose class is predicted and the mean of their losses, however the nodes are divided into batches and among workers.

The metric of one worker is that when every batch has at least two nodes and there are at least two classes; F1 and accuracy are then
the same number.  A batch with a single node makes the evaluation fail.  Losses, metrics of single steps and the results of several
workers are means of means: right for equal parts only.
-/

namespace DeepGNN

open DeepGNN.Evaluate DeepGNN.Spec

namespace Evaluate

variable {nll : List Rat → Nat → Rat} {m : Metric} {c : Nat}

/-- The results of all batches. -/
theorem outs_eq (hc : 2 ≤ c) {batches : List (List Node)} (hs : Batches c batches) (hb : ∀ b ∈ batches, 2 ≤ b.length) :
    batches.mapM (lossInner nll) = some (batches.map fun b =>
      (Metrics.mean (b.map fun n => nll n.scores (top n.labels)), b.map fun n => top n.scores, b.map fun n => top n.labels)) :=
  mapM_some_map _ _ _ fun b h => lossInner_eq nll hc (hb b h) (hs b h)

theorem losses_eq {batches : List (List Node)} {loss : Node → Rat} (hc : 2 ≤ c) (hs : Batches c batches)
    (hl : Losses nll loss batches.flatten) :
    batches.map (fun b => Metrics.mean (b.map fun n => nll n.scores (top n.labels))) = batches.map (meanLoss loss) := by
  apply List.map_congr_left
  intro b hb
  show average _ = average _
  congr 1
  apply List.map_congr_left
  intro n hn
  have : n.labels ≠ [] := by
    intro h
    have := (hs b hb n hn).2
    rw [h] at this
    simp at this
    omega
  exact (hl n (List.mem_flatten.2 ⟨b, hb, hn⟩) _ (greatest_of_argmax (argmax_top this))).symm

theorem evaluate_all (hc : 2 ≤ c) {batches : List (List Node)} (hs : Batches c batches) (hb : ∀ b ∈ batches, 2 ≤ b.length)
    (hne : batches ≠ []) {hit : Node → Bool} (hh : Hits hit batches.flatten) {loss : Node → Rat} (hl : Losses nll loss batches.flatten) :
    evaluate nll m false batches = some (hitRate hit batches.flatten, average (batches.map (meanLoss loss))) := by
  unfold evaluate
  rw [outs_eq hc hs hb, Option.bind_some, if_neg (by simp)]
  simp only [List.map_map]
  have hp : (batches.map ((fun o : Rat × List Nat × List Nat => o.2.1) ∘ fun b =>
      (Metrics.mean (b.map fun n => nll n.scores (top n.labels)), b.map fun n => top n.scores, b.map fun n => top n.labels))).isEmpty = false := by
    cases batches with
    | nil => exact absurd rfl hne
    | cons _ _ => rfl
  unfold computeMetric
  rw [hp, if_neg (by simp), Option.map_some]
  have hlen : (batches.map ((fun o : Rat × List Nat × List Nat => o.1) ∘ fun b =>
      (Metrics.mean (b.map fun n => nll n.scores (top n.labels)), b.map fun n => top n.scores, b.map fun n => top n.labels))) =
      batches.map (meanLoss loss) := losses_eq hc hs hl
  rw [hlen, meanOrZero, if_pos (by rw [List.length_map]; exact List.length_pos_iff.2 hne)]
  congr 2
  have h1 : (batches.map ((fun o : Rat × List Nat × List Nat => o.2.1) ∘ fun b =>
      (Metrics.mean (b.map fun n => nll n.scores (top n.labels)), b.map fun n => top n.scores, b.map fun n => top n.labels))).flatten =
      batches.flatten.map fun n => top n.scores := by rw [List.map_flatten]; rfl
  have h2 : (batches.map ((fun o : Rat × List Nat × List Nat => o.2.2) ∘ fun b =>
      (Metrics.mean (b.map fun n => nll n.scores (top n.labels)), b.map fun n => top n.scores, b.map fun n => top n.labels))).flatten =
      batches.flatten.map fun n => top n.labels := by rw [List.map_flatten]; rfl
  rw [h1, h2]
  refine compute_eq m hc ?_ hh
  intro n hn
  obtain ⟨b, hb, hn⟩ := List.mem_flatten.1 hn
  exact hs b hb n hn

theorem evaluate_steps (hc : 2 ≤ c) {batches : List (List Node)} (hs : Batches c batches) (hb : ∀ b ∈ batches, 2 ≤ b.length)
    (hne : batches ≠ []) {hit : Node → Bool} (hh : Hits hit batches.flatten) {loss : Node → Rat} (hl : Losses nll loss batches.flatten) :
    evaluate nll m true batches = some (average (batches.map (hitRate hit)), average (batches.map (meanLoss loss))) := by
  unfold evaluate
  rw [outs_eq hc hs hb, Option.bind_some, if_pos rfl]
  have hm : ((batches.map fun b => (Metrics.mean (b.map fun n => nll n.scores (top n.labels)), b.map fun n => top n.scores, b.map fun n => top n.labels)).mapM
      fun o => computeMetric m [o.2.1] [o.2.2]) = some (batches.map (hitRate hit)) := by
    rw [List.mapM_map]
    refine mapM_some_map _ _ _ fun b hbm => ?_
    show (if ([b.map fun n => top n.scores] : List (List Nat)).isEmpty then none else
      some (m.compute ([b.map fun n => top n.scores] : List (List Nat)).flatten ([b.map fun n => top n.labels] : List (List Nat)).flatten)) = _
    rw [if_neg (by simp)]
    simp only [List.flatten_cons, List.flatten_nil, List.append_nil]
    rw [compute_eq m hc (hs b hbm) fun n hn => hh n (List.mem_flatten.2 ⟨b, hbm, hn⟩)]
  have hpos : 0 < batches.length := List.length_pos_iff.2 hne
  rw [hm, Option.map_some, Option.map_some, meanOrZero, if_pos (by rw [List.length_map]; exact hpos)]
  have hlen : ((batches.map fun b => (Metrics.mean (b.map fun n => nll n.scores (top n.labels)), b.map fun n => top n.scores, b.map fun n => top n.labels)).map
      (fun o => o.1)) = batches.map (meanLoss loss) := by
    rw [List.map_map]
    exact losses_eq hc hs hl
  rw [hlen, meanOrZero, if_pos (by rw [List.length_map]; exact hpos)]
  rfl

theorem rates_equal {k : Nat} (hit : Node → Bool) {l : List (List Node)} (h : ∀ b ∈ l, b.length = k) :
    average (l.map (hitRate hit)) = hitRate hit l.flatten := by
  rw [hitRate_average]
  have := average_groups (k := k) (l := l.map fun b => b.map fun n => if hit n then (1 : Rat) else 0) (by
    intro b hb
    obtain ⟨x, hx, rfl⟩ := List.mem_map.1 hb
    rw [List.length_map, h x hx])
  rw [List.map_map, ← List.map_flatten] at this
  rw [← this]
  congr 1
  apply List.map_congr_left
  intro b _
  exact hitRate_average hit b

theorem meanLoss_equal {k : Nat} (loss : Node → Rat) {l : List (List Node)} (h : ∀ b ∈ l, b.length = k) :
    average (l.map (meanLoss loss)) = meanLoss loss l.flatten := by
  have := average_groups (k := k) (l := l.map fun b => b.map loss) (by
    intro b hb
    obtain ⟨x, hx, rfl⟩ := List.mem_map.1 hb
    rw [List.length_map, h x hx])
  rw [List.map_map, ← List.map_flatten] at this
  exact this

/-- There are functions for the classes and losses of all nodes. -/
theorem hits_exist (l : List Node) : Hits (fun n => top n.scores == top n.labels) l := by
  intro n _ i j hi hj
  have h1 : n.scores ≠ [] := by
    intro h
    have := greatest_lt hi
    simp [h] at this
  have h2 : n.labels ≠ [] := by
    intro h
    have := greatest_lt hj
    simp [h] at this
  have e1 := greatest_unique (greatest_of_argmax (argmax_top h1)) hi
  have e2 := greatest_unique (greatest_of_argmax (argmax_top h2)) hj
  rw [← e1, ← e2]
  simp

theorem losses_exist (nll : List Rat → Nat → Rat) (l : List Node) : Losses nll (fun n => nll n.scores (top n.labels)) l := by
  intro n _ j hj
  have h2 : n.labels ≠ [] := by
    intro h
    have := greatest_lt hj
    simp [h] at this
  show nll n.scores (top n.labels) = _
  rw [greatest_unique (greatest_of_argmax (argmax_top h2)) hj]

theorem hitRate_perm (hit : Node → Bool) {a b : List Node} (h : a.Perm b) : hitRate hit a = hitRate hit b := by
  unfold hitRate
  rw [h.countP_eq, h.length_eq]

end Evaluate

variable {nll : List Rat → Nat → Rat} {m : Metric} {c : Nat} {batches : List (List Node)} {hit : Node → Bool} {loss : Node → Rat}

/-- The metric of a worker, accuracy or F1, is the part of the evaluated nodes whose class is predicted.  Missing for the full
property: batches with one node (C100_single_refuted). -/
theorem C100_accuracy_partial (hc : 2 ≤ c) (hs : Batches c batches) (hb : ∀ b ∈ batches, 2 ≤ b.length) (hne : batches ≠ [])
    (hh : Hits hit batches.flatten) : (evaluate nll m false batches).map (·.1) = some (hitRate hit batches.flatten) := by
  rw [evaluate_all hc hs hb hne hh (losses_exist nll _)]
  rfl

/-- The metric does not depend on the division of the nodes into batches, nor on their order. -/
theorem C100_batches (hc : 2 ≤ c) {other : List (List Node)} (hs : Batches c batches) (hb : ∀ b ∈ batches, 2 ≤ b.length) (hne : batches ≠ [])
    (hb' : ∀ b ∈ other, 2 ≤ b.length) (hp : batches.flatten.Perm other.flatten) :
    (evaluate nll m false batches).map (·.1) = (evaluate nll m false other).map (·.1) := by
  have hs' : Batches c other := by
    intro b hb n hn
    have := hp.mem_iff.2 (List.mem_flatten.2 ⟨b, hb, hn⟩)
    obtain ⟨b2, hb2, hn2⟩ := List.mem_flatten.1 this
    exact hs b2 hb2 n hn2
  have hne' : other ≠ [] := by
    intro h
    subst h
    have h0 := hp.length_eq
    cases batches with
    | nil => exact hne rfl
    | cons b l =>
      have := hb b (by simp)
      simp at h0
      rw [h0.1] at this
      simp at this
  rw [C100_accuracy_partial hc hs hb hne (hits_exist _), C100_accuracy_partial hc hs' hb' hne' (hits_exist _), hitRate_perm _ hp]

/-- The loss of a worker is the mean of the losses of all nodes, and a metric computed by steps is the metric of all nodes, when all
batches have the same number of nodes.  Missing for the full property: other batches (C100_loss_refuted, C100_steps_refuted). -/
theorem C100_loss_partial (hc : 2 ≤ c) {k : Nat} (hk : 2 ≤ k) (perStep : Bool) (hs : Batches c batches) (hb : ∀ b ∈ batches, b.length = k)
    (hne : batches ≠ []) (hh : Hits hit batches.flatten) (hl : Losses nll loss batches.flatten) :
    evaluate nll m perStep batches = some (hitRate hit batches.flatten, meanLoss loss batches.flatten) := by
  have hb2 : ∀ b ∈ batches, 2 ≤ b.length := fun b h => by rw [hb b h]; exact hk
  cases perStep with
  | false => rw [evaluate_all hc hs hb2 hne hh hl, meanLoss_equal loss hb]
  | true => rw [evaluate_steps hc hs hb2 hne hh hl, meanLoss_equal loss hb, rates_equal hit hb]

/-- Refuted: two batches of different sizes with different mean losses never give the mean of the losses of all nodes, as with a
smaller last batch. -/
theorem C100_loss_refuted (hc : 2 ≤ c) {a b : List Node} (hs : Batches c [a, b]) (ha : 2 ≤ a.length) (hb : 2 ≤ b.length)
    (hl : Losses nll loss (a ++ b)) (hn : a.length ≠ b.length) (hd : meanLoss loss a ≠ meanLoss loss b) (perStep : Bool) :
    ∃ x, (evaluate nll m perStep [a, b]).map (·.2) = some x ∧ x ≠ meanLoss loss (a ++ b) := by
  have hb2 : ∀ x ∈ [a, b], 2 ≤ x.length := by
    intro x hx
    rcases List.mem_cons.1 hx with rfl | hx
    · exact ha
    · rw [List.mem_singleton.1 hx]; exact hb
  have hl' : Losses nll loss [a, b].flatten := by simpa using hl
  refine ⟨average [meanLoss loss a, meanLoss loss b], ?_, ?_⟩
  · cases perStep with
    | false =>
      rw [evaluate_all hc hs hb2 (by simp) (hits_exist _) hl']
      rfl
    | true =>
      rw [evaluate_steps hc hs hb2 (by simp) (hits_exist _) hl']
      rfl
  · have := average_uneven (a := a.map loss) (b := b.map loss) (by intro h; simp at h; simp [h] at ha) (by intro h; simp at h; simp [h] at hb)
      (by simpa using hn) hd
    rw [← List.map_append] at this
    exact this

/-- Refuted: the same for metrics computed by steps. -/
theorem C100_steps_refuted (hc : 2 ≤ c) {a b : List Node} (hs : Batches c [a, b]) (ha : 2 ≤ a.length) (hb : 2 ≤ b.length)
    (hh : Hits hit (a ++ b)) (hn : a.length ≠ b.length) (hd : hitRate hit a ≠ hitRate hit b) :
    ∃ x, (evaluate nll m true [a, b]).map (·.1) = some x ∧ x ≠ hitRate hit (a ++ b) := by
  have hb2 : ∀ x ∈ [a, b], 2 ≤ x.length := by
    intro x hx
    rcases List.mem_cons.1 hx with rfl | hx
    · exact ha
    · rw [List.mem_singleton.1 hx]; exact hb
  have hh' : Hits hit [a, b].flatten := by simpa using hh
  refine ⟨average [hitRate hit a, hitRate hit b], ?_, ?_⟩
  · rw [evaluate_steps hc hs hb2 (by simp) hh' (losses_exist nll _)]
    rfl
  · rw [hitRate_average, hitRate_average] at hd
    have := average_uneven (by intro h; simp at h; simp [h] at ha) (by intro h; simp at h; simp [h] at hb) (by simpa using hn) hd
    rw [← List.map_append] at this
    rw [hitRate_average, hitRate_average, hitRate_average]
    exact this

/-- Refuted: a batch with a single node, as the last of `k * n + 1` nodes in batches of `n`, makes the evaluation fail, and so do
labels with a single class. -/
theorem C100_single_refuted {b : List Node} (hm : b ∈ batches) (h : b.length = 1 ∨ (b ≠ [] ∧ ∀ n ∈ b, n.labels.length = 1)) (perStep : Bool) :
    evaluate nll m perStep batches = none := by
  have h1 : lossInner nll b = none := by
    show (if b.length = 1 ∨ ((b.map (·.labels)).headD []).length = 1 then none else _) = _
    rw [if_pos]
    rcases h with h | ⟨hne, h⟩
    · exact Or.inl h
    · cases b with
      | nil => exact absurd rfl hne
      | cons n b => exact Or.inr (h n (by simp))
  have h2 : batches.mapM (lossInner nll) = none := by
    cases hr : batches.mapM (lossInner nll) with
    | none => rfl
    | some r =>
      obtain ⟨i, hi⟩ := List.mem_iff_getElem?.1 hm
      have := Json.mapM_get hr i
      rw [hi, Option.bind_some, h1] at this
      have hlen := Retry.length_mapM hr
      have hlt := (List.getElem?_eq_some_iff.1 hi).1
      rw [eq_comm, List.getElem?_eq_none_iff] at this
      omega
  unfold evaluate
  rw [h2]
  rfl

variable {workers : List (List (List Node))}

/-- The metric of several workers is that of all their nodes when the workers evaluate equally many nodes.  Missing for the full
property: other divisions (C100_workers_refuted, C100_idle_refuted). -/
theorem C100_workers_partial (hc : 2 ≤ c) {k : Nat} (hs : ∀ w ∈ workers, Batches c w) (hb : ∀ w ∈ workers, ∀ b ∈ w, 2 ≤ b.length)
    (hne : ∀ w ∈ workers, w ≠ []) (hk : ∀ w ∈ workers, w.flatten.length = k) (hh : Hits hit (workers.map List.flatten).flatten) :
    (evaluateAll nll m false workers).map (·.1) = some (hitRate hit (workers.map List.flatten).flatten) := by
  have hall : workers.mapM (evaluate nll m false) = some (workers.map fun w =>
      (hitRate hit w.flatten, average (w.map (meanLoss fun n => nll n.scores (top n.labels))))) :=
    mapM_some_map _ _ _ fun w hw => evaluate_all hc (hs w hw) (hb w hw) (hne w hw)
      (fun n hn => hh n (List.mem_flatten.2 ⟨w.flatten, List.mem_map.2 ⟨w, hw, rfl⟩, hn⟩)) (losses_exist nll _)
  unfold evaluateAll
  rw [hall, Option.map_some, Option.map_some]
  have h0 := rates_equal (k := k) hit (l := workers.map List.flatten) (by
    intro b hb
    obtain ⟨w, hw, rfl⟩ := List.mem_map.1 hb
    exact hk w hw)
  rw [← h0]
  unfold average
  simp only [List.map_map, List.length_map]
  rfl

/-- The loss of several workers is the mean loss of all their nodes when they evaluate equally many batches of the same size.  Missing
for the full property: other divisions (C100_loss_refuted, C100_idle_refuted). -/
theorem C100_workers_loss_partial (hc : 2 ≤ c) {j k : Nat} (hk : 2 ≤ k) (hj : 1 ≤ j) (perStep : Bool) (hs : ∀ w ∈ workers, Batches c w)
    (hb : ∀ w ∈ workers, ∀ b ∈ w, b.length = k) (hne : ∀ w ∈ workers, w.length = j) (hl : Losses nll loss (workers.map List.flatten).flatten) :
    (evaluateAll nll m perStep workers).map (·.2) = some (meanLoss loss (workers.map List.flatten).flatten) := by
  have hall : workers.mapM (evaluate nll m perStep) = some (workers.map fun w =>
      (hitRate (fun n => top n.scores == top n.labels) w.flatten, meanLoss loss w.flatten)) :=
    mapM_some_map _ _ _ fun w hw => C100_loss_partial hc hk perStep (hs w hw) (hb w hw)
      (by intro h; have := hne w hw; simp [h] at this; omega) (hits_exist _)
      (fun n hn => hl n (List.mem_flatten.2 ⟨w.flatten, List.mem_map.2 ⟨w, hw, rfl⟩, hn⟩))
  unfold evaluateAll
  rw [hall, Option.map_some, Option.map_some]
  have h0 := meanLoss_equal (k := j * k) loss (l := workers.map List.flatten) (by
    intro b hbm
    obtain ⟨w, hw, rfl⟩ := List.mem_map.1 hbm
    rw [length_flatten_same (hb w hw), hne w hw])
  rw [← h0]
  unfold average
  simp only [List.map_map, List.length_map]
  rfl

/-- Refuted: two workers with different numbers of nodes and different accuracies never report the accuracy of all nodes. -/
theorem C100_workers_refuted (hc : 2 ≤ c) {v w : List (List Node)} (hs : Batches c (v ++ w)) (hb : ∀ b ∈ v ++ w, 2 ≤ b.length)
    (hv : v ≠ []) (hw : w ≠ []) (hh : Hits hit (v ++ w).flatten) (hn : v.flatten.length ≠ w.flatten.length)
    (hd : hitRate hit v.flatten ≠ hitRate hit w.flatten) :
    ∃ x, (evaluateAll nll m false [v, w]).map (·.1) = some x ∧ x ≠ hitRate hit (v ++ w).flatten := by
  rw [List.flatten_append] at hh ⊢
  have ev := evaluate_all (m := m) hc (fun b h => hs b (List.mem_append_left _ h)) (fun b h => hb b (List.mem_append_left _ h)) hv
    (fun n h => hh n (List.mem_append_left _ h)) (losses_exist nll v.flatten)
  have ew := evaluate_all (m := m) hc (fun b h => hs b (List.mem_append_right _ h)) (fun b h => hb b (List.mem_append_right _ h)) hw
    (fun n h => hh n (List.mem_append_right _ h)) (losses_exist nll w.flatten)
  refine ⟨average [hitRate hit v.flatten, hitRate hit w.flatten], ?_, ?_⟩
  · unfold evaluateAll
    rw [List.mapM_cons, List.mapM_cons, List.mapM_nil, ev, ew]
    rfl
  · rw [hitRate_average, hitRate_average] at hd
    have hpos : ∀ {l : List (List Node)}, l ≠ [] → (∀ b ∈ l, 2 ≤ b.length) → l.flatten ≠ [] := by
      intro l hl h h0
      cases l with
      | nil => exact hl rfl
      | cons b l =>
        have := h b (by simp)
        rw [List.flatten_cons, List.append_eq_nil_iff] at h0
        rw [h0.1] at this
        simp at this
    have := average_uneven (by intro h; exact hpos hv (fun b h => hb b (List.mem_append_left _ h)) (List.map_eq_nil_iff.1 h))
      (by intro h; exact hpos hw (fun b h => hb b (List.mem_append_right _ h)) (List.map_eq_nil_iff.1 h)) (by rw [List.length_map, List.length_map]; exact hn) hd
    rw [← List.map_append] at this
    rw [hitRate_average, hitRate_average, hitRate_average]
    exact this

/-- Refuted: a worker without batches makes the evaluation fail; with metrics computed by steps it counts as a worker with metric and
loss zero, so that one such worker halves what the other one reports. -/
theorem C100_idle_refuted {v : List (List Node)} :
    (evaluateAll nll m false [v, []] = none) ∧
    ∀ x l, evaluate nll m true v = some (x, l) → evaluateAll nll m true [v, []] = some (x / 2, l / 2) := by
  constructor
  · unfold evaluateAll
    rw [List.mapM_cons, List.mapM_cons, List.mapM_nil]
    have : evaluate nll m false [] = none := rfl
    rw [this]
    cases evaluate nll m false v <;> rfl
  · intro x l h
    have h0 : evaluate nll m true [] = some (0, 0) := rfl
    unfold evaluateAll
    rw [List.mapM_cons, List.mapM_cons, List.mapM_nil, h, h0]
    show some ((x + (0 + 0)) / ((2 : Nat) : Rat), (l + (0 + 0)) / ((2 : Nat) : Rat)) = _
    have e : ((2 : Nat) : Rat) = 2 := rfl
    have z : (0 : Rat) + 0 = 0 := by grind
    rw [e, z, Rat.add_zero, Rat.add_zero]

/-! A case that meets the hypotheses -/

/-- Five nodes in two batches. -/
def C100_a : List Node := [⟨[3, 1, 2], [1, 0, 0]⟩, ⟨[0, 2, 2], [0, 0, 1]⟩]
def C100_b : List Node := [⟨[5, 0, 1], [1, 0, 0]⟩, ⟨[0, 1, 0], [0, 1, 0]⟩, ⟨[0, 1, 2], [0, 0, 1]⟩]

/-- A loss: by how much the score of the class falls short of 5. -/
def C100_nll (scores : List Rat) (k : Nat) : Rat := 5 - scores.getD k 0

theorem C100_ok : Batches 3 [C100_a, C100_b] := by
  intro b hb
  simp only [List.mem_cons, List.not_mem_nil, or_false] at hb
  rcases hb with rfl | rfl <;> decide

example : (evaluate C100_nll .f1 false [C100_a, C100_b]).map (·.1) = some (4 / 5) := by
  rw [C100_accuracy_partial (c := 3) (by omega) C100_ok (by decide) (by decide) (hits_exist _)]
  decide +kernel

example : (evaluate C100_nll .accuracy false [C100_a ++ C100_b]).map (·.1) = some (4 / 5) := by
  rw [← C100_batches (c := 3) (batches := [C100_a, C100_b]) (by omega) C100_ok (by decide) (by decide) (by decide) (by simp)]
  decide +kernel

example : evaluate C100_nll .accuracy true [C100_a, C100_a] = some (1 / 2, 5 / 2) := by
  rw [C100_loss_partial (c := 3) (k := 2) (by omega) (by omega) true (fun b hb => C100_ok b (by simp_all)) (by decide) (by decide)
    (hits_exist _) (losses_exist _ _)]
  decide +kernel

example : ∃ x, (evaluate C100_nll .accuracy false [C100_a, C100_b]).map (·.2) = some x ∧
    x ≠ meanLoss (fun n => C100_nll n.scores (top n.labels)) (C100_a ++ C100_b) :=
  C100_loss_refuted (c := 3) (by omega) C100_ok (by decide) (by decide) (losses_exist _ _) (by decide) (by decide +kernel) false

example : ∃ x, (evaluate C100_nll .accuracy true [C100_a, C100_b]).map (·.1) = some x ∧
    x ≠ hitRate (fun n => top n.scores == top n.labels) (C100_a ++ C100_b) :=
  C100_steps_refuted (c := 3) (by omega) C100_ok (by decide) (by decide) (hits_exist _) (by decide) (by decide +kernel)

example : evaluate C100_nll .accuracy false [C100_a, [⟨[3, 1, 2], [1, 0, 0]⟩]] = none :=
  C100_single_refuted (b := [⟨[3, 1, 2], [1, 0, 0]⟩]) (by simp) (Or.inl rfl) false

example : (evaluateAll C100_nll .accuracy false [[C100_a], [C100_a]]).map (·.1) = some (1 / 2) := by
  rw [C100_workers_partial (c := 3) (k := 2) (by omega)
    (fun w hw b hb => C100_ok b (by
      simp only [List.mem_cons, List.not_mem_nil, or_false, or_self] at hw
      subst hw
      simp_all)) (by decide) (by decide) (by decide) (hits_exist _)]
  decide +kernel

example : (evaluateAll C100_nll .accuracy false [[C100_a], [C100_a]]).map (·.2) = some (5 / 2) := by
  rw [C100_workers_loss_partial (c := 3) (j := 1) (k := 2) (by omega) (by omega) (by omega) false
    (fun w hw b hb => C100_ok b (by
      simp only [List.mem_cons, List.not_mem_nil, or_false, or_self] at hw
      subst hw
      simp_all)) (by decide) (by decide) (losses_exist _ _)]
  decide +kernel

example : ∃ x, (evaluateAll C100_nll .accuracy false [[C100_a], [C100_b]]).map (·.1) = some x ∧
    x ≠ hitRate (fun n => top n.scores == top n.labels) ([C100_a] ++ [C100_b]).flatten :=
  C100_workers_refuted (c := 3) (by omega) C100_ok (by decide) (by decide) (by decide) (hits_exist _) (by decide) (by decide +kernel)

example : evaluateAll C100_nll .accuracy true [[C100_a], []] = some (1 / 4, 5 / 4) := by
  rw [(C100_idle_refuted (m := .accuracy) (nll := C100_nll) (v := [C100_a])).2 (1 / 2) (5 / 2) (by decide +kernel)]
  decide +kernel

end DeepGNN
