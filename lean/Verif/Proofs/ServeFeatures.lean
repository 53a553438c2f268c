import Verif.Proofs.RemoteFeatures
import Verif.Spec.RemoteFeatures

namespace DeepGNN

open Spec

variable {C : WeightCodec} {wm : Option Nat} {m : Meta} {parts : List (List (List Rec))} {g : Graph} {items : List Item}

/-- What a server knows about one feature of a node: the first record with that many features. -/
def nodeCell (parts : List (List (List Rec))) (n : Int) (f : Nat × Nat) : Int × Bytes :=
  match (nodeRecords parts n).find? (fun r => f.1 < r.features.length) with
  | some r => (0, fit f.2 (featureOf r f.1))
  | none => (-1, List.replicate f.2 0)

/-- The answer of a server without timestamps. -/
def nodeAnswer (parts : List (List (List Rec))) (feats : List (Nat × Nat)) (n : Int) : Answer :=
  if (feats.map (nodeCell parts n)).any (fun s => decide (s.1 ≥ 0)) then some (feats.map (nodeCell parts n)) else none

theorem slices_zeros (ns : List Nat) :
    slices ns (List.replicate ns.sum 0) = ns.map fun n => List.replicate n 0 := by
  induction ns with
  | nil => rfl
  | cons n ns ih =>
    rw [slices, List.sum_cons, List.take_replicate, List.drop_replicate, List.map_cons]
    rw [show n + ns.sum - n = ns.sum by omega, ih, Nat.min_eq_left (by omega)]

theorem GraphOk.find_cell (h : GraphOk C m g items parts) (n : Int) (f : Nat × Nat) :
    (match (nodeBlks items n).find? (fun b => f.1 < b.feats.length) with
      | some b => ((0 : Int), fit f.2 ((b.feats[f.1]?.join).getD []))
      | none => (-1, List.replicate f.2 0)) = nodeCell parts n f := by
  have h1 := h.nodeBlks_feats n (fun l => decide (f.1 < l.length)) (by simp)
  simp only [nodeCell]
  rw [← List.head?_filter, ← List.head?_filter]
  revert h1
  generalize (nodeBlks items n).filter (fun b => decide (f.1 < b.feats.length)) = A
  generalize (Spec.nodeRecords parts n).filter (fun r => decide (f.1 < r.features.length)) = B
  intro h1
  cases A with
  | nil => cases B with
    | nil => rfl
    | cons b B => simp at h1
  | cons a A => cases B with
    | nil => simp at h1
    | cons b B =>
      simp only [List.map_cons, List.cons.injEq] at h1
      simp [Spec.featureOf, h1.1]

theorem GraphOk.serveNode (h : GraphOk C m g items parts)
    (hc : ∀ it ∈ items, it.files.nodeFeatureCount ≤ m.nodeFeatureCount) (feats : List (Nat × Nat)) (n : Int) :
    g.serveNode feats n none (List.replicate (feats.map (·.2)).sum 0) = some (feats.map (nodeCell parts n)) := by
  obtain ⟨es, h1, h3⟩ := h.foldEntries n
    (fun (ss : List (Int × Bytes)) (x : Partition × Nat) => x.1.nodeFeature x.2 none feats ss)
    (fun ss b => List.zipWith (stepNode b.feats) feats ss) (fun ss => feats.length = ss.length)
    (by intro ss b hs; simp [← hs]) (by
      intro it hit x hx _ ss hss
      by_cases hm : m.nodeFeatureCount = 0
      · obtain ⟨c, -, hsrc⟩ := item_of_src h.src hit
        rw [ItemOk.feats_nil (hc it hit) hsrc hx hm, zipWith_stepNode_nil _ _ hss,
          Partition.nodeFeature, if_pos ((h.ok it hit).loaded.noNodeFeatures hm)]
      · obtain ⟨lo, hi, e1, e2, ho⟩ := (h.ok it hit).owner hx hm
        rw [Partition.nodeFeature, if_neg, e1, e2]
        · exact stepAll_pure (fun f _ s => nodeFeatureStep_owner ho f s) _
        · rw [(h.ok it hit).loaded.nodeFeatureIndex hm]
          intro hh
          have := congrArg List.length hh
          simp at this)
  rw [Graph.serveNode, h1, Option.bind_some, slices_zeros]
  rw [h3 _ (by simp), foldl_zipWith (fun b : Blk => stepNode b.feats) _ _ _ (by simp)]
  congr 1
  have hcell := h.find_cell n
  clear h3
  induction feats with
  | nil => rfl
  | cons f fs ih =>
    simp only [List.map_cons, List.zipWith_cons_cons]
    rw [ih, foldl_stepNode _ _ _ (by simp)]
    refine congrArg (· :: _) (Eq.trans ?_ (hcell f))
    generalize List.find? _ (nodeBlks items n) = o
    cases o <;> rfl

theorem nodeCell_unset {parts : List (List (List Rec))} {feats : List (Nat × Nat)} {n : Int}
    (h : (feats.map (nodeCell parts n)).any (fun s => decide (s.1 ≥ 0)) = false) :
    (feats.map (nodeCell parts n)).flatMap (·.2) = List.replicate (feats.map (·.2)).sum 0 := by
  induction feats with
  | nil => rfl
  | cons f fs ih =>
    simp only [List.map_cons, List.any_cons, Bool.or_eq_false_iff] at h
    rw [List.map_cons, List.flatMap_cons, ih h.2, List.map_cons, List.sum_cons, ← List.replicate_append_replicate]
    congr 1
    have h1 : ¬ (nodeCell parts n f).1 ≥ 0 := by simpa using h.1
    revert h1
    simp only [nodeCell]
    split
    · intro h1; simp at h1
    · intro _; rfl

theorem GraphOk.nodeCell_absent (h : GraphOk C m g items parts) {n : Int} (hm : g.nodeMap n = none) (f : Nat × Nat) :
    nodeCell parts n f = (-1, List.replicate f.2 0) := by
  have hno := ((entries_items h.parts_eq h.inv n).2).1 hm
  have hnil : nodeBlks items n = [] := by
    simp only [nodeBlks, List.flatMap_eq_nil_iff, List.filter_eq_nil_iff]
    intro it hit b hb
    simpa using hno it hit b hb
  rw [← h.find_cell n f, hnil]
  rfl

theorem GraphOk.serveNodes (h : GraphOk C m g items parts)
    (hc : ∀ it ∈ items, it.files.nodeFeatureCount ≤ m.nodeFeatureCount) (feats : List (Nat × Nat)) (nodes : List Int)
    (i : Nat) (rest : Bytes) (hrest : rest = [] ∨ rest = List.replicate (feats.map (·.2)).sum 0) :
    g.serveNodes feats i rest (nodes.map fun n => (n, none)) = some (featReply i (nodes.map (nodeAnswer parts feats))) := by
  induction nodes generalizing i rest with
  | nil => rfl
  | cons n ns ih =>
    rw [List.map_cons, List.map_cons, Graph.serveNodes]
    cases hm : g.nodeMap n with
    | none =>
      simp only [ih _ _ hrest]
      have : nodeAnswer parts feats n = none := by
        rw [nodeAnswer, if_neg]
        simp only [List.any_map, Bool.not_eq_true, List.any_eq_false, Function.comp_apply]
        intro f _
        rw [h.nodeCell_absent hm f]
        simp
      rw [this, featReply]
    | some k =>
      have hbuf : (if rest = [] then List.replicate (feats.map (·.2)).sum 0 else rest) =
          List.replicate (feats.map (·.2)).sum 0 := by
        rcases hrest with rfl | rfl
        · simp
        · split <;> rfl
      simp only [hbuf, h.serveNode hc feats n, Option.bind_some]
      by_cases hany : (feats.map (nodeCell parts n)).any (fun s => decide (s.1 ≥ 0)) = true
      · rw [if_pos hany, ih _ _ (Or.inl rfl), nodeAnswer, if_pos hany, featReply]
        rfl
      · rw [if_neg hany, ih _ _ (Or.inr (nodeCell_unset (by simpa using hany))), nodeAnswer, if_neg hany, featReply]

/-- `GetNodeFeatures` without timestamps. -/
theorem Built.getNodeFeatures (h : Built C wm m parts g) (nodes : List Int) (feats : List (Nat × Nat)) :
    g.getNodeFeatures nodes none feats = some (featReply 0 (nodes.map (nodeAnswer parts feats))) := by
  obtain ⟨items, hg, hc⟩ := h.graphOk
  rw [Graph.getNodeFeatures]
  have : nodes.zip (tsList none nodes.length) = nodes.map fun n => (n, none) := by
    simp only [tsList]
    clear h hg hc
    induction nodes with
    | nil => rfl
    | cons n ns ih => simp [List.replicate_succ, ih]
  rw [this]
  exact hg.serveNodes (fun it hit => (hc it hit).1) feats nodes 0 [] (Or.inl rfl)

end DeepGNN
