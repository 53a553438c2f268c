import Verif.Spec.Remote

/-
Requests to several servers.
-/

namespace DeepGNN

open Spec

theorem foldl_set_recv {ρ α : Type} (merge : List ρ → α) (rs : List ρ) (evs : List (Ev ρ))
    (hev : ∀ i r, Ev.recv i r ∈ evs → rs[i]? = some r) (s : WaitAll ρ α) (hl : s.replies.length = rs.length)
    (h : ∀ i, s.replies[i]? = rs[i]? ∨ ∃ r, Ev.recv i r ∈ evs) :
    (evs.foldl (WaitAll.step merge) s).replies = rs := by
  induction evs generalizing s with
  | nil =>
    simp only [List.foldl_nil]
    apply List.ext_getElem?
    intro i
    rcases h i with h | ⟨r, hr⟩
    · exact h
    · simp at hr
  | cons e evs ih =>
    rw [List.foldl_cons]
    cases e with
    | run j =>
      have hs : (WaitAll.step merge s (.run j)).replies = s.replies := by
        simp only [WaitAll.step]; split <;> rfl
      refine ih (fun i r hr => hev i r (by simp [hr])) _ (by rw [hs]; exact hl) ?_
      intro i
      rw [hs]
      rcases h i with h | ⟨r, hr⟩
      · exact Or.inl h
      · exact Or.inr ⟨r, by simpa using hr⟩
    | recv j r =>
      have hj := hev j r (by simp)
      refine ih (fun i r hr => hev i r (by simp [hr])) _ (by simpa [WaitAll.step] using hl) ?_
      intro i
      simp only [WaitAll.step]
      by_cases hij : j = i
      · subst hij
        left
        have := (List.getElem?_eq_some_iff.1 hj).1
        rw [List.getElem?_set_self (by omega), hj]
      · rw [List.getElem?_set_ne hij]
        rcases h i with h | ⟨r', hr⟩
        · exact Or.inl h
        · simp only [List.mem_cons, Ev.recv.injEq] at hr
          rcases hr with ⟨h1, -⟩ | hr
          · exact absurd h1.symm hij
          · exact Or.inr ⟨r', hr⟩

def isRun {ρ : Type} : Ev ρ → Bool
  | .run _ => true
  | .recv _ _ => false

theorem left_foldl {ρ α : Type} (merge : List ρ → α) (evs : List (Ev ρ)) (s : WaitAll ρ α) :
    (evs.foldl (WaitAll.step merge) s).left = s.left - (evs.filter isRun).length := by
  induction evs generalizing s with
  | nil => rfl
  | cons e evs ih =>
    rw [List.foldl_cons, ih]
    cases e with
    | run j =>
      simp only [WaitAll.step, isRun, List.filter_cons, if_true, List.length_cons]
      split <;> (simp only []; omega)
    | recv j r => simp [WaitAll.step, isRun]

theorem out_no_run {ρ α : Type} (merge : List ρ → α) (evs : List (Ev ρ)) (h : evs.filter isRun = [])
    (s : WaitAll ρ α) : (evs.foldl (WaitAll.step merge) s).out = s.out := by
  induction evs generalizing s with
  | nil => rfl
  | cons e evs ih =>
    rw [List.foldl_cons]
    cases e with
    | run j => simp [isRun] at h
    | recv j r => rw [ih (by simpa [isRun] using h)]; rfl

/-- Split at the last element satisfying a condition. -/
theorem split_last {α : Type} (p : α → Bool) (l : List α) (h : l.filter p ≠ []) :
    ∃ a x b, l = a ++ x :: b ∧ p x = true ∧ b.filter p = [] := by
  induction l with
  | nil => simp at h
  | cons y l ih =>
    by_cases hl : l.filter p = []
    · refine ⟨[], y, l, rfl, ?_, hl⟩
      by_cases hy : p y = true
      · exact hy
      · simp [List.filter_cons, hy, hl] at h
    · obtain ⟨a, x, b, h1, h2, h3⟩ := ih hl
      exact ⟨y :: a, x, b, by simp [h1], h2, h3⟩

theorem runs_count {ρ : Type} (l : List (ρ × Nat)) :
    ((l.flatMap fun x => [Ev.recv x.2 x.1, Ev.run x.2]).filter isRun).length = l.length := by
  induction l with
  | nil => rfl
  | cons x l ih =>
    rw [List.flatMap_cons, List.filter_append, List.length_append, ih]
    have : [Ev.recv x.2 x.1, Ev.run x.2].filter isRun = [(Ev.run x.2 : Ev ρ)] := rfl
    rw [this, List.length_cons, List.length_cons, List.length_nil]
    omega

theorem mem_of_pair_sublist {α : Type} {x y z : α} {a b : List α} (h : [x, y].Sublist (a ++ z :: b)) (hy : y ∉ b)
    (hx : x ≠ z) : x ∈ a := by
  induction a with
  | nil =>
    exfalso
    rw [List.nil_append] at h
    cases h with
    | cons _ h => exact hy (h.subset (by simp))
    | cons_cons _ h => exact hx rfl
  | cons w a ih =>
    rw [List.cons_append] at h
    cases h with
    | cons _ h => exact List.mem_cons_of_mem _ (ih h)
    | cons_cons _ h => simp

/-- The output is the merge of all replies, whatever the order of events. -/
theorem waitAll_eq {ρ α : Type} (merge : List ρ → α) (empty : ρ) (rs : List ρ) (hne : rs ≠ []) (evs : List (Ev ρ))
    (h : Schedule rs evs) : waitAll merge empty rs.length evs = some (merge rs) := by
  have hcount : (evs.filter isRun).length = rs.length := by
    rw [(h.once.filter isRun).length_eq, runs_count]; simp
  have hmem : ∀ e, e ∈ evs ↔ ∃ x ∈ rs.zipIdx, e = Ev.recv x.2 x.1 ∨ e = Ev.run x.2 := by
    intro e
    rw [h.once.mem_iff]
    simp [List.mem_flatMap]
  have hrecv : ∀ i r, Ev.recv i r ∈ evs → rs[i]? = some r := by
    intro i r hr
    obtain ⟨x, hx, h1 | h1⟩ := (hmem _).1 hr
    · simp only [Ev.recv.injEq] at h1
      obtain ⟨rfl, rfl⟩ := h1
      exact List.mem_zipIdx_iff_getElem?.1 hx
    · simp at h1
  have hpos : 0 < rs.length := List.length_pos_iff.2 hne
  obtain ⟨a, x, b, hs, hx, hb⟩ := split_last isRun evs (by
    intro h0; rw [h0] at hcount; simp at hcount; omega)
  cases x with
  | recv i r => simp [isRun] at hx
  | run j =>
    have hlen : (a.filter isRun).length = rs.length - 1 := by
      rw [hs] at hcount
      simp only [List.filter_append, List.filter_cons, isRun, if_true, List.length_append, List.length_cons, hb,
        List.length_nil] at hcount
      omega
    have hall : ∀ i, i < rs.length → ∃ r, Ev.recv i r ∈ a := by
      intro i hi
      have h1 := h.order (rs[i], i) (List.mem_zipIdx_iff_getElem?.2 (by simp))
      rw [hs] at h1
      refine ⟨rs[i], mem_of_pair_sublist h1 ?_ (by simp)⟩
      intro h2
      have : (Ev.run i : Ev ρ) ∈ b.filter isRun := List.mem_filter.2 ⟨h2, rfl⟩
      rw [hb] at this
      simp at this
    rw [waitAll, hs, List.foldl_append, List.foldl_cons, out_no_run merge b hb]
    simp only [WaitAll.step]
    rw [left_foldl, hlen, if_neg (by simp only []; omega)]
    simp only [Option.some.injEq]
    congr 1
    apply foldl_set_recv merge rs a (fun i r hr => hrecv i r (by rw [hs]; simp [hr]))
    · simp
    · intro i
      by_cases hi : i < rs.length
      · exact Or.inr (hall i hi)
      · left
        rw [List.getElem?_eq_none_iff.2 (by simpa using hi), List.getElem?_eq_none_iff.2 (by omega)]

/-- A reply whose first `k` nodes have been read. -/
def readState (k : Nat) (l : List (List Nbr)) : NbrReply × Nat := (replyOf l, (l.take k).flatten.length)

theorem mergeReply_eq (k : Nat) (l : List (List Nbr)) :
    mergeReply k (readState k l) = some (readState (k + 1) l, l.getD k []) := by
  by_cases hk : k < l.length
  · have h1 : l.take (k + 1) = l.take k ++ [l[k]] := by rw [List.take_succ_eq_append_getElem hk]
    have h2 : l.flatten = (l.take k).flatten ++ (l[k] ++ (l.drop (k + 1)).flatten) := by
      rw [← List.flatten_cons, ← List.flatten_append, List.getElem_cons_drop, List.take_append_drop]
    have h3 : l.getD k [] = l[k] := by simp [hk]
    have h4 : (readState (k + 1) l).2 = (readState k l).2 + l[k].length := by
      simp only [readState, h1, List.flatten_append, List.length_append, List.flatten_cons, List.flatten_nil,
        List.append_nil]
    have h5 : (readState k l).1.counts[k]? = some l[k].length := by simp [readState, replyOf, hk]
    rw [mergeReply, h5, h3]
    cases hc : l[k].length with
    | zero =>
      have : l[k] = [] := List.length_eq_zero_iff.1 hc
      simp only [this]
      rw [hc] at h4
      congr 1
      exact Prod.ext (Prod.ext rfl (by simpa using h4.symm)) rfl
    | succ c =>
      simp only []
      have h6 : (readState k l).1.nbrs = (l.take k).flatten ++ (l[k] ++ (l.drop (k + 1)).flatten) := by
        rw [← h2]; rfl
      have h7 : (readState k l).2 = (l.take k).flatten.length := rfl
      rw [h6, if_pos (by simp only [List.length_append, h7]; omega), h7, List.drop_left, ← hc, List.take_left]
      congr 1
      exact Prod.ext (Prod.ext rfl (by rw [h4]; rfl)) rfl
  · have h5 : (readState k l).1.counts[k]? = none := by simp [readState, replyOf]; omega
    rw [mergeReply, h5]
    simp only [readState]
    rw [List.take_of_length_le (by omega), List.take_of_length_le (by omega)]
    simp [List.getElem?_eq_none_iff.2 (Nat.le_of_not_lt hk)]

theorem mergeNode_eq (k : Nat) (ls : List (List (List Nbr))) :
    mergeNode k (ls.map (readState k)) =
      some (ls.map (readState (k + 1)), answersFor ls k, (answersFor ls k).length) := by
  induction ls with
  | nil => rfl
  | cons l ls ih =>
    rw [List.map_cons, mergeNode, mergeReply_eq, Option.bind_some, ih]
    simp [answersFor]

theorem mergeNodes_eq (n k : Nat) (ls : List (List (List Nbr))) :
    mergeNodes k n (ls.map (readState k)) =
      some ((List.range' k n).flatMap (answersFor ls), (List.range' k n).map fun i => (answersFor ls i).length) := by
  induction n generalizing k with
  | zero => rfl
  | succ n ih =>
    rw [mergeNodes, mergeNode_eq, Option.bind_some, ih]
    simp [List.range'_succ]

theorem addCounts_eq (r : List Nat) (out : List Nat) :
    addCounts r out = out.zipIdx.map fun x => x.1 + r.getD x.2 0 := by
  induction r generalizing out with
  | nil =>
    rw [addCounts]
    simp
  | cons a r ih =>
    cases out with
    | nil => rfl
    | cons o os =>
      rw [addCounts, ih, List.zipIdx_cons', List.map_cons, List.map_map]
      simp [Nat.add_comm, Function.comp_def]

theorem foldl_addCounts (rs : List (List Nat)) (out : List Nat) :
    rs.foldl (fun out r => addCounts r out) out = out.zipIdx.map fun x => x.1 + (rs.map fun r => r.getD x.2 0).sum := by
  induction rs generalizing out with
  | nil => simp
  | cons r rs ih =>
    rw [List.foldl_cons, ih, addCounts_eq]
    apply List.ext_getElem?
    intro i
    simp only [List.getElem?_map, List.getElem?_zipIdx, List.map_cons, List.sum_cons, Nat.zero_add]
    cases out[i]? <;> simp [Nat.add_assoc]

end DeepGNN
