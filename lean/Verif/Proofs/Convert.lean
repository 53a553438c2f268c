import Verif.Spec.Convert
import Verif.Proofs.Files
import Verif.Proofs.Metadata

namespace DeepGNN.Convert

/-! ### Pipes -/

theorem pipe_fold {α : Type} (n : Nat) (hn : 0 < n) : ∀ (lines : List α) (st : Nat × List (List α)), st.2.length = n →
    (lines.foldl pipeDispatch st).2.length = n ∧
      ∀ k < n, (lines.foldl pipeDispatch st).2.getD k [] =
        st.2.getD k [] ++ ((lines.zipIdx st.1).filter fun x => x.2 % n = k).map (·.1)
  | [], st, h => by simp [h]
  | x :: lines, st, h => by
    have hi : st.1 % n < n := Nat.mod_lt _ hn
    obtain ⟨h1, h2⟩ := pipe_fold n hn lines (pipeDispatch st x) (by simp [pipeDispatch, h])
    rw [List.foldl_cons]
    refine ⟨h1, fun k hk => ?_⟩
    rw [h2 k hk, List.zipIdx_cons]
    simp only [pipeDispatch, h]
    by_cases e : st.1 % n = k
    · subst e
      rw [List.filter_cons_of_pos (by simp), List.map_cons, List.getD_eq_getElem?_getD, List.getElem?_set_self (by omega)]
      simp
    · rw [List.filter_cons_of_neg (by simp [e]), List.getD_eq_getElem?_getD, List.getElem?_set_ne e, List.getD_eq_getElem?_getD]

theorem flatten_set_perm {α : Type} (x : α) : ∀ (l : List (List α)) (i : Nat), i < l.length →
    (l.set i (l.getD i [] ++ [x])).flatten.Perm (l.flatten ++ [x])
  | [], i, h => by simp at h
  | a :: l, 0, _ => by
    simp only [List.set_cons_zero, List.getD_cons_zero, List.flatten_cons, List.append_assoc]
    exact List.Perm.append_left a List.perm_append_comm
  | a :: l, i + 1, h => by
    simp only [List.set_cons_succ, List.getD_cons_succ, List.flatten_cons, List.append_assoc]
    exact List.Perm.append_left a (flatten_set_perm x l i (by simpa using h))

theorem pipe_perm {α : Type} : ∀ (lines : List α) (st : Nat × List (List α)), 0 < st.2.length →
    (lines.foldl pipeDispatch st).2.flatten.Perm (st.2.flatten ++ lines)
  | [], st, _ => by simp
  | x :: lines, st, h => by
    rw [List.foldl_cons]
    refine (pipe_perm lines (pipeDispatch st x) (by simpa [pipeDispatch] using h)).trans ?_
    rw [show st.2.flatten ++ x :: lines = (st.2.flatten ++ [x]) ++ lines by simp]
    exact List.Perm.append_right lines (flatten_set_perm x _ _ (Nat.mod_lt _ h))

theorem length_pipeLines {α : Type} {n : Nat} (hn : 0 < n) (lines : List α) : (pipeLines n lines).length = n :=
  (pipe_fold n hn lines (0, List.replicate n []) (by simp)).1

theorem pipeLines_perm {α : Type} {n : Nat} (hn : 0 < n) (lines : List α) : (pipeLines n lines).flatten.Perm lines := by
  have := pipe_perm lines (0, List.replicate n []) (by simpa using hn)
  simpa [pipeLines] using this

theorem queue_fold {α : Type} (part : α → Nat) : ∀ (lines : List α) (st out : List (List α)),
    lines.foldlM (queueDispatch part) st = some out →
    out.length = st.length ∧ ∀ k < st.length, out.getD k [] = st.getD k [] ++ lines.filter fun l => part l = k
  | [], st, out, h => by
    simp only [List.foldlM_nil] at h
    injection h with h
    subst h
    simp
  | x :: lines, st, out, h => by
    rw [List.foldlM_cons, queueDispatch] at h
    split at h
    · rename_i hx
      obtain ⟨h1, h2⟩ := queue_fold part lines _ _ h
      rw [List.length_set] at h1 h2
      refine ⟨h1, fun k hk => ?_⟩
      rw [h2 k hk]
      by_cases e : part x = k
      · subst e
        rw [List.filter_cons_of_pos (by simp), List.getD_eq_getElem?_getD, List.getElem?_set_self hx]
        simp
      · rw [List.filter_cons_of_neg (by simp [e]), List.getD_eq_getElem?_getD, List.getElem?_set_ne e,
          List.getD_eq_getElem?_getD]
    · cases h

theorem queue_some {α : Type} (part : α → Nat) : ∀ (lines : List α) (st : List (List α)), (∀ l ∈ lines, part l < st.length) →
    ∃ out, lines.foldlM (queueDispatch part) st = some out
  | [], st, _ => ⟨st, rfl⟩
  | x :: lines, st, h => by
    rw [List.foldlM_cons, queueDispatch, if_pos (h x (by simp))]
    exact queue_some part lines _ (fun l hl => by rw [List.length_set]; exact h l (by simp [hl]))

/-! ### Partition ranges -/

/-- Number of partitions of every worker but the last. -/
def chunk (partitions workers : Nat) : Nat := (partitions + workers - 1) / workers

theorem chunk_mul {partitions workers : Nat} (hw : 0 < workers) : partitions ≤ chunk partitions workers * workers := by
  have h1 := Nat.div_add_mod (partitions + workers - 1) workers
  have h2 := Nat.mod_lt (partitions + workers - 1) hw
  rw [chunk, Nat.mul_comm]
  omega

theorem partitionRange_eq {partitions workers worker : Nat} (h : worker < workers)
    (hc : chunk partitions workers * (workers - 1) < partitions) :
    ∃ n : Nat, 0 < n ∧ partitionRange partitions workers worker = (chunk partitions workers * worker, (n : Int)) ∧
      chunk partitions workers * worker + n = min partitions (chunk partitions workers * (worker + 1)) := by
  have h1 : chunk partitions workers * worker ≤ chunk partitions workers * (workers - 1) := Nat.mul_le_mul_left _ (by omega)
  have h2 : chunk partitions workers * (worker + 1) = chunk partitions workers * worker + chunk partitions workers := by
    rw [Nat.mul_succ]
  have h3 : 0 < chunk partitions workers := by
    rcases Nat.eq_zero_or_pos (chunk partitions workers) with e | e
    · have := chunk_mul (partitions := partitions) (workers := workers) (by omega)
      rw [e] at this hc; omega
    · exact e
  have hr : partitionRange partitions workers worker = (chunk partitions workers * worker,
      if chunk partitions workers * worker + chunk partitions workers > partitions then
        (partitions : Int) - (chunk partitions workers * worker : Nat) else (chunk partitions workers : Int)) := rfl
  rw [hr]
  by_cases hb : chunk partitions workers * worker + chunk partitions workers > partitions
  · refine ⟨partitions - chunk partitions workers * worker, by omega, ?_, by omega⟩
    rw [if_pos hb, Int.ofNat_sub (by omega)]
  · refine ⟨chunk partitions workers, h3, ?_, by omega⟩
    rw [if_neg hb]

theorem zipIdx_ids {α : Type} (o : Nat) : ∀ (l : List α) (s : Nat),
    ((l.zipIdx s).map fun x => (x.2 + o, x.1)).map (·.1) = (List.range' (s + o) l.length)
  | [], s => rfl
  | x :: l, s => by
    rw [List.zipIdx_cons, List.map_cons, List.map_cons, zipIdx_ids o l (s + 1), List.length_cons, List.range'_succ]
    rw [show s + 1 + o = s + o + 1 by omega]

theorem zipIdx_lines {α : Type} (o : Nat) : ∀ (l : List (List α)) (s : Nat),
    ((l.zipIdx s).map fun x => (x.2 + o, x.1)).flatMap (·.2) = l.flatten
  | [], s => rfl
  | x :: l, s => by
    rw [List.zipIdx_cons, List.map_cons, List.flatMap_cons, zipIdx_lines o l (s + 1), List.flatten_cons]

/-! ### All workers -/

theorem lookup_perm {α : Type} : ∀ (files : List (File α)), (files.map (·.1)).Nodup →
    (files.map (·.1)).flatMap (fun n => (files.lookup n).getD []) = files.flatMap (·.2)
  | [], _ => rfl
  | (n, ls) :: files, h => by
    rw [List.map_cons, List.nodup_cons] at h
    rw [List.map_cons, List.flatMap_cons, List.flatMap_cons, ← lookup_perm files h.2]
    refine congr (congrArg _ ?_) ?_
    · simp
    · rw [List.flatMap_def, List.flatMap_def]
      refine congrArg _ (List.map_congr_left fun m hm => ?_)
      rw [List.lookup_cons, beq_false_of_ne (by rintro rfl; exact h.1 hm)]

theorem workers_fold {α : Type} (files : List (File α)) (partitions workers : Nat) (names : Nat → List Files.Name)
    (hn : ∀ w < workers, Files.getWorkerFiles (files.map (·.1)) w workers = some (names w))
    (hc : chunk partitions workers * (workers - 1) < partitions) : ∀ k, k ≤ workers →
    ∃ outs, (List.range k).mapM (convertWorker files partitions workers) = some outs ∧
      outs.flatten.map (·.1) = List.range (min partitions (chunk partitions workers * k)) ∧
      (outs.flatten.flatMap (·.2)).Perm (((List.range k).flatMap names).flatMap fun n => (files.lookup n).getD [])
  | 0, _ => ⟨[], rfl, by simp, by simp⟩
  | k + 1, hk => by
    obtain ⟨outs, h1, h2, h3⟩ := workers_fold files partitions workers names hn hc k (by omega)
    obtain ⟨n, hn0, hr, hs⟩ := partitionRange_eq (worker := k) (by omega) hc
    let out := (pipeLines n ((names k).flatMap fun n => (files.lookup n).getD [])).zipIdx.map
      fun x => (x.2 + chunk partitions workers * k, x.1)
    have hw : convertWorker files partitions workers k = some out := by
      rw [convertWorker, hr]
      simp only
      rw [if_neg (by omega), workerLines, hn k (by omega)]
      rfl
    refine ⟨outs ++ [out], ?_, ?_, ?_⟩
    · rw [List.range_succ, List.mapM_append, h1, List.mapM_cons, hw]; rfl
    · rw [List.flatten_append, List.map_append, h2, List.flatten_cons, List.flatten_nil, List.append_nil, zipIdx_ids,
        length_pipeLines hn0, ← hs, Nat.zero_add]
      have h4 : chunk partitions workers * k ≤ chunk partitions workers * (workers - 1) := Nat.mul_le_mul_left _ (by omega)
      rw [Nat.min_eq_right (by omega), List.range_eq_range', List.range_eq_range',
        ← List.range'_append_1]
      simp
    · rw [List.flatten_append, List.flatMap_append, List.range_succ, List.flatMap_append, List.flatMap_append,
        List.flatten_cons, List.flatten_nil, List.append_nil, zipIdx_lines, List.flatMap_cons, List.flatMap_nil,
        List.append_nil]
      exact h3.append (pipeLines_perm hn0 _)

theorem flatMap_range_perm {α : Type} {names : Nat → List α} {workers : Nat} {files : List α} (hf : files.Nodup)
    (hn : ∀ w < workers, (names w).Nodup) (hd : ∀ v < workers, ∀ w < workers, ∀ f, f ∈ names v → f ∈ names w → v = w)
    (hm : ∀ f, f ∈ files ↔ ∃ w < workers, f ∈ names w) : ((List.range workers).flatMap names).Perm files := by
  refine (List.perm_ext_iff_of_nodup ?_ hf).2 fun f => ?_
  · rw [List.Nodup, List.pairwise_flatMap]
    refine ⟨fun w hw => hn w (List.mem_range.1 hw), ?_⟩
    refine List.Pairwise.imp_of_mem ?_ List.nodup_range
    intro v w hv hw hvw x hx y hy e
    subst e
    exact hvw (hd v (List.mem_range.1 hv) w (List.mem_range.1 hw) x hx hy)
  · rw [hm, List.mem_flatMap]
    simp only [List.mem_range]

/-! ### Metadata -/

theorem joined_fold (outs : List Output) : ∀ j : Joined,
    (outs.foldl Joined.add j).nodeCount = j.nodeCount + (outs.map (·.nodeCount)).sum ∧
    (outs.foldl Joined.add j).edgeCount = j.edgeCount + (outs.map (·.edgeCount)).sum ∧
    (∀ n, (outs.foldl Joined.add j).nodeTypes ≤ n ↔ j.nodeTypes ≤ n ∧ ∀ o ∈ outs, o.nodeTypes ≤ n) ∧
    (∀ n, (outs.foldl Joined.add j).edgeTypes ≤ n ↔ j.edgeTypes ≤ n ∧ ∀ o ∈ outs, o.edgeTypes ≤ n) ∧
    (∀ n, (outs.foldl Joined.add j).nodeFeatures ≤ n ↔ j.nodeFeatures ≤ n ∧ ∀ o ∈ outs, o.nodeFeatures ≤ n) ∧
    (∀ n, (outs.foldl Joined.add j).edgeFeatures ≤ n ↔ j.edgeFeatures ≤ n ∧ ∀ o ∈ outs, o.edgeFeatures ≤ n) ∧
    (outs.foldl Joined.add j).partitions = j.partitions ++ outs := by
  induction outs with
  | nil => intro j; simp
  | cons o outs ih =>
    intro j
    obtain ⟨h1, h2, h3, h4, h5, h6, h7⟩ := ih (j.add o)
    rw [List.foldl_cons]
    refine ⟨?_, ?_, fun n => ?_, fun n => ?_, fun n => ?_, fun n => ?_, ?_⟩
    · rw [h1]; simp only [Joined.add, List.map_cons, List.sum_cons]; omega
    · rw [h2]; simp only [Joined.add, List.map_cons, List.sum_cons]; omega
    · rw [h3]; simp only [Joined.add, Nat.max_le, List.forall_mem_cons, and_assoc]
    · rw [h4]; simp only [Joined.add, Nat.max_le, List.forall_mem_cons, and_assoc]
    · rw [h5]; simp only [Joined.add, Nat.max_le, List.forall_mem_cons, and_assoc]
    · rw [h6]; simp only [Joined.add, Nat.max_le, List.forall_mem_cons, and_assoc]
    · rw [h7]; simp [Joined.add]

theorem insertId_perm (x : Output) : ∀ l, (insertId x l).Perm (x :: l)
  | [] => .refl _
  | y :: l => by
    rw [insertId]
    split
    · exact .refl _
    · exact ((insertId_perm x l).cons y).trans (.swap x y l)

theorem sortId_perm : ∀ l : List Output, (sortId l).Perm l
  | [] => .refl _
  | x :: l => by
    rw [sortId, List.foldr_cons, ← sortId]
    exact (insertId_perm x _).trans ((sortId_perm l).cons x)

theorem insertId_sorted (x : Output) : ∀ {l}, l.Pairwise (fun a b => a.id ≤ b.id) →
    (insertId x l).Pairwise (fun a b => a.id ≤ b.id)
  | [], _ => by simp [insertId]
  | y :: l, h => by
    rw [insertId]
    rw [List.pairwise_cons] at h
    split
    · rename_i hxy
      refine List.pairwise_cons.2 ⟨?_, List.pairwise_cons.2 h⟩
      intro z hz
      rcases List.mem_cons.1 hz with rfl | hz
      · exact hxy
      · have := h.1 z hz; omega
    · refine List.pairwise_cons.2 ⟨?_, insertId_sorted x h.2⟩
      intro z hz
      rcases List.mem_cons.1 ((insertId_perm x l).mem_iff.1 hz) with rfl | hz
      · omega
      · exact h.1 z hz

theorem sortId_sorted : ∀ l : List Output, (sortId l).Pairwise (fun a b => a.id ≤ b.id)
  | [] => .nil
  | x :: l => by
    rw [sortId, List.foldr_cons, ← sortId]
    exact insertId_sorted x (sortId_sorted l)

theorem id_inj {l : List Output} (hl : (l.map (·.id)).Nodup) {a b : Output} (ha : a ∈ l) (hb : b ∈ l) (h : a.id = b.id) :
    a = b := by
  induction l with
  | nil => cases ha
  | cons x l ih =>
    rw [List.map_cons, List.nodup_cons] at hl
    rcases List.mem_cons.1 ha with rfl | ha' <;> rcases List.mem_cons.1 hb with rfl | hb'
    · rfl
    · exact absurd (List.mem_map_of_mem (f := (·.id)) hb') (h ▸ hl.1)
    · exact absurd (List.mem_map_of_mem (f := (·.id)) ha') (h ▸ hl.1)
    · exact ih hl.2 ha' hb'

/-- Sorting does not depend on the order of arrival. -/
theorem sortId_eq {a b : List Output} (hn : (a.map (·.id)).Nodup) (h : a.Perm b) : sortId a = sortId b := by
  refine List.Perm.eq_of_pairwise (le := fun x y => x.id ≤ y.id) (fun x y hx hy h1 h2 => ?_)
    (sortId_sorted a) (sortId_sorted b) ((sortId_perm a).trans (h.trans (sortId_perm b).symm))
  exact id_inj hn ((sortId_perm a).mem_iff.1 hx) (h.mem_iff.2 ((sortId_perm b).mem_iff.1 hy)) (Nat.le_antisymm h1 h2)

theorem length_pad {α : Type} [Zero α] {n len : Nat} {l : List α} (h : l.length = len) (hn : len ≤ n) : (pad n len l).length = n := by
  rw [pad]; split
  · simp; omega
  · omega

theorem getD_pad {α : Type} [Zero α] (n len : Nat) (l : List α) (t : Nat) : (pad n len l).getD t 0 = l.getD t 0 := by
  rw [pad]
  split
  · simp only [List.getD_eq_getElem?_getD]
    by_cases h : t < l.length
    · rw [List.getElem?_append_left h]
    · rw [List.getElem?_append_right (by omega), List.getElem?_eq_none (by omega : l.length ≤ t), List.getElem?_replicate]
      split <;> rfl
  · rfl

theorem addCounts_fold (n : Nat) (f : Output → List Nat) : ∀ (ps : List Output) (acc : List Nat), acc.length = n →
    (∀ p ∈ ps, (f p).length = n) →
    ps.foldl (fun c p => addCounts c (f p)) acc =
      (List.range n).map fun t => acc.getD t 0 + (ps.map fun p => (f p).getD t 0).sum
  | [], acc, h, _ => by
    refine List.ext_getElem? fun t => ?_
    simp only [List.foldl_nil, List.map_nil, List.sum_nil, Nat.add_zero, List.getElem?_map]
    by_cases ht : t < n
    · rw [List.getElem?_range ht]; simp [List.getD_eq_getElem?_getD, List.getElem?_eq_getElem (h ▸ ht)]
    · rw [List.getElem?_eq_none (by omega), List.getElem?_eq_none (by simp; omega)]; rfl
  | p :: ps, acc, h, hp => by
    have h1 := hp p (by simp)
    rw [List.foldl_cons, addCounts_fold n f ps _ (by simp [addCounts, h, h1]) (fun q hq => hp q (by simp [hq]))]
    refine List.map_congr_left fun t ht => ?_
    rw [List.mem_range] at ht
    have : (addCounts acc (f p)).getD t 0 = acc.getD t 0 + (f p).getD t 0 := by
      simp only [addCounts, List.getD_eq_getElem?_getD]
      rw [List.getElem?_eq_getElem (by simp [h, h1]; omega), List.getElem?_eq_getElem (by omega),
        List.getElem?_eq_getElem (by omega)]
      simp
    rw [this, List.map_cons, List.sum_cons]
    omega

end DeepGNN.Convert
