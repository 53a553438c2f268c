import Verif.Proofs.Convert
import Verif.Props.C32

/-
C30: every record is converted exactly once.
-/

namespace DeepGNN

open Convert

/-- If no worker is left without a partition, then the workers write all partitions and each line of the input is in
exactly one of them, exactly as often as in the input.  Missing: the case that there are not enough partitions for all
workers (see `C30_lines_refuted`). -/
theorem C30_lines_partial {α : Type} (files : List (File α)) {partitions workers : Nat} (hf : (files.map (·.1)).Nodup)
    (hw : 0 < workers) (h : workers ≤ files.length)
    (hp : (partitions + workers - 1) / workers * (workers - 1) < partitions) :
    ∃ out, convertAll files partitions workers = some out ∧ Spec.ConvertedOnce files partitions out := by
  have hd := C32_reader hf hw (by simpa using h) (listing := fun _ => files.map (·.1)) (fun _ _ => .refl _)
  let names := fun w => (Files.getWorkerFiles (files.map (·.1)) w workers).getD []
  have hn : ∀ w < workers, Files.getWorkerFiles (files.map (·.1)) w workers = some (names w) := by
    intro w hww
    obtain ⟨fs, h1, -⟩ := hd.assigned w hww
    simp only [names, h1, Option.getD_some]
  obtain ⟨outs, h1, h2, h3⟩ := workers_fold files partitions workers names hn hp workers (Nat.le_refl _)
  refine ⟨outs.flatten, by rw [convertAll, h1]; rfl, ?_, ?_⟩
  · rw [h2, Nat.min_eq_left (chunk_mul hw)]
  · refine h3.trans ?_
    rw [← lookup_perm files hf]
    refine List.Perm.flatMap_right _ (flatMap_range_perm hf ?_ ?_ ?_)
    · intro w hww
      obtain ⟨fs, h1, h2⟩ := hd.assigned w hww
      rw [hn w hww] at h1; injection h1 with h1; rw [h1]; exact h2
    · intro v hv w hww f hfv hfw
      exact hd.disjoint v hv w hww _ _ (hn v hv) (hn w hww) f hfv hfw
    · intro f
      rw [hd.covers]
      constructor
      · rintro ⟨w, hww, fs, h1, h2⟩
        rw [hn w hww] at h1; injection h1 with h1; exact ⟨w, hww, h1 ▸ h2⟩
      · rintro ⟨w, hww, h2⟩
        exact ⟨w, hww, _, hn w hww, h2⟩

/-- Five files. -/
def C30_files : List (File Nat) := [([97], [1, 2, 3]), ([99], [10]), ([98], []), ([100], [20, 21]), ([101], [30])]

example : (C30_files.map (·.1)).Nodup ∧ 2 ≤ C30_files.length ∧ (3 + 2 - 1) / 2 * (2 - 1) < 3 ∧
    convertAll C30_files 3 2 = some [(0, [1, 3, 30]), (1, [2, 10]), (2, [20, 21])] :=
  ⟨by decide, by decide, by decide, by decide +kernel⟩

/-- Four partitions and three workers: the first two workers have two partitions each, the third has none and does not
read its files. -/
theorem C30_lines_refuted : (C30_files.map (·.1)).Nodup ∧ 3 ≤ C30_files.length ∧ 3 ≤ 4 ∧
    convertAll C30_files 4 3 = some [(0, [1, 3, 21]), (1, [2, 20]), (2, [30]), (3, [])] ∧
    ∃ out, convertAll C30_files 4 3 = some out ∧ ¬ Spec.ConvertedOnce C30_files 4 out := by
  refine ⟨by decide, by decide, by decide, by decide +kernel, [(0, [1, 3, 21]), (1, [2, 20]), (2, [30]), (3, [])],
    by decide +kernel, ?_⟩
  intro h
  have := h.lines.mem_iff (a := 10)
  revert this
  decide

/-- Lines are sent to the partitions of a worker in turn: line `j` goes to partition `j % n`, and lines of the same
partition stay in their order. -/
theorem C30_round_robin {α : Type} {n : Nat} (hn : 0 < n) (lines : List α) :
    (pipeLines n lines).length = n ∧
      ∀ k < n, (pipeLines n lines).getD k [] = (lines.zipIdx.filter fun x => x.2 % n = k).map (·.1) := by
  obtain ⟨h1, h2⟩ := pipe_fold n hn lines (0, List.replicate n []) (by simp)
  refine ⟨h1, fun k hk => ?_⟩
  rw [pipeLines, h2 k hk, List.getD_eq_getElem?_getD, List.getElem?_replicate, if_pos hk]
  rfl

/-- With a partition function a line goes to the partition the function says, in the order of the input. -/
theorem C30_by_function {α : Type} (part : α → Nat) (n : Nat) (lines : List α) (h : ∀ l ∈ lines, part l < n) :
    ∃ out, queueLines part n lines = some out ∧ out.length = n ∧
      ∀ k < n, out.getD k [] = lines.filter fun l => part l = k := by
  obtain ⟨out, ho⟩ := queue_some part lines (List.replicate n []) (by simpa using h)
  obtain ⟨h1, h2⟩ := queue_fold part lines _ _ ho
  rw [List.length_replicate] at h1 h2
  refine ⟨out, ho, h1, fun k hk => ?_⟩
  rw [h2 k hk, List.getD_eq_getElem?_getD, List.getElem?_replicate, if_pos hk]
  rfl

example : pipeLines 2 [5, 6, 7] = [[5, 7], [6]] ∧ queueLines (fun x => x % 3) 3 [5, 6, 7, 8] = some [[6], [7], [5, 8]] := by
  decide +kernel

theorem C30_meta_sorted {outs outs' : List Output} (hn : (outs.map (·.id)).Nodup) (hp : outs.Perm outs') (w : Option Int) :
    workerMeta w outs = workerMeta w outs' := by
  obtain ⟨a1, a2, a3, a4, a5, a6, a7⟩ := joined_fold outs {}
  obtain ⟨b1, b2, b3, b4, b5, b6, b7⟩ := joined_fold outs' {}
  have e1 : (outs.foldl Joined.add {}).nodeCount = (outs'.foldl Joined.add {}).nodeCount := by
    rw [a1, b1, (hp.map _).sum_nat]
  have e2 : (outs.foldl Joined.add {}).edgeCount = (outs'.foldl Joined.add {}).edgeCount := by
    rw [a2, b2, (hp.map _).sum_nat]
  have mm : ∀ (f : Output → Nat) n, (∀ o ∈ outs, f o ≤ n) ↔ ∀ o ∈ outs', f o ≤ n := fun f n =>
    ⟨fun h o ho => h o (hp.mem_iff.2 ho), fun h o ho => h o (hp.mem_iff.1 ho)⟩
  have e3 : (outs.foldl Joined.add {}).nodeTypes = (outs'.foldl Joined.add {}).nodeTypes :=
    Nat.le_antisymm ((a3 _).2 ⟨Nat.zero_le _, (mm _ _).2 ((b3 _).1 (Nat.le_refl _)).2⟩)
      ((b3 _).2 ⟨Nat.zero_le _, (mm _ _).1 ((a3 _).1 (Nat.le_refl _)).2⟩)
  have e4 : (outs.foldl Joined.add {}).edgeTypes = (outs'.foldl Joined.add {}).edgeTypes :=
    Nat.le_antisymm ((a4 _).2 ⟨Nat.zero_le _, (mm _ _).2 ((b4 _).1 (Nat.le_refl _)).2⟩)
      ((b4 _).2 ⟨Nat.zero_le _, (mm _ _).1 ((a4 _).1 (Nat.le_refl _)).2⟩)
  have e5 : (outs.foldl Joined.add {}).nodeFeatures = (outs'.foldl Joined.add {}).nodeFeatures :=
    Nat.le_antisymm ((a5 _).2 ⟨Nat.zero_le _, (mm _ _).2 ((b5 _).1 (Nat.le_refl _)).2⟩)
      ((b5 _).2 ⟨Nat.zero_le _, (mm _ _).1 ((a5 _).1 (Nat.le_refl _)).2⟩)
  have e6 : (outs.foldl Joined.add {}).edgeFeatures = (outs'.foldl Joined.add {}).edgeFeatures :=
    Nat.le_antisymm ((a6 _).2 ⟨Nat.zero_le _, (mm _ _).2 ((b6 _).1 (Nat.le_refl _)).2⟩)
      ((b6 _).2 ⟨Nat.zero_le _, (mm _ _).1 ((a6 _).1 (Nat.le_refl _)).2⟩)
  have e7 : sortId ((outs.foldl Joined.add {}).partitions.map (outs.foldl Joined.add {}).padded) =
      sortId ((outs'.foldl Joined.add {}).partitions.map (outs'.foldl Joined.add {}).padded) := by
    have ep : (outs.foldl Joined.add {}).padded = (outs'.foldl Joined.add {}).padded := by
      funext o
      rw [Joined.padded, Joined.padded, e3, e4]
    rw [ep, a7, b7]
    refine sortId_eq ?_ (hp.map _)
    rw [List.map_map]
    exact hn
  simp only [workerMeta, e1, e2, e3, e4, e5, e6, e7]

/-- The metadata file of a worker does not depend on the order in which its processes report, and shows the totals. -/
theorem C30_meta {outs outs' : List Output} (hn : (outs.map (·.id)).Nodup) (ho : ∀ o ∈ outs, Spec.OutputOk o)
    (hp : outs'.Perm outs) (w : Option Int) :
    workerMeta w outs' = workerMeta w outs ∧ Spec.Totals w outs (workerMeta w outs') := by
  have e := C30_meta_sorted hn hp.symm w
  refine ⟨e.symm, ?_⟩
  rw [← e]
  obtain ⟨a1, a2, a3, a4, a5, a6, a7⟩ := joined_fold outs {}
  generalize hj : outs.foldl Joined.add {} = j at a1 a2 a3 a4 a5 a6 a7
  have e7 : j.partitions = outs := by simpa using a7
  have hN : ∀ o ∈ outs, o.nodeTypes ≤ j.nodeTypes := ((a3 _).1 (Nat.le_refl _)).2
  have hE : ∀ o ∈ outs, o.edgeTypes ≤ j.edgeTypes := ((a4 _).1 (Nat.le_refl _)).2
  have hperm : (sortId (outs.map j.padded)).Perm (outs.map j.padded) := sortId_perm _
  have hmem : ∀ p ∈ sortId (outs.map j.padded), ∃ o ∈ outs, p = j.padded o := by
    intro p hp
    obtain ⟨o, ho, e⟩ := List.mem_map.1 (hperm.mem_iff.1 hp)
    exact ⟨o, ho, e.symm⟩
  have hids : ((sortId (outs.map j.padded)).map (·.id)).Perm (outs.map (·.id)) := by
    refine (hperm.map _).trans ?_
    rw [List.map_map]
    exact .refl _
  have hparts : (workerMeta w outs).partitions =
      (sortId (outs.map j.padded)).map fun p => (p.id, PartWeights.mk p.nodeWeight p.edgeWeight) := by
    have h1 := foldl_setKey_fresh ((sortId (outs.map j.padded)).map fun p => (p.id, PartWeights.mk p.nodeWeight p.edgeWeight)) []
      (by
        rw [List.map_nil, List.nil_append, List.map_map]
        exact hids.nodup_iff.2 hn)
    rw [List.foldl_map, List.nil_append] at h1
    simp only [workerMeta, hj, e7]
    exact h1
  have hlen : ∀ p ∈ sortId (outs.map j.padded), p.nodePerType.length = j.nodeTypes ∧ p.edgePerType.length = j.edgeTypes ∧
      p.nodeWeight.length = j.nodeTypes ∧ p.edgeWeight.length = j.edgeTypes := by
    intro p hp
    obtain ⟨o, hoo, rfl⟩ := hmem p hp
    have k := ho o hoo
    have k1 := hN o hoo
    have k2 := hE o hoo
    exact ⟨length_pad rfl (by rw [k.nodePerType]; exact k1), length_pad rfl (by rw [k.edgePerType]; exact k2),
      length_pad (by rw [k.nodeWeight, k.nodePerType]) (by rw [k.nodePerType]; exact k1),
      length_pad (by rw [k.edgeWeight, k.edgePerType]) (by rw [k.edgePerType]; exact k2)⟩
  refine ⟨?_, ?_, fun n => ?_, fun n => ?_, fun n => ?_, fun n => ?_, rfl, ⟨?_, ?_⟩, ?_, ?_, ?_⟩
  · simp only [workerMeta, hj, a1, Nat.zero_add]
  · simp only [workerMeta, hj, a2, Nat.zero_add]
  · simp only [workerMeta, hj, a3, Nat.zero_le, true_and]
  · simp only [workerMeta, hj, a4, Nat.zero_le, true_and]
  · simp only [workerMeta, hj, a5, Nat.zero_le, true_and]
  · simp only [workerMeta, hj, a6, Nat.zero_le, true_and]
  · rw [hparts, List.map_map]
    exact hids
  · rw [hparts, List.map_map]
    have h1 := sortId_sorted (outs.map j.padded)
    have h2 : ((sortId (outs.map j.padded)).map (·.id)).Nodup := hids.nodup_iff.2 hn
    rw [List.Nodup, List.pairwise_map] at h2
    rw [List.pairwise_map]
    exact h1.imp₂ (fun a b h3 h4 => Nat.lt_of_le_of_ne h3 h4) h2
  · rw [hparts]
    intro p hp
    obtain ⟨q, hq, rfl⟩ := List.mem_map.1 hp
    obtain ⟨l1, l2, l3, l4⟩ := hlen q hq
    obtain ⟨o, hoo, rfl⟩ := hmem q hq
    refine ⟨?_, ?_, o, hoo, rfl, fun t => getD_pad _ _ _ _, fun t => getD_pad _ _ _ _⟩
    · simpa only [workerMeta, hj] using l3
    · simpa only [workerMeta, hj] using l4
  · simp only [workerMeta, hj, e7]
    rw [addCounts_fold j.nodeTypes (·.nodePerType) _ _ (by simp) (fun p hp => (hlen p hp).1)]
    refine List.map_congr_left fun t ht => ?_
    rw [List.getD_eq_getElem?_getD, List.getElem?_replicate, if_pos (List.mem_range.1 ht), Option.getD_some, Nat.zero_add,
      (hperm.map _).sum_nat, List.map_map]
    exact congrArg _ (List.map_congr_left fun o _ => getD_pad _ _ _ _)
  · simp only [workerMeta, hj, e7]
    rw [addCounts_fold j.edgeTypes (·.edgePerType) _ _ (by simp) (fun p hp => (hlen p hp).2.1)]
    refine List.map_congr_left fun t ht => ?_
    rw [List.getD_eq_getElem?_getD, List.getElem?_replicate, if_pos (List.mem_range.1 ht), Option.getD_some, Nat.zero_add,
      (hperm.map _).sum_nat, List.map_map]
    exact congrArg _ (List.map_congr_left fun o _ => getD_pad _ _ _ _)

/-- Two processes, the second has seen fewer types. -/
def C30_outputs : List Output :=
  [⟨3, 5, 7, 2, 1, 1, 0, [4, 1], [3, 2], [7], [7]⟩, ⟨2, 1, 4, 1, 3, 2, 1, [1], [1], [1, 0, 3], [1, 0, 3]⟩]

example : (C30_outputs.map (·.id)).Nodup ∧ (∀ o ∈ C30_outputs, Spec.OutputOk o) ∧
    C30_outputs.reverse.Perm C30_outputs ∧
    workerMeta none C30_outputs.reverse = ⟨2, 6, 11, 2, 3, 2, 1, -1, [(2, ⟨[1, 0], [1, 0, 3]⟩), (3, ⟨[4, 1], [7, 0, 0]⟩)],
      [4, 2], [8, 0, 3]⟩ := by
  refine ⟨by decide, ?_, List.reverse_perm _, by decide +kernel⟩
  intro o ho
  simp only [C30_outputs, List.mem_cons, List.not_mem_nil, or_false] at ho
  rcases ho with rfl | rfl <;> exact ⟨rfl, rfl, rfl, rfl⟩

end DeepGNN
