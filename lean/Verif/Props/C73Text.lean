import Verif.Props.C73
import Verif.Proofs.DatasetText

namespace DeepGNN

open Datasets Samplers Spec

/-- What a sampler over text files is given. -/
theorem text_args (graph : Option Int) (call : Args) {workers n batch epochs : Nat} {dl : Bool} (hc : Asked call batch epochs dl)
    (hr : (call .storeName).isSome = true) (hr' : (call .filename).isSome = true) (w i : Nat) (hi : i < max n 1) :
    ∃ a, argsOf graph call textSig workers n w i = some a ∧ a .batchSize = batch ∧ (a .epochs).toNat = epochs ∧
      decide (a .dropLast ≠ 0) = dl ∧ a .parallelNum = (max n 1 : Nat) ∧ a .parallelIndex = i ∧ a .workerIndex = w ∧
      a .numWorkers = workers := by
  have hgr : Key.graph ∉ textSig.map (·.1) := by decide
  obtain ⟨a, e, ha⟩ := argsOf_eq graph call textSig workers n w i (fun h => absurd h hgr) (by
    intro p hp h2
    simp only [textSig, List.mem_cons, List.not_mem_nil, or_false] at hp
    rcases hp with rfl | rfl | rfl | rfl | rfl | rfl | rfl | rfl | rfl | rfl | rfl | rfl | rfl | rfl <;>
      first | exact hr | exact hr' | cases h2)
  refine ⟨a, e, ?_, ?_, ?_, ?_, ?_, ?_, ?_⟩
  · rw [ha _ (by decide)]
    show ((some ((call .batchSize).getD 1)).getD _ : Int) = _
    rw [hc.batch]; rfl
  · rw [ha _ (by decide)]
    show Int.toNat ((some ((call .epochs).getD 1)).getD _ : Int) = _
    rw [hc.epochs]; rfl
  · rw [ha _ (by decide)]; exact hc.dropLast
  · rw [ha _ (by decide), given]
    split
    · rename_i h; rw [hc.num, h]; rfl
    · rw [Nat.max_eq_left (by omega)]; rfl
  · rw [ha _ (by decide), given]
    split
    · rename_i h; rw [hc.index]; show (0 : Int) = _; omega
    · rfl
  · rw [ha _ (by decide)]; rfl
  · rw [ha _ (by decide)]; rfl

theorem text_buffer {a : Key → Int} {batch : Nat} (h : a .batchSize = batch) : batch * 3 ≤ textBuffer a := by
  simp only [textBuffer, h, Int.toNat_natCast]
  split <;> omega

/-- Text files without blank lines. -/
theorem C73_text_partial {β : Type} (query : List Text.Bytes → β) (graph : Option Int) {call : Args}
    {workers batch epochs : Nat} (n : Nat) {dl : Bool} (hw : 0 < workers) (hb : 0 < batch) (he : 0 < epochs)
    (hc : Asked call batch epochs dl) (hs : (call .storeName).isSome = true) (hn : (call .filename).isSome = true)
    {files : List Files.Name} (hf : files.Nodup) (hl : workers * max n 1 ≤ files.length)
    {listing : Nat → Nat → List Files.Name} (hls : ∀ w i, (listing w i).Perm files) {content : Files.Name → Text.Bytes}
    (hclean : ∀ f ∈ files, CleanEnd (content f)) (hblank : ∀ f ∈ files, [] ∉ Text.splitlines (content f))
    (hlong : ∀ f ∈ files, textLines (content f) ≠ [])
    (hdrop : dl = true → ∀ f ∈ files, batch ≤ (textLines (content f)).length)
    {order : Nat → Nat → Nat → List Files.Name → List Files.Name} (ho : ∀ w i e l, (order w i e l).Perm l)
    {shuf : Nat → Nat → Nat → List Text.Bytes → List Text.Bytes} (hsh : ∀ w i c l, (shuf w i c l).Perm l)
    {len : Nat} (hlen : 0 < len) (threads : Nat) :
    ∃ outs : Nat → Nat → List (List Text.Bytes),
      (∀ w < workers, ∀ i < max n 1, ∃ a s, argsOf graph call textSig workers n w i = some a ∧
        textStart (listing w i) content (order w i) len threads a = some s ∧
        Yields (queried query (textIter (shuf w i) a)) s ((outs w i).map query)) ∧
      Divided dl workers (max n 1) batch (workers * max n 1 * (batch - 1)) [] outs
        (List.replicate epochs (files.flatMap fun f => textLines (content f))).flatten := by
  have hN : 0 < max n 1 := by omega
  have hWN : 0 < workers * max n 1 := Nat.mul_pos hw hN
  have hsplit := C32_reader hf hWN hl (listing := fun _ => files) (fun _ _ => .refl _)
  let F : Nat → List Files.Name := fun j => (Files.getWorkerFiles files j (workers * max n 1)).getD []
  have hF : ∀ j < workers * max n 1, Files.getWorkerFiles files j (workers * max n 1) = some (F j) := by
    intro j hj
    obtain ⟨fs, e, -⟩ := hsplit.assigned j hj
    simp only [F, e, Option.getD_some]
  have hFm : ∀ j < workers * max n 1, ∀ f ∈ F j, f ∈ files := fun j hj f hm => (hsplit.covers f).2 ⟨j, hj, _, hF j hj, hm⟩
  have hFn : ∀ j < workers * max n 1, F j ≠ [] := by
    intro j hj h
    obtain ⟨f, fs, e⟩ := C32_nonempty hl hj
    rw [hF j hj, h] at e
    cases e
  have hFp : ((List.range (workers * max n 1)).flatMap F).Perm files := files_perm hf hsplit
  have hgrid : ∀ w < workers, ∀ i < max n 1, w * max n 1 + i < workers * max n 1 := by
    intro w hw i hi
    have := Nat.mul_le_mul_right (max n 1) (Nat.succ_le_of_lt hw)
    rw [Nat.succ_mul] at this
    omega
  -- one loader process
  have one : ∀ w i, ∃ r : List (List Text.Bytes) × Nat × List Text.Bytes, w < workers → i < max n 1 →
      (∃ a s, argsOf graph call textSig workers n w i = some a ∧
        textStart (listing w i) content (order w i) len threads a = some s ∧
        Yields (queried query (textIter (shuf w i) a)) s (r.1.map query)) ∧
      (∀ b ∈ r.1, b.length = batch) ∧ r.2.1 < batch ∧ r.2.2.length < batch ∧
      (r.1.flatten ++ r.2.2).Perm ((List.replicate epochs ((F (w * max n 1 + i)).flatMap fun f => textLines (content f))).flatten ++
        List.replicate r.2.1 []) ∧ (dl = false → r.2.2 = []) ∧ (dl = true → r.2.1 = 0) := by
    intro w i
    by_cases hwi : w < workers ∧ i < max n 1
    · obtain ⟨a, e, a1, a2, a3, a4, a5, a6, a7⟩ := text_args graph call (workers := workers) hc hs hn w i hwi.2
      have hj := hgrid w hwi.1 i hwi.2
      generalize hjj : w * max n 1 + i = j at hj ⊢
      have hstart : textStart (listing w i) content (order w i) len threads a = some ⟨[], false, Text.start len threads
          ((List.range epochs).flatMap fun e => ((if a .shuffle ≠ 0 then order w i e (F j) else F j).map content)), 0⟩ := by
        rw [textStart, a6, a4, a5, a7, a2]
        simp only [Int.toNat_natCast]
        rw [hjj, Files.getWorkerFiles, Files.sort_eq (hls w i), (hls w i).length_eq, ← Files.getWorkerFiles, hF j hj]
        rfl
      have hord : ∀ e, (if a .shuffle ≠ 0 then order w i e (F j) else F j).Perm (F j) := by
        intro e
        split
        · exact ho _ _ _ _
        · exact .refl _
      revert hstart
      generalize hO : (fun e => if a .shuffle ≠ 0 then order w i e (F j) else F j) = O
      have hO' : ∀ e, (if a .shuffle ≠ 0 then order w i e (F j) else F j) = O e := fun e => congrFun hO e
      simp only [hO'] at hord ⊢
      intro hstart
      have hmem : ∀ f ∈ (List.range epochs).flatMap fun e => (O e).map content, ∃ g ∈ files, f = content g := by
        intro f hm
        obtain ⟨e, -, hm⟩ := List.mem_flatMap.1 hm
        obtain ⟨g, hg, rfl⟩ := List.mem_map.1 hm
        exact ⟨g, hFm j hj g ((hord e).subset hg), rfl⟩
      have hper : (((List.range epochs).flatMap fun e => (O e).map content).flatMap textLines).Perm
          (List.replicate epochs ((F j).flatMap fun f => textLines (content f))).flatten := by
        have := perm_epochs hord (fun f => textLines (content f)) epochs
        simp only [List.flatMap_assoc, List.flatMap_map] at this ⊢
        exact this
      have hfirst : ∃ g, g ∈ F j ∧ g ∈ files := by
        cases hg : F j with
        | nil => exact absurd hg (hFn j hj)
        | cons g gs => exact ⟨g, by simp, hFm j hj g (by rw [hg]; simp)⟩
      obtain ⟨g, hg, hgf⟩ := hfirst
      have hsub : (textLines (content g)).length ≤ (((List.range epochs).flatMap fun e => (O e).map content).flatMap textLines).length := by
        have h0 : content g ∈ (List.range epochs).flatMap fun e => (O e).map content :=
          List.mem_flatMap.2 ⟨0, List.mem_range.2 he, List.mem_map.2 ⟨g, (hord 0).mem_iff.2 hg, rfl⟩⟩
        obtain ⟨x, y, e⟩ := List.append_of_mem h0
        rw [e]
        simp only [List.flatMap_append, List.flatMap_cons, List.length_append]
        omega
      have hpos := List.length_pos_iff.2 (hlong g hgf)
      obtain ⟨outs, p, lost, t1, t2, t3, t4, t5, t6, t7⟩ := text_loader hlen hb (text_buffer a1) threads
        (files := (List.range epochs).flatMap fun e => (O e).map content)
        (fun f hm => by obtain ⟨g, h1, rfl⟩ := hmem f hm; exact hclean g h1)
        (fun f hm => by obtain ⟨g, h1, rfl⟩ := hmem f hm; exact hblank g h1) dl (decide (a .shuffle ≠ 0)) (hsh w i)
        (List.length_pos_iff.1 (by omega)) (fun hd => Nat.le_trans (hdrop hd g hgf) hsub)
      refine ⟨(outs, p, lost), fun _ _ => ⟨⟨a, _, e, hstart, yields_queried query ?_⟩, t2, t3, t4, ?_, t6, t7⟩⟩
      · rw [textIter, a1, a3]
        exact t1
      · exact t5.trans (hper.append_right _)
    · exact ⟨([], 0, []), fun h1 h2 => absurd ⟨h1, h2⟩ hwi⟩
  obtain ⟨r, hr⟩ := Classical.axiomOfChoice fun w => Classical.axiomOfChoice (one w)
  have total : ((List.range workers).flatMap fun w => (List.range (max n 1)).flatMap fun i =>
      (List.replicate epochs ((F (w * max n 1 + i)).flatMap fun f => textLines (content f))).flatten).Perm
      (List.replicate epochs (files.flatMap fun f => textLines (content f))).flatten := by
    rw [flatMap_grid (fun j => (List.replicate epochs ((F j).flatMap fun f => textLines (content f))).flatten)]
    refine (flatMap_epochs _ _ epochs).trans (replicate_flatten_perm ?_ epochs)
    rw [← List.flatMap_assoc]
    exact hFp.flatMap_right _
  have sum : ((everything workers (max n 1) fun w i => (r w i).1) ++
      (List.range workers).flatMap fun w => (List.range (max n 1)).flatMap fun i => (r w i).2.2).Perm
      ((List.replicate epochs (files.flatMap fun f => textLines (content f))).flatten ++
        (List.range workers).flatMap fun w => (List.range (max n 1)).flatMap fun i => List.replicate (r w i).2.1 []) := by
    rw [everything]
    refine List.Perm.trans ?_ (total.append_right _)
    refine (flatMap_append_perm _ _ _).symm.trans ?_
    refine List.Perm.trans ?_ (flatMap_append_perm _ _ _)
    refine flatMap_perm_of fun w hw => ?_
    refine (flatMap_append_perm _ _ _).symm.trans ?_
    refine List.Perm.trans ?_ (flatMap_append_perm _ _ _)
    exact flatMap_perm_of fun i hi => (hr w i (List.mem_range.1 hw) (List.mem_range.1 hi)).2.2.2.2.1
  refine ⟨fun w i => (r w i).1, fun w hww i hi => (hr w i hww hi).1, fun w hww i hi => (hr w i hww hi).2.1, ?_⟩
  cases dl with
  | false =>
    obtain ⟨m, h1, h2⟩ := flatMap_replicate_grid ([] : Text.Bytes) (fun w i => (r w i).2.1) (b := batch - 1) (N := max n 1) workers
      fun w hww i hi => by have := (hr w i hww hi).2.2.1; omega
    refine ⟨m, h1, ?_⟩
    rw [h2] at sum
    have : ((List.range workers).flatMap fun w => (List.range (max n 1)).flatMap fun i => (r w i).2.2) = [] := by
      rw [List.flatMap_eq_nil_iff]
      intro w hww
      rw [List.flatMap_eq_nil_iff]
      intro i hi
      exact (hr w i (List.mem_range.1 hww) (List.mem_range.1 hi)).2.2.2.2.2.1 rfl
    rwa [this, List.append_nil] at sum
  | true =>
    refine ⟨_, flatMap_length_grid (fun w i => (r w i).2.2) workers
      (fun w hww i hi => by have := (hr w i hww hi).2.2.2.1; omega), ?_⟩
    have : ((List.range workers).flatMap fun w => (List.range (max n 1)).flatMap fun i => List.replicate (r w i).2.1 ([] : Text.Bytes)) = [] := by
      rw [List.flatMap_eq_nil_iff]
      intro w hww
      rw [List.flatMap_eq_nil_iff]
      intro i hi
      rw [(hr w i (List.mem_range.1 hww) (List.mem_range.1 hi)).2.2.2.2.2.2 rfl]
      rfl
    rwa [this, List.append_nil] at sum

end DeepGNN
