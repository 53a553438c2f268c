import Verif.Proofs.Datasets
import Verif.Props.C32
import Verif.Props.C34
import Verif.Props.C35

/-
C73: the training workers and the loader processes of their datasets together see every sample of a file once per epoch.
-/

namespace DeepGNN

open Datasets Samplers Spec

theorem given_isSome (graph : Option Int) {call : Args} (workers n w i : Nat) {k : Key} (hk : k ≠ .graph)
    (h : (call k).isSome = true) : (given graph call workers n w i k).isSome = true := by
  cases k <;> first | exact h | exact absurd rfl hk | rfl | (rw [given]; split <;> first | exact h | rfl)

/-- What the sampler over files of the loader process `i` of the worker `w` is given. -/
structure FileArgs (call : Args) (sig : Sig) (workers n w i batch epochs : Nat) (dl : Bool) (a : Key → Int) : Prop where
  batch : a .batchSize = batch
  epochs : (a .epochs).toNat = epochs
  dropLast : decide (a .dropLast ≠ 0) = dl
  num : a .parallelNum = (max n 1 : Nat)
  index : a .parallelIndex = i
  shuffle : a .shuffle = (call .shuffle).getD 0
  worker : a .workerIndex = w
  workers : a .numWorkers = workers
  backfillId : Key.backfillId ∈ sig.map (·.1) → a .backfillId = (call .backfillId).getD (-1)
  backfill : Key.backfill ∈ sig.map (·.1) → a .backfill = (call .backfill).getD (-1)
  edgeType : Key.edgeType ∈ sig.map (·.1) → a .edgeType = (call .edgeType).getD 0 ∧ a .featureDim = (call .featureDim).getD 0

theorem file_args (graph : Option Int) (call : Args) (sig : Sig) {workers n batch epochs : Nat} {dl : Bool}
    (hsig : sig = fileNodeSig ∨ sig = fileEdgeSig ∨ sig = fileTupleSig ∨ sig = fileTupleV2Sig)
    (hc : Asked call batch epochs dl) (hr : ∀ p ∈ sig, p.2 = none → p.1 ≠ .batchSize → (call p.1).isSome = true) (w i : Nat)
    (hi : i < max n 1) :
    ∃ a, argsOf graph call sig workers n w i = some a ∧ FileArgs call sig workers n w i batch epochs dl a := by
  have hgr : Key.graph ∉ sig.map (·.1) := by rcases hsig with rfl | rfl | rfl | rfl <;> decide
  obtain ⟨a, e, ha⟩ := argsOf_eq graph call sig workers n w i (fun h => absurd h hgr) (by
    intro p hp h2
    by_cases hb : p.1 = .batchSize
    · rw [hb]; rfl
    · exact given_isSome _ _ _ _ _ (fun h => hgr (List.mem_map.2 ⟨p, hp, h⟩)) (hr p hp h2 hb))
  have hnum : (given graph call workers n w i .parallelNum).getD 1 = (max n 1 : Nat) := by
    rw [given]
    split
    · rename_i h; rw [hc.num, h]; rfl
    · rw [Nat.max_eq_left (by omega)]; rfl
  have hidx : (given graph call workers n w i .parallelIndex).getD 0 = (i : Int) := by
    rw [given]
    split
    · rename_i h; rw [hc.index]; simp; omega
    · rfl
  have hbat : (given graph call workers n w i .batchSize) = some (batch : Int) := by rw [given, hc.batch]; rfl
  have hep : (given graph call workers n w i .epochs) = some (epochs : Int) := by rw [given, hc.epochs]
  have hdl := hc.dropLast
  refine ⟨a, e, ?_⟩
  rcases hsig with rfl | rfl | rfl | rfl
  all_goals
    refine ⟨?_, ?_, ?_, ?_, ?_, ?_, ?_, ?_, ?_, ?_, ?_⟩
    · rw [ha _ (by decide), hbat]; rfl
    · rw [ha _ (by decide), hep]; rfl
    · rw [ha _ (by decide)]; exact hdl
    · rw [ha _ (by decide)]; exact hnum
    · rw [ha _ (by decide)]; exact hidx
    · rw [ha _ (by decide)]; rfl
    · rw [ha _ (by decide)]; rfl
    · rw [ha _ (by decide)]; rfl
    · intro h; first | exact absurd h (by decide) | (rw [ha _ h]; rfl)
    · intro h; first | exact absurd h (by decide) | (rw [ha _ h]; rfl)
    · intro h; first | exact absurd h (by decide) | exact ⟨by rw [ha _ h]; rfl, by rw [ha _ (by decide)]; rfl⟩

theorem file_args_all (graph : Option Int) (call : Args) (sig : Sig) {workers n batch epochs : Nat} {dl : Bool}
    (hsig : sig = fileNodeSig ∨ sig = fileEdgeSig ∨ sig = fileTupleSig ∨ sig = fileTupleV2Sig)
    (hc : Asked call batch epochs dl) (hr : ∀ p ∈ sig, p.2 = none → p.1 ≠ .batchSize → (call p.1).isSome = true) :
    ∃ a : Nat → Nat → Key → Int, ∀ w i, i < max n 1 →
      argsOf graph call sig workers n w i = some (a w i) ∧ FileArgs call sig workers n w i batch epochs dl (a w i) := by
  have h : ∀ w, ∃ a : Nat → Key → Int, ∀ i, i < max n 1 →
      argsOf graph call sig workers n w i = some (a i) ∧ FileArgs call sig workers n w i batch epochs dl (a i) := by
    intro w
    refine Classical.axiomOfChoice (r := fun i a => i < max n 1 → argsOf graph call sig workers n w i = some a ∧
      FileArgs call sig workers n w i batch epochs dl a) fun i => ?_
    by_cases hi : i < max n 1
    · obtain ⟨a, ha⟩ := file_args graph call sig (workers := workers) hsig hc hr w i hi
      exact ⟨a, fun _ => ha⟩
    · exact ⟨fun _ => 0, fun h => absurd h hi⟩
  exact Classical.axiomOfChoice h

/-- Rows that training workers share are seen by the loader processes of the training workers: together, once per
epoch. -/
theorem file_divided {α β : Type} (query : List α → β) {call : Args} {sig : Sig} {workers n batch epochs : Nat} {dl : Bool}
    (hb : 0 < batch) (hs : Ordered call n) (bf : α) {rows : Nat → List α} {all : List α}
    (hall : ((List.range workers).flatMap rows).Perm all) (hrow : ∀ w < workers, rows w ≠ [])
    {perm : Nat → Nat → Nat → Nat → List Nat} (hperm : ∀ w i e m, (perm w i e m).Perm (List.range m))
    {a : Nat → Nat → Key → Int} (ha : ∀ w i, i < max n 1 → FileArgs call sig workers n w i batch epochs dl (a w i)) :
    ∃ outs : Nat → Nat → List (List α),
      (∀ w < workers, ∀ i < max n 1, ∃ p, arrayIter (rows w) bf (perm w i) (a w i) = some p ∧
        Yields (queried query p.1.next) p.2 ((outs w i).map query) ∧ p.1.dropLast = dl) ∧
      Divided dl workers (max n 1) batch (workers * (batch - 1)) bf outs (List.replicate epochs all).flatten := by
  obtain ⟨outs, h1, h2⟩ := array_divided (n := n) (E := epochs) (dl := dl) hb bf hall hrow hperm (a := a)
    (fun w _ i hi => (ha w i hi).batch) (fun w _ i hi => (ha w i hi).epochs) (fun w _ i hi => (ha w i hi).dropLast)
    (fun w _ i hi => (ha w i hi).num) (fun w _ i hi => (ha w i hi).index)
    (hs.imp (fun h w _ i hi => by rw [(ha w i hi).shuffle, h]) id)
  refine ⟨outs, fun w hw i hi => ?_, h2⟩
  obtain ⟨p, h3, h4⟩ := h1 w hw i hi
  refine ⟨p, h3, yields_queried query h4, ?_⟩
  rw [arrayIter, if_pos (List.length_pos_iff.2 (hrow w hw))] at h3
  injection h3 with h3
  rw [← h3]
  exact (ha w i hi).dropLast

/-- The files of a worker, whatever the order in which the file system lists them. -/
theorem getFiles_listing {l files : List Files.Name} (h : l.Perm files) (w workers : Nat) :
    Files.getFiles l w workers = Files.getFiles files w workers := by
  rw [Files.getFiles, Files.getFiles, Files.sort_eq h, h.length_eq]

/-- The rows of the files divide into those of the workers. -/
theorem fileRows_split {α : Type} {workers : Nat} (hw : 0 < workers) {files : List Files.Name} (hf : files.Nodup)
    (hl : workers ≤ files.length) {content : Files.Name → List α} (hne : ∀ f ∈ files, content f ≠ []) :
    ∃ rows : Nat → List α, (∀ w < workers, rows w ≠ []) ∧ ((List.range workers).flatMap rows).Perm (files.flatMap content) ∧
      ∀ w < workers, ∀ l, l.Perm files → (Files.getFiles l w workers).map (fun fs => fs.flatMap content) = some (rows w) := by
  have hsplit := C32_samplers hf hw hl (listing := fun _ => files) (fun _ _ => .refl _)
  refine ⟨fun w => ((Files.getFiles files w workers).getD []).flatMap content, fun w hww => ?_, ?_, fun w hww l hp => ?_⟩
  · obtain ⟨f, fs, e⟩ := C32_nonempty hl hww
    rw [← Files.getFiles_eq] at e
    have hm : f ∈ files := (hsplit.covers f).2 ⟨w, hww, _, e, by simp⟩
    simp only [e]
    intro h
    have := List.flatMap_eq_nil_iff.1 h f (by simp)
    exact hne f hm this
  · rw [← List.flatMap_assoc]
    exact (files_perm hf hsplit).flatMap_right content
  · rw [getFiles_listing hp]
    obtain ⟨fs, e, -⟩ := hsplit.assigned w hww
    simp only [e]; rfl

/-- Files of node ids. -/
theorem C73_file_nodes_partial {β : Type} (query : List Int → β) (graph : Option Int) {call : Args} {workers batch epochs : Nat}
    (n : Nat) {dl : Bool} (hw : 0 < workers) (hb : 0 < batch) (hc : Asked call batch epochs dl) (hs : Ordered call n)
    (hn : (call .sampleFiles).isSome = true) {files : List Files.Name} (hf : files.Nodup) (hl : workers ≤ files.length)
    {listing : Nat → Nat → List Files.Name} (hls : ∀ w i, (listing w i).Perm files) {content : Files.Name → List Int}
    (hne : ∀ f ∈ files, content f ≠ []) {perm : Nat → Nat → Nat → Nat → List Nat}
    (hp : ∀ w i e m, (perm w i e m).Perm (List.range m)) :
    ∃ outs : Nat → Nat → List (List Int),
      (∀ w < workers, ∀ i < max n 1, ∃ a p, argsOf graph call fileNodeSig workers n w i = some a ∧
        fileNodes (listing w i) content (perm w i) a = some p ∧ Yields (queried query p.1.next) p.2 ((outs w i).map query)) ∧
      Divided dl workers (max n 1) batch (workers * (batch - 1)) ((call .backfillId).getD (-1)) outs
        (List.replicate epochs (files.flatMap content)).flatten := by
  obtain ⟨rows, h1, h2, h3⟩ := fileRows_split hw hf hl hne
  obtain ⟨a, ha⟩ := file_args_all graph call fileNodeSig (workers := workers) (n := n) (.inl rfl) hc (by
    intro p hp h2 hb
    simp only [fileNodeSig, List.mem_cons, List.not_mem_nil, or_false] at hp
    rcases hp with rfl | rfl | rfl | rfl | rfl | rfl | rfl | rfl | rfl | rfl <;> first | exact hn | exact absurd rfl hb | cases h2)
  obtain ⟨outs, h4, h5⟩ := file_divided query hb hs ((call .backfillId).getD (-1)) h2 h1 hp fun w i hi => (ha w i hi).2
  refine ⟨outs, fun w hww i hi => ?_, h5⟩
  obtain ⟨p, h6, h7, -⟩ := h4 w hww i hi
  obtain ⟨e, hA⟩ := ha w i hi
  refine ⟨_, p, e, ?_, h7⟩
  rw [fileNodes, fileRows, hA.worker, hA.workers, Int.toNat_natCast, Int.toNat_natCast, h3 w hww _ (hls w i),
    Option.bind_some, hA.backfillId (by decide), h6]

/-- Files of edges; with features only without `drop_last`. -/
theorem C73_file_edges_partial {β φ : Type} (zeros : φ) (query : List ((Int × Int × Int) × φ) → β) (graph : Option Int)
    {call : Args} {workers batch epochs : Nat} (n : Nat) {dl : Bool} (hw : 0 < workers) (hb : 0 < batch)
    (hc : Asked call batch epochs dl) (hs : Ordered call n) (hn : (call .sampleFiles).isSome = true) {et : Int}
    (het : call .edgeType = some et) (hfd : (call .featureDim).getD 0 = 0 ∨ dl = false) {files : List Files.Name}
    (hf : files.Nodup) (hl : workers ≤ files.length) {listing : Nat → Nat → List Files.Name}
    (hls : ∀ w i, (listing w i).Perm files) {content : Files.Name → List (Int × Int × φ)}
    (hne : ∀ f ∈ files, content f ≠ []) {perm : Nat → Nat → Nat → Nat → List Nat}
    (hp : ∀ w i e m, (perm w i e m).Perm (List.range m)) :
    ∃ outs : Nat → Nat → List (List ((Int × Int × Int) × φ)),
      (∀ w < workers, ∀ i < max n 1, ∃ a p, argsOf graph call fileEdgeSig workers n w i = some a ∧
        fileEdges zeros (listing w i) content (perm w i) a = some p ∧
        Yields (queried query p.1.next) p.2 ((outs w i).map query)) ∧
      Divided dl workers (max n 1) batch (workers * (batch - 1))
        (((call .backfillId).getD (-1), (call .backfillId).getD (-1), et), zeros) outs
        (List.replicate epochs (files.flatMap fun f => (content f).map fun r => ((r.1, r.2.1, et), r.2.2))).flatten := by
  obtain ⟨rows, h1, h2, h3⟩ := fileRows_split hw hf hl
    (content := fun f => (content f).map fun r => ((r.1, r.2.1, et), r.2.2)) (fun f h => by simpa using hne f h)
  obtain ⟨a, ha⟩ := file_args_all graph call fileEdgeSig (workers := workers) (n := n) (.inr (.inl rfl)) hc (by
    intro p hp h2 hb
    simp only [fileEdgeSig, List.mem_cons, List.not_mem_nil, or_false] at hp
    rcases hp with rfl | rfl | rfl | rfl | rfl | rfl | rfl | rfl | rfl | rfl | rfl | rfl | rfl | rfl <;>
      first | exact hn | exact absurd rfl hb | (rw [het]; rfl) | cases h2)
  obtain ⟨outs, h4, h5⟩ := file_divided query hb hs
    (((call .backfillId).getD (-1), (call .backfillId).getD (-1), et), zeros) h2 h1 hp fun w i hi => (ha w i hi).2
  refine ⟨outs, fun w hww i hi => ?_, h5⟩
  obtain ⟨p, h6, h7, h8⟩ := h4 w hww i hi
  obtain ⟨e, hA⟩ := ha w i hi
  obtain ⟨hE, hF⟩ := hA.edgeType (by decide)
  rw [het, Option.getD_some] at hE
  refine ⟨_, p, e, ?_, h7⟩
  have h9 := h3 w hww _ (hls w i)
  cases hg : Files.getFiles (listing w i) w workers with
  | none => rw [hg] at h9; cases h9
  | some fs =>
    rw [hg] at h9
    simp only [Option.map_some, Option.some.injEq] at h9
    rw [fileEdges, fileRows, hA.worker, hA.workers, Int.toNat_natCast, Int.toNat_natCast, hg, Option.map_some,
      Option.bind_some, hE, hA.backfillId (by decide), List.map_flatMap, h9, h6, Option.map_some, hF]
    congr 1
    rw [fileEdgeIter]
    split
    · rfl
    · rename_i hz
      rcases hfd with h | h
      · rw [h] at hz; exact absurd rfl hz
      · rw [h] at h8
        rw [← h8]

/-- A file of nodes with types. -/
theorem C73_file_tuples_partial {β κ : Type} (query : List (Int × Int) → β) (graph : Option Int) {call : Args}
    {workers batch epochs : Nat} (n : Nat) {dl : Bool} (hw : 0 < workers) (hb : 0 < batch) (hc : Asked call batch epochs dl)
    (hs : Ordered call n) (hn : (call .filename).isSome = true) {parse : κ → Option (Int × Int)} {lines : List κ}
    {rows : List (Int × Int)} (hr : lines.mapM parse = some rows) (hl : workers ≤ rows.length)
    {perm : Nat → Nat → Nat → Nat → List Nat} (hp : ∀ w i e m, (perm w i e m).Perm (List.range m)) :
    ∃ outs : Nat → Nat → List (List (Int × Int)),
      (∀ w < workers, ∀ i < max n 1, ∃ a p, argsOf graph call fileTupleSig workers n w i = some a ∧
        fileTuples parse lines (perm w i) a = some p ∧ Yields (queried query p.1.next) p.2 ((outs w i).map query)) ∧
      Divided dl workers (max n 1) batch (workers * (batch - 1)) ((call .backfill).getD (-1), (call .backfill).getD (-1)) outs
        (List.replicate epochs rows).flatten := by
  obtain ⟨a, ha⟩ := file_args_all graph call fileTupleSig (workers := workers) (n := n) (.inr (.inr (.inl rfl))) hc (by
    intro p hp h2 hb
    simp only [fileTupleSig, List.mem_cons, List.not_mem_nil, or_false] at hp
    rcases hp with rfl | rfl | rfl | rfl | rfl | rfl | rfl | rfl | rfl | rfl <;> first | exact hn | exact absurd rfl hb | cases h2)
  obtain ⟨outs, h4, h5⟩ := file_divided query hb hs ((call .backfill).getD (-1), (call .backfill).getD (-1))
    (rowsOf_perm hw rows 0) (fun w hww => rowsOf_ne hww hl) hp fun w i hi => (ha w i hi).2
  refine ⟨outs, fun w hww i hi => ?_, h5⟩
  obtain ⟨p, h6, h7, -⟩ := h4 w hww i hi
  obtain ⟨e, hA⟩ := ha w i hi
  refine ⟨_, p, e, ?_, h7⟩
  rw [fileTuples, hA.worker, hA.workers, Int.toNat_natCast, Int.toNat_natCast, tupleRows_eq workers w 0 hr,
    Option.bind_some, hA.backfill (by decide), h6]

/-- A file of nodes with labels and features. -/
theorem C73_file_tuples_v2_partial {β κ φ : Type} (fill : Int → φ) (query : List (List φ) → β) (graph : Option Int) {call : Args}
    {workers batch epochs : Nat} (n : Nat) {dl : Bool} (hw : 0 < workers) (hb : 0 < batch) (hc : Asked call batch epochs dl)
    (hs : Ordered call n) (hn : (call .filename).isSome = true) {parse : κ → Option (List φ)} {lines : List κ}
    {rows : List (List φ)} (hr : lines.mapM parse = some rows) (hl : workers ≤ rows.length) {parts : Nat}
    (hparts : ∀ r ∈ rows, r.length = parts)
    {perm : Nat → Nat → Nat → Nat → List Nat} (hp : ∀ w i e m, (perm w i e m).Perm (List.range m)) :
    ∃ outs : Nat → Nat → List (List (List φ)),
      (∀ w < workers, ∀ i < max n 1, ∃ a p, argsOf graph call fileTupleV2Sig workers n w i = some a ∧
        fileTuplesV2 fill parse lines (perm w i) a = some p ∧ Yields (queried query p.1.next) p.2 ((outs w i).map query)) ∧
      Divided dl workers (max n 1) batch (workers * (batch - 1)) (List.replicate parts (fill ((call .backfill).getD (-1)))) outs
        (List.replicate epochs rows).flatten := by
  obtain ⟨a, ha⟩ := file_args_all graph call fileTupleV2Sig (workers := workers) (n := n) (.inr (.inr (.inr rfl))) hc (by
    intro p hp h2 hb
    simp only [fileTupleV2Sig, List.mem_cons, List.not_mem_nil, or_false] at hp
    rcases hp with rfl | rfl | rfl | rfl | rfl | rfl | rfl | rfl | rfl | rfl | rfl <;>
      first | exact hn | exact absurd rfl hb | cases h2)
  obtain ⟨outs, h4, h5⟩ := file_divided query hb hs (List.replicate parts (fill ((call .backfill).getD (-1))))
    (rowsOf_perm hw rows 0) (fun w hww => rowsOf_ne hww hl) hp fun w i hi => (ha w i hi).2
  refine ⟨outs, fun w hww i hi => ?_, h5⟩
  obtain ⟨p, h6, h7, -⟩ := h4 w hww i hi
  obtain ⟨e, hA⟩ := ha w i hi
  refine ⟨_, p, e, ?_, h7⟩
  rw [fileTuplesV2, hA.worker, hA.workers, Int.toNat_natCast, Int.toNat_natCast, tupleRows_eq workers w 0 hr, Option.bind_some]
  have hsub := fun x => rowsOf_sub (workers := workers) (w := w) rows 0 x
  have hne := rowsOf_ne (rows := rows) hww hl
  revert h6 hsub hne
  generalize rowsOf workers w 0 rows = rw
  intro h6 hsub hne
  cases rw with
  | nil => exact absurd rfl hne
  | cons r rs =>
    have hall : ((r :: rs).all fun r' => r'.length == r.length) = true := by
      rw [List.all_eq_true]
      intro x hx
      rw [hparts x (hsub x hx), hparts r (hsub r (by simp))]
      exact beq_self_eq_true _
    simp only [hall, if_true]
    rw [hparts r (hsub r (by simp)), hA.backfill (by decide), h6]

end DeepGNN
