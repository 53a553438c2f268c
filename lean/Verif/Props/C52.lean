import Verif.Proofs.Uploader

/-
C52: the bulk embedding writer.
-/

namespace DeepGNN

open Uploader

/-- A call of `writelines` always ends if chunks may have lines; it returns true if the writer keeps running and the queues
accept all chunks. -/
theorem C52_ends {maxLines : Nat} (hm : 0 < maxLines) (running : Nat → Bool) (put : Nat → Put) (embeds : List Line) (s : State) :
    writelines maxLines running put embeds s ≠ .diverges ∧
    ((∀ k, running k = true) → (∀ k, put k = .done) → ∃ s', writelines maxLines running put embeds s = .returned true s') :=
  writeLoop_stops hm running put embeds _ _ _ _ (by omega)

/-- If `writelines` returns true and no queue was closed, then the lines were cut into chunks of at most
`max_lines_per_chunk` lines, every line once and in order, and the chunks were dealt out to the queues in turn, each to
the end of its queue. -/
theorem C52_chunks_partial {maxLines : Nat} (hm : 0 < maxLines) (running : Nat → Bool) (put : Nat → Put)
    (hput : ∀ k, put k ≠ .closed) (embeds : List Line) (s s' : State) (hq : 0 < s.queues.length)
    (h : writelines maxLines running put embeds s = .returned true s') :
    ∃ pieces, Spec.CutInto embeds maxLines pieces ∧ s'.total = s.total + pieces.length ∧
      ∀ i, s'.queues[i]? =
        (s.queues[i]?).map (· ++ Spec.roundRobin s.queues.length s.total i (pieces.map Spec.linesText)) := by
  obtain ⟨pieces, h1, h2, h3, _⟩ := writeLoop_spec hm running put hput embeds _ _ _ _ _ hq h
  exact ⟨pieces, h1, h2, h3⟩

example : writelines 2 (fun _ => true) (fun _ => .done) ["a".toList, "b".toList, "c".toList] ⟨[[], []], 0⟩ =
    .returned true ⟨[["a\nb\n".toList], ["c\n".toList]], 2⟩ := by
  decide +kernel

/-- An upload thread writes the chunks it takes in order, each to exactly one file; with a limit no file gets more chunks;
without a limit there is one file. -/
theorem C52_thread {maxChunks : Nat} (chunks : List Chunk) (hc : ∀ c, c ∈ chunks → c ≠ []) :
    (worker maxChunks chunks).flatMap (·.chunks) = chunks ∧
    (∀ f, f ∈ worker maxChunks chunks → 0 < f.chunks.length ∧ (0 < maxChunks → f.chunks.length ≤ maxChunks)) ∧
    (worker maxChunks chunks).map (·.index) = List.range (worker maxChunks chunks).length ∧
    (maxChunks = 0 → (worker maxChunks chunks).length ≤ 1) := by
  have h := workerLoop_ok (maxChunks := maxChunks) chunks [] _ hc (workerOk_init maxChunks)
  rw [List.nil_append] at h
  refine ⟨h.content, fun f hf => ?_, h.names, fun hm => ?_⟩
  · rcases h.shape with ⟨_, h2⟩ | ⟨fs, g, hg, h0, h1, h3, h4⟩
    · rw [worker, h2] at hf; exact absurd hf List.not_mem_nil
    · rw [worker, hg] at hf
      rcases List.mem_append.1 hf with hf | hf
      · exact ⟨h1 f hf, fun hm => Nat.le_of_eq ((h3 hm).2.1 f hf)⟩
      · rw [List.mem_singleton] at hf
        subst hf
        exact ⟨h0, fun hm => (h3 hm).1⟩
  · rcases h.shape with ⟨_, h2⟩ | ⟨fs, g, hg, h0, h1, h3, h4⟩
    · rw [worker, h2]; exact Nat.zero_le _
    · rw [worker, hg, h4 hm]; exact Nat.le_refl _

example : worker 2 ["a".toList, "b".toList, "c".toList] = [⟨0, ["a".toList, "b".toList]⟩, ⟨1, ["c".toList]⟩] := by
  decide +kernel

namespace Uploader

/-- Several calls of `writelines`, all of which return true. -/
inductive Calls (maxLines : Nat) : State → List (List Line) → State → Prop
  | nil (s : State) : Calls maxLines s [] s
  | cons {s s' s'' : State} {embeds : List Line} {rest : List (List Line)} (running : Nat → Bool) (put : Nat → Put)
      (hput : ∀ k, put k ≠ .closed) (h : writelines maxLines running put embeds s = .returned true s')
      (t : Calls maxLines s' rest s'') : Calls maxLines s (embeds :: rest) s''

theorem calls_spec {maxLines : Nat} (hm : 0 < maxLines) {s s' : State} {calls : List (List Line)} (h : Calls maxLines s calls s')
    (hq : 0 < s.queues.length) :
    ∃ pieces, Spec.CutInto calls.flatten maxLines pieces ∧ s'.queues.flatten.Perm (s.queues.flatten ++ pieces.map Spec.linesText) := by
  induction h with
  | nil s => exact ⟨[], ⟨rfl, by simp⟩, by simp⟩
  | cons running put hput h t ih =>
    obtain ⟨p1, hc1, ht1, hg1, hf1⟩ := writeLoop_spec hm running put hput _ _ _ _ _ _ hq h
    rename_i s1 s2 s3 embeds rest
    have hq2 : 0 < s2.queues.length := by
      have := hg1 0
      rw [List.getElem?_eq_getElem hq] at this
      simp only [Option.map_some] at this
      rcases Nat.eq_zero_or_pos s2.queues.length with h0 | h0
      · rw [List.getElem?_eq_none (by omega)] at this; exact absurd this (by simp)
      · exact h0
    obtain ⟨p2, hc2, hf2⟩ := ih hq2
    refine ⟨p1 ++ p2, ⟨?_, ?_⟩, ?_⟩
    · rw [List.flatten_append, hc1.1, hc2.1, List.flatten_cons, List.drop_zero]
    · intro p hp
      rcases List.mem_append.1 hp with hp | hp
      · exact hc1.2 p hp
      · exact hc2.2 p hp
    · rw [List.map_append, ← List.append_assoc]
      exact hf2.trans (hf1.append_right _)

theorem linesText_ne_nil {lines : List Line} (h : 0 < lines.length) : Spec.linesText lines ≠ [] := by
  cases lines with
  | nil => simp at h
  | cons l ls => simp [Spec.linesText]

/-- Chunks in the files of all processes and threads. -/
theorem upload_perm {maxChunks threads : Nat} (who : Nat → Nat → Nat) (hw : ∀ p j, who p j < threads)
    (queues : List (List Chunk)) (hc : ∀ q, q ∈ queues → ∀ c, c ∈ q → c ≠ []) :
    ((upload maxChunks threads who queues).flatMap fun f => f.2.2.chunks).Perm queues.flatten := by
  rw [upload]
  have key : ∀ (queues : List (List Chunk)) (n : Nat), (∀ q, q ∈ queues → ∀ c, c ∈ q → c ≠ []) →
      (((queues.zipIdx n).flatMap fun q => (List.range threads).flatMap fun t =>
        (worker maxChunks (threadChunks (who q.2) t (forward q.1))).map fun f => (q.2, t, f)).flatMap
          fun f => f.2.2.chunks).Perm queues.flatten := by
    intro queues
    induction queues with
    | nil => intro n _; simp
    | cons q queues ih =>
      intro n hc
      rw [List.zipIdx_cons, List.flatMap_cons, List.flatMap_append, List.flatten_cons]
      refine List.Perm.append ?_ (ih (n + 1) (fun q hq => hc q (List.mem_cons_of_mem _ hq)))
      have hq := hc q List.mem_cons_self
      rw [List.flatMap_assoc]
      have e : ((List.range threads).flatMap fun t =>
          ((worker maxChunks (threadChunks (who n) t (forward q))).map fun f => (n, t, f)).flatMap fun f => f.2.2.chunks) =
          (List.range threads).flatMap fun t => threadChunks (who n) t q := by
        rw [List.flatMap_def, List.flatMap_def]
        congr 1
        refine List.map_congr_left fun t _ => ?_
        rw [List.flatMap_map, forward_eq q hq]
        exact (C52_thread (maxChunks := maxChunks) _ (fun c hcm => hq c (threadChunks_mem hcm))).1
      simp only
      rw [e]
      exact threads_perm (who n) threads q (fun j _ => hw n j)
  exact key queues 0 hc

end Uploader

/-- From the calls to the files: whatever the calls, the number of processes and threads and the order in which threads take
chunks, the files contain together every chunk of lines exactly once; each file holds at most `max_chunks_per_file` chunks
(if limited); and no two files have the same name. -/
theorem C52_files_partial {maxLines maxChunks processes threads : Nat} (hm : 0 < maxLines) (hp : 0 < processes)
    {calls : List (List Line)} {s : State} (h : Calls maxLines ⟨List.replicate processes [], 0⟩ calls s)
    (who : Nat → Nat → Nat) (hw : ∀ p j, who p j < threads) :
    (∃ pieces, Spec.CutInto calls.flatten maxLines pieces ∧
      ((upload maxChunks threads who s.queues).flatMap fun f => f.2.2.chunks).Perm (pieces.map Spec.linesText)) ∧
    (∀ f, f ∈ upload maxChunks threads who s.queues → 0 < maxChunks → f.2.2.chunks.length ≤ maxChunks) ∧
    ((upload maxChunks threads who s.queues).map fun f => fileName f.1 f.2.1 f.2.2.index).Nodup := by
  obtain ⟨pieces, hc, hf⟩ := calls_spec hm h (by simpa using hp)
  have e0 : (List.replicate processes ([] : List Chunk)).flatten = [] := by simp
  simp only [e0, List.nil_append] at hf
  have hne : ∀ q, q ∈ s.queues → ∀ c, c ∈ q → c ≠ [] := by
    intro q hq c hcq
    have : c ∈ s.queues.flatten := List.mem_flatten.2 ⟨q, hq, hcq⟩
    have := hf.mem_iff.1 this
    rw [List.mem_map] at this
    obtain ⟨p, hpm, rfl⟩ := this
    exact linesText_ne_nil (hc.2 p hpm).1
  have hthread : ∀ q i t, (q, i) ∈ s.queues.zipIdx → ∀ c, c ∈ threadChunks (who i) t (forward q) → c ≠ [] := by
    intro q i t hq c hcm
    have hqm : q ∈ s.queues := List.fst_mem_of_mem_zipIdx hq
    have h1 := threadChunks_mem hcm
    rw [forward_eq q (hne q hqm)] at h1
    exact hne q hqm c h1
  refine ⟨⟨pieces, hc, (upload_perm who hw s.queues hne).trans hf⟩, ?_, ?_⟩
  · intro f hfm hmc
    rw [upload, List.mem_flatMap] at hfm
    obtain ⟨⟨q, i⟩, hq, hfm⟩ := hfm
    rw [List.mem_flatMap] at hfm
    obtain ⟨t, _, hfm⟩ := hfm
    rw [List.mem_map] at hfm
    obtain ⟨g, hg, rfl⟩ := hfm
    exact ((C52_thread (maxChunks := maxChunks) _ (hthread q i t hq)).2.1 g hg).2 hmc
  · rw [List.Nodup, List.pairwise_map]
    rw [upload, List.pairwise_flatMap]
    refine ⟨fun ⟨q, i⟩ hq => ?_, ?_⟩
    · rw [List.pairwise_flatMap]
      refine ⟨fun t _ => ?_, ?_⟩
      · rw [List.pairwise_map]
        have h3 := (C52_thread (maxChunks := maxChunks) _ (hthread q i t hq)).2.2.1
        have h4 : ((worker maxChunks (threadChunks (who i) t (forward q))).map (·.index)).Nodup := by
          rw [h3]; exact List.nodup_range
        rw [List.Nodup, List.pairwise_map] at h4
        exact List.Pairwise.imp (fun hne he => hne (fileName_inj he).2.2) h4
      · refine List.Pairwise.imp ?_ List.nodup_range
        intro t t' hne f hfm g hgm he
        rw [List.mem_map] at hfm hgm
        obtain ⟨a, _, rfl⟩ := hfm
        obtain ⟨b, _, rfl⟩ := hgm
        exact hne (fileName_inj he).2.1
    · have hz : s.queues.zipIdx.Pairwise (fun a b => a.2 ≠ b.2) := by
        have : (s.queues.zipIdx.map (·.2)).Nodup := by
          rw [List.zipIdx_map_snd]; exact List.nodup_range'
        rw [List.Nodup, List.pairwise_map] at this
        exact this
      refine List.Pairwise.imp ?_ hz
      intro a b hab f hfm g hgm he
      rw [List.mem_flatMap] at hfm hgm
      obtain ⟨t, _, hfm⟩ := hfm
      obtain ⟨t', _, hgm⟩ := hgm
      rw [List.mem_map] at hfm hgm
      obtain ⟨x, _, rfl⟩ := hfm
      obtain ⟨y, _, rfl⟩ := hgm
      exact hab (fileName_inj he).1

example : Calls 2 ⟨List.replicate 2 [], 0⟩ [["a".toList, "b".toList, "c".toList], ["d".toList]]
    ⟨[["a\nb\n".toList, "d\n".toList], ["c\n".toList]], 3⟩ :=
  .cons (s' := ⟨[["a\nb\n".toList], ["c\n".toList]], 2⟩) (fun _ => true) (fun _ => .done) (by simp) (by decide +kernel)
    (.cons (fun _ => true) (fun _ => .done) (by simp) (by decide +kernel) (.nil _))

example : upload 1 2 (fun _ j => j % 2) [["a\nb\n".toList, "d\n".toList], ["c\n".toList]] =
    [(0, 0, ⟨0, ["a\nb\n".toList]⟩), (0, 1, ⟨0, ["d\n".toList]⟩), (1, 0, ⟨0, ["c\n".toList]⟩)] ∧
    fileName 1 0 12 = "_1_0_12.tsv".toList := by
  decide +kernel

/-- A closed queue: `writelines` returns true although its first chunk was lost. -/
theorem C52_closed_refuted :
    writelines 2 (fun _ => true) (fun k => if k = 0 then .closed else .done) ["a".toList, "b".toList, "c".toList] ⟨[[], []], 0⟩ =
      .returned true ⟨[["c\n".toList], []], 3⟩ := by
  decide +kernel

/-- An empty text given to `write` ends the process that takes it: later chunks of its queue are in no file. -/
theorem C52_empty_refuted : upload 0 1 (fun _ _ => 0) [["a\n".toList, [], "b\n".toList]] = [(0, 0, ⟨0, ["a\n".toList]⟩)] := by
  decide +kernel

end DeepGNN
