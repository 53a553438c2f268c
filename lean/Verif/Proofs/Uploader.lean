import Verif.Model.Uploader
import Verif.Spec.Uploader
import Verif.Proofs.Convert

namespace DeepGNN.Uploader

theorem chunkText_eq : ∀ (lines : List Line), lines ≠ [] → chunkText lines = Spec.linesText lines
  | [], h => absurd rfl h
  | [l], _ => by simp [chunkText, Spec.linesText, List.intercalate]
  | l :: m :: ls, _ => by
    have ih := chunkText_eq (m :: ls) (by simp)
    rw [chunkText] at ih ⊢
    rw [Spec.linesText, List.flatMap_cons]
    rw [Spec.linesText] at ih
    rw [← ih]
    simp [List.intercalate, List.intersperse]

theorem roundRobin_cons {β : Type} (n start i : Nat) (c : β) (cs : List β) :
    Spec.roundRobin n start i (c :: cs) =
      (if start % n = i then [c] else []) ++ Spec.roundRobin n (start + 1) i cs := by
  rw [Spec.roundRobin, List.zipIdx_cons]
  by_cases h : start % n = i
  · rw [List.filter_cons_of_pos (by simpa using h), if_pos h]; rfl
  · rw [List.filter_cons_of_neg (by simpa using h), if_neg h]; rfl

theorem flatten_modify {β : Type} (c : β) : ∀ (l : List (List β)) (i : Nat), i < l.length →
    (l.modify i (· ++ [c])).flatten.Perm (l.flatten ++ [c])
  | [], i, h => absurd h (Nat.not_lt_zero _)
  | a :: l, 0, _ => by
    rw [List.modify_zero_cons, List.flatten_cons, List.flatten_cons, List.append_assoc, List.append_assoc]
    exact List.Perm.append_left a List.perm_append_comm
  | a :: l, i + 1, h => by
    rw [List.modify_succ_cons, List.flatten_cons, List.flatten_cons, List.append_assoc]
    exact List.Perm.append_left a (flatten_modify c l i (by simpa using h))

/-- The loop, when it returns true and no chunk met a closed queue. -/
theorem writeLoop_spec {maxLines : Nat} (hm : 0 < maxLines) (running : Nat → Bool) (put : Nat → Put)
    (hput : ∀ k, put k ≠ .closed) (embeds : List Line) :
    ∀ (fuel offset k : Nat) (s s' : State), 0 < s.queues.length →
      writeLoop maxLines running put embeds fuel offset k s = .returned true s' →
      ∃ pieces, Spec.CutInto (embeds.drop offset) maxLines pieces ∧ s'.total = s.total + pieces.length ∧
        (∀ i, s'.queues[i]? = (s.queues[i]?).map (· ++ Spec.roundRobin s.queues.length s.total i (pieces.map Spec.linesText))) ∧
        s'.queues.flatten.Perm (s.queues.flatten ++ pieces.map Spec.linesText) := by
  intro fuel
  induction fuel with
  | zero =>
    intro offset k s s' _ h
    rw [writeLoop] at h
    split at h
    · exact absurd h (by simp)
    · rename_i ho
      obtain rfl : s = s' := by simpa using h
      refine ⟨[], ⟨by rw [List.drop_eq_nil_of_le (by omega)]; rfl, by simp⟩, by simp, fun i => ?_, by simp⟩
      cases s.queues[i]? <;> simp [Spec.roundRobin]
  | succ fuel ih =>
    intro offset k s s' hq h
    rw [writeLoop] at h
    split at h
    · rename_i ho
      simp only at h
      split at h
      · cases hp : put k with
        | closed => exact absurd hp (hput k)
        | full => rw [hp] at h; exact absurd h (by simp)
        | done =>
          rw [hp] at h
          simp only at h
          generalize he : (if offset + maxLines < embeds.length then offset + maxLines else embeds.length) = e at h
          have heb : offset < e ∧ e ≤ embeds.length ∧ e - offset ≤ maxLines := by
            subst he; split <;> omega
          have hql : (enqueue s.queues (s.total % s.queues.length)
              (chunkText ((embeds.drop offset).take (e - offset)))).length = s.queues.length := by
            rw [enqueue, List.length_modify]
          obtain ⟨pieces, hc, ht, hg, hf⟩ := ih e (k + 1) _ s' (by simp only; omega) h
          have hl : ((embeds.drop offset).take (e - offset)).length = e - offset := by
            rw [List.length_take, List.length_drop]; omega
          have hct : chunkText ((embeds.drop offset).take (e - offset)) =
              Spec.linesText ((embeds.drop offset).take (e - offset)) := by
            refine chunkText_eq _ fun h0 => ?_
            rw [h0] at hl; simp at hl; omega
          refine ⟨(embeds.drop offset).take (e - offset) :: pieces, ⟨?_, ?_⟩, ?_, ?_, ?_⟩
          · rw [List.flatten_cons, hc.1]
            have : embeds.drop e = (embeds.drop offset).drop (e - offset) := by
              rw [List.drop_drop]; congr 1; omega
            rw [this, List.take_append_drop]
          · intro p hp
            rcases List.mem_cons.1 hp with rfl | hp
            · omega
            · exact hc.2 p hp
          · rw [ht, List.length_cons]; simp only; omega
          · intro i
            rw [hg i]
            simp only [hql]
            rw [List.map_cons, roundRobin_cons, ← hct, enqueue, List.getElem?_modify]
            cases hi : s.queues[i]? with
            | none => simp
            | some q =>
              by_cases hix : s.total % s.queues.length = i
              · simp [hix]
              · simp [hix]
          · refine hf.trans ?_
            simp only
            have h1 := flatten_modify (chunkText ((embeds.drop offset).take (e - offset))) s.queues
              (s.total % s.queues.length) (Nat.mod_lt _ hq)
            rw [List.map_cons, ← hct]
            have h2 := h1.append_right (pieces.map Spec.linesText)
            rw [List.append_assoc] at h2
            exact h2
      · exact absurd h (by simp)
    · rename_i ho
      obtain rfl : s = s' := by simpa using h
      refine ⟨[], ⟨by rw [List.drop_eq_nil_of_le (by omega)]; rfl, by simp⟩, by simp, fun i => ?_, by simp⟩
      cases s.queues[i]? <;> simp [Spec.roundRobin]

/-- The loop stops. -/
theorem writeLoop_stops {maxLines : Nat} (hm : 0 < maxLines) (running : Nat → Bool) (put : Nat → Put) (embeds : List Line) :
    ∀ (fuel offset k : Nat) (s : State), embeds.length - offset ≤ fuel →
      writeLoop maxLines running put embeds fuel offset k s ≠ .diverges ∧
      ((∀ k, running k = true) → (∀ k, put k = .done) →
        ∃ s', writeLoop maxLines running put embeds fuel offset k s = .returned true s') := by
  intro fuel
  induction fuel with
  | zero =>
    intro offset k s h
    rw [writeLoop, if_neg (by omega)]
    exact ⟨by simp, fun _ _ => ⟨s, rfl⟩⟩
  | succ fuel ih =>
    intro offset k s h
    rw [writeLoop]
    split
    · rename_i ho
      simp only
      generalize he : (if offset + maxLines < embeds.length then offset + maxLines else embeds.length) = e
      have heb : offset < e := by subst he; split <;> omega
      split
      · cases hp : put k with
        | done =>
          simp only
          exact ih _ _ _ (by omega)
        | closed =>
          simp only
          refine ⟨(ih _ _ _ (by omega)).1, fun _ h2 => ?_⟩
          rw [h2 k] at hp; exact absurd hp (by simp)
        | full =>
          refine ⟨by simp, fun _ h2 => ?_⟩
          rw [h2 k] at hp; exact absurd hp (by simp)
      · rename_i hr
        exact ⟨by simp, fun h1 _ => absurd (h1 k) hr⟩
    · exact ⟨by simp, fun _ _ => ⟨s, rfl⟩⟩

/- Upload threads. -/

theorem writeLast_append (fs : List File) (f : File) (c : Chunk) :
    writeLast (fs ++ [f]) c = fs ++ [{ f with chunks := f.chunks ++ [c] }] := by
  induction fs with
  | nil => rfl
  | cons g fs ih =>
    cases fs with
    | nil => rfl
    | cons g2 fs => rw [List.cons_append, List.cons_append, writeLast, ← List.cons_append, ih]; rfl

/-- What holds after a thread has handled the chunks `done`. -/
structure WorkerOk (maxChunks : Nat) (done : List Chunk) (w : Worker) : Prop where
  count : w.count = done.length
  index : w.fileIndex = w.files.length
  names : w.files.map (·.index) = List.range w.files.length
  content : w.files.flatMap (·.chunks) = done
  shape : (done = [] ∧ w.files = []) ∨ ∃ fs f, w.files = fs ++ [f] ∧ 0 < f.chunks.length ∧
    (∀ g, g ∈ fs → 0 < g.chunks.length) ∧
    (0 < maxChunks → f.chunks.length ≤ maxChunks ∧ (∀ g, g ∈ fs → g.chunks.length = maxChunks) ∧
      w.count = fs.length * maxChunks + f.chunks.length) ∧ (maxChunks = 0 → fs = [])

theorem workerOk_step {maxChunks : Nat} {done : List Chunk} {w : Worker} (h : WorkerOk maxChunks done w) (c : Chunk) :
    WorkerOk maxChunks (done ++ [c]) (workerStep maxChunks w c) := by
  rw [workerStep]
  by_cases hn : w.count = 0 ∨ (maxChunks > 0 ∧ w.count % maxChunks = 0)
  · rw [if_pos hn]
    simp only [writeLast_append]
    refine ⟨by simp [h.count], by simp [h.index], ?_, by simp [h.content], Or.inr ⟨w.files, ⟨w.fileIndex, [c]⟩, by simp, by simp, ?_, ?_, ?_⟩⟩
    · rw [List.map_append, h.names]
      simp only [List.map_cons, List.map_nil, List.length_append, List.length_cons, List.length_nil, h.index]
      rw [List.range_succ]
    · intro g hg
      rcases h.shape with ⟨_, h2⟩ | ⟨fs, f, hf, h0, h1, _, _⟩
      · rw [h2] at hg; exact absurd hg List.not_mem_nil
      · rw [hf] at hg
        rcases List.mem_append.1 hg with hg | hg
        · exact h1 g hg
        · rw [List.mem_singleton] at hg; rw [hg]; exact h0
    · intro hm
      refine ⟨by simp only [List.length_cons, List.length_nil]; omega, ?_, ?_⟩
      · intro g hg
        rcases h.shape with ⟨_, h2⟩ | ⟨fs, f, hf, h0, h1, h3, _⟩
        · rw [h2] at hg; exact absurd hg List.not_mem_nil
        · obtain ⟨h4, h5, h6⟩ := h3 hm
          rw [hf] at hg
          rcases List.mem_append.1 hg with hg | hg
          · exact h5 g hg
          · rw [List.mem_singleton] at hg
            rw [hg]
            rcases hn with hn | ⟨_, hn⟩
            · omega
            · rw [h6, Nat.mul_comm, Nat.mul_add_mod] at hn
              rcases Nat.lt_or_ge f.chunks.length maxChunks with h7 | h7
              · rw [Nat.mod_eq_of_lt h7] at hn; omega
              · omega
      · rcases h.shape with ⟨h2, h2'⟩ | ⟨fs, f, hf, h0, h1, h3, _⟩
        · rw [h2', h.count, h2]; simp
        · obtain ⟨h4, h5, h6⟩ := h3 hm
          simp only [List.length_cons, List.length_nil]
          rw [hf, h6, List.length_append, List.length_cons, List.length_nil, Nat.add_mul]
          rcases hn with hn | ⟨_, hn⟩
          · omega
          · rw [h6, Nat.mul_comm, Nat.mul_add_mod] at hn
            rcases Nat.lt_or_ge f.chunks.length maxChunks with h7 | h7
            · rw [Nat.mod_eq_of_lt h7] at hn; omega
            · omega
    · intro hm
      rcases h.shape with ⟨_, h2⟩ | ⟨fs, f, hf, h0, _⟩
      · exact h2
      · exfalso
        rcases hn with hn | hn
        · have h5 := h.content
          rw [hf] at h5
          have h6 := congrArg List.length h5
          rw [h.count] at hn
          simp at h6
          omega
        · omega
  · rw [if_neg hn]
    rcases h.shape with ⟨h1, _⟩ | ⟨fs, f, hf, h0, h1, h3, h4⟩
    · exfalso; apply hn; left; rw [h.count, h1]; rfl
    · simp only [hf, writeLast_append]
      refine ⟨by simp [h.count], by simp [h.index, hf], ?_, ?_, Or.inr ⟨fs, { f with chunks := f.chunks ++ [c] }, rfl, by simp, h1, ?_, h4⟩⟩
      · have := h.names
        rw [hf] at this
        simpa using this
      · have := h.content
        rw [hf] at this
        rw [← this]; simp
      · intro hm
        obtain ⟨h5, h6, h7⟩ := h3 hm
        refine ⟨?_, h6, by simp only [List.length_append, List.length_cons, List.length_nil]; omega⟩
        simp only [List.length_append, List.length_cons, List.length_nil]
        rcases Nat.lt_or_ge f.chunks.length maxChunks with h8 | h8
        · omega
        · exfalso
          apply hn
          right
          refine ⟨hm, ?_⟩
          rw [h7, show f.chunks.length = maxChunks by omega, Nat.mul_comm, Nat.mul_add_mod, Nat.mod_self]

theorem workerLoop_ok {maxChunks : Nat} : ∀ (cs done : List Chunk) (w : Worker), (∀ c, c ∈ cs → c ≠ []) →
    WorkerOk maxChunks done w → WorkerOk maxChunks (done ++ cs) (workerLoop maxChunks cs w)
  | [], done, w, _, h => by rw [List.append_nil, workerLoop]; exact h
  | c :: cs, done, w, hc, h => by
    rw [workerLoop, if_neg (hc c List.mem_cons_self)]
    have := workerLoop_ok cs (done ++ [c]) _ (fun d hd => hc d (List.mem_cons_of_mem _ hd)) (workerOk_step h c)
    rwa [List.append_assoc] at this

theorem workerOk_init (maxChunks : Nat) : WorkerOk maxChunks [] ⟨0, 0, []⟩ :=
  ⟨rfl, rfl, rfl, rfl, Or.inl ⟨rfl, rfl⟩⟩

theorem forward_eq : ∀ (cs : List Chunk), (∀ c, c ∈ cs → c ≠ []) → forward cs = cs
  | [], _ => rfl
  | c :: cs, h => by
    rw [forward, if_neg (h c List.mem_cons_self), forward_eq cs (fun d hd => h d (List.mem_cons_of_mem _ hd))]

theorem threadChunks_mem {who : Nat → Nat} {t : Nat} {cs : List Chunk} {c : Chunk} (h : c ∈ threadChunks who t cs) : c ∈ cs := by
  rw [threadChunks, List.mem_map] at h
  obtain ⟨p, hp, rfl⟩ := h
  exact List.fst_mem_of_mem_zipIdx (List.mem_filter.1 hp).1

theorem filter_classes {α : Type} (f : α → Nat) (l : List α) : ∀ n,
    ((List.range n).flatMap fun t => l.filter fun a => decide (f a = t)).Perm (l.filter fun a => decide (f a < n))
  | 0 => by simp
  | n + 1 => by
    rw [List.range_succ, List.flatMap_append]
    have ih := filter_classes f l n
    have h := List.filter_append_perm (fun a => decide (f a < n)) (l.filter fun a => decide (f a < n + 1))
    rw [List.filter_filter, List.filter_filter] at h
    have e1 : (l.filter fun a => decide (f a < n) && decide (f a < n + 1)) = l.filter fun a => decide (f a < n) := by
      refine List.filter_congr fun a _ => ?_
      by_cases h : f a < n
      · simp [h, show f a < n + 1 by omega]
      · simp [h]
    have e2 : (l.filter fun a => (!decide (f a < n)) && decide (f a < n + 1)) = l.filter fun a => decide (f a = n) := by
      refine List.filter_congr fun a _ => ?_
      by_cases h : f a = n
      · simp [h]
      · by_cases h2 : f a < n
        · simp [h, h2]
        · simp [h, show ¬ f a < n + 1 by omega]
    rw [e1, e2] at h
    refine List.Perm.trans ?_ h
    rw [List.flatMap_singleton]
    exact ih.append_right _

/-- All threads of a process together get all its chunks. -/
theorem threads_perm (who : Nat → Nat) (threads : Nat) (cs : List Chunk) (h : ∀ j, j < cs.length → who j < threads) :
    ((List.range threads).flatMap fun t => threadChunks who t cs).Perm cs := by
  have e : ((List.range threads).flatMap fun t => threadChunks who t cs) =
      ((List.range threads).flatMap fun t => cs.zipIdx.filter fun p => decide (who p.2 = t)).map (·.1) := by
    rw [List.map_flatMap]; rfl
  rw [e]
  have h1 := (filter_classes (fun p : Chunk × Nat => who p.2) cs.zipIdx threads).map (·.1)
  refine h1.trans ?_
  rw [List.filter_eq_self.2, List.zipIdx_map_fst]
  intro p hp
  have := List.snd_lt_of_mem_zipIdx hp
  simpa using h p.2 (by omega)

/- File names. -/

theorem append_sep_inj {a b x y : List Char} {c : Char} (ha : c ∉ a) (hb : c ∉ b) (h : a ++ c :: x = b ++ c :: y) :
    a = b ∧ x = y := by
  induction a generalizing b with
  | nil =>
    cases b with
    | nil => exact ⟨rfl, by simpa using h⟩
    | cons d b =>
      simp only [List.nil_append, List.cons_append, List.cons.injEq] at h
      exact absurd (by rw [h.1]; exact List.mem_cons_self) hb
  | cons d a ih =>
    cases b with
    | nil =>
      simp only [List.nil_append, List.cons_append, List.cons.injEq] at h
      exact absurd (by rw [← h.1]; exact List.mem_cons_self) ha
    | cons e b =>
      simp only [List.cons_append, List.cons.injEq] at h
      have := ih (fun h => ha (List.mem_cons_of_mem _ h)) (fun h => hb (List.mem_cons_of_mem _ h)) h.2
      exact ⟨by rw [h.1, this.1], this.2⟩

theorem digits_inj {m n : Nat} (h : Nat.toDigits 10 m = Nat.toDigits 10 n) : m = n := by
  have h1 := Nat.ofDigitChars_ten_toDigits (n := m)
  have h2 := Nat.ofDigitChars_ten_toDigits (n := n)
  rw [h] at h1
  omega

theorem fileName_inj {p t i p' t' i' : Nat} (h : fileName p t i = fileName p' t' i') : p = p' ∧ t = t' ∧ i = i' := by
  rw [fileName, fileName] at h
  simp only [List.cons_append, List.append_assoc, List.cons.injEq, true_and] at h
  have h1 := append_sep_inj Nat.underscore_not_in_toDigits Nat.underscore_not_in_toDigits h
  have h2 := append_sep_inj Nat.underscore_not_in_toDigits Nat.underscore_not_in_toDigits h1.2
  exact ⟨digits_inj h1.1, digits_inj h2.1, digits_inj (List.append_cancel_right h2.2)⟩

end DeepGNN.Uploader
