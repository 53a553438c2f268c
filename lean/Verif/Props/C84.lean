import Verif.Proofs.Tokenize

/-! C84: tokens of text features. -/

namespace DeepGNN

open DeepGNN.Tokenize DeepGNN.Spec

/-- Every text has words, and only one list of them. -/
theorem C84_words (t : Text) : ∃ ws, IsWords (kept t) ws ∧ ∀ ws', IsWords (kept t) ws' → ws' = ws := by
  obtain ⟨ws, h⟩ := isWords_exists _ (kept t) rfl
  exact ⟨ws, h, fun ws' h' => by rw [← full_of_isWords h', full_of_isWords h]⟩

/-- The id of a token is the number of the last line of the vocabulary file that has it; hence ids are at
least 1 and different tokens have different ids. -/
theorem C84_vocabulary (lines : List Text) (t : Text) (n : Nat) :
    (idOf (loadVocab lines) t = some n ↔ IsLineOf lines t n) ∧
    (∀ t', idOf (loadVocab lines) t = some n → idOf (loadVocab lines) t' = some n → t = t') := by
  have one : ∀ t n, idOf (loadVocab lines) t = some n → IsLineOf lines t n :=
    fun t n h => lookup_loadVocab _ lines rfl t n h
  refine ⟨⟨one t n, ?_⟩, ?_⟩
  · rintro ⟨h1, h2, h3, h4⟩
    have hmem : ∃ l ∈ lines, lineToken l = t := by
      cases hl : lines[n - 1]? with
      | none => rw [hl] at h3; cases h3
      | some l =>
        rw [hl] at h3
        exact ⟨l, List.mem_of_getElem? hl, by simpa using h3⟩
    obtain ⟨k, hk⟩ := lookup_some_of_line _ lines rfl t h1 hmem
    obtain ⟨_, k2, k3, k4⟩ := one t k hk
    have : k = n := by
      rcases Nat.lt_trichotomy k n with h | h | h
      · exact absurd h3 (k4 (n - 1) (by omega))
      · exact h
      · exact absurd k3 (h4 (k - 1) (by omega))
    rw [← this]
    exact hk
  · intro t' h h'
    obtain ⟨_, _, a, _⟩ := one t n h
    obtain ⟨_, _, b, _⟩ := one t' n h'
    rw [a] at b
    cases b
    rfl

/-- A text that has a word: `max_seq_len` words get their ids, `max_n_letters` each; everything else is 0.
The mask says which words are there. -/
theorem C84_triletter_partial {lines : List Text} {t : Text} {ws : List Text} {L N : Nat}
    (h : IsWords (kept t) ws) (hne : ws ≠ []) :
    (triLetter (loadVocab lines) L N t).1.length = L * N ∧
    (triLetter (loadVocab lines) L N t).2.length = L ∧
    (∀ i j, i < L → j < N → (triLetter (loadVocab lines) L N t).1[i * N + j]? =
      some (match ws[i]? with
        | some w => groupId (idOf (loadVocab lines)) w j
        | none => 0)) ∧
    (∀ i, i < L → (triLetter (loadVocab lines) L N t).2[i]? = some (if i < ws.length then 1 else 0)) := by
  have hw := textWords_eq h
  rw [if_neg hne] at hw
  unfold triLetter
  rw [hw]
  refine ⟨?_, ?_, ?_, ?_⟩
  · show (store _ _).length = _
    rw [store_length, List.length_replicate]
  · show (store _ _).length = _
    rw [store_length, List.length_replicate]
  · intro i j hi hj
    rw [ids_get hi hj]
    by_cases hlt : i < ws.length
    · have hmem : ∀ w ∈ ws, w ≠ [] := by
        intro w hwm
        rw [← full_of_isWords h] at hwm
        simpa [full] using (List.mem_filter.1 hwm).2
      have hg : ws.getD i [] = ws[i] := by simp [List.getD, List.getElem?_eq_getElem hlt]
      rw [if_pos hlt, hg, if_neg (hmem _ (List.getElem_mem hlt)), List.getElem?_eq_getElem hlt]
    · rw [if_neg hlt, List.getElem?_eq_none (by omega)]
  · intro i hi
    exact mask_get hi

/-- Text " A new-York, 7 ": the words are "a", "newyork" and "7". -/
def C84_text : Text := [32, 65, 32, 32, 110, 101, 119, 45, 89, 111, 114, 107, 44, 32, 55, 32]

/-- A vocabulary with the lines "#a#", "" and "#ne", "new", "#ne". -/
def C84_vocab : List Text := [[35, 97, 35, 10], [10], [35, 110, 101, 13, 10], [110, 101, 119, 10], [35, 110, 101]]

example : IsWords (kept C84_text) [[97], [110, 101, 119, 121, 111, 114, 107], [55]] := by
  have : kept C84_text = 32 :: ([97] ++ 32 :: 32 :: ([110, 101, 119, 121, 111, 114, 107] ++ 32 :: ([55] ++ 32 :: []))) := by
    decide
  rw [this]
  exact .space (.word (by decide) (by decide) (.space (.word (by decide) (by decide)
    (.word (by decide) (by decide) .none))))

example : triLetter (loadVocab C84_vocab) 4 3 C84_text =
    ([1, 0, 0, 5, 4, 0, 0, 0, 0, 0, 0, 0], [1, 1, 1, 0]) ∧ IsLineOf C84_vocab [35, 110, 101] 5 := by
  refine ⟨by decide +kernel, (C84_vocabulary C84_vocab _ _).1.1 (by decide +kernel)⟩

/-- The standard tokenizer: the first `max_seq_len` ids, then zeros, and a mask. -/
theorem C84_bert (encode : Text → List Nat) (L : Nat) (t : Text) :
    (stdBert encode L t).1.length = L ∧ (stdBert encode L t).2.length = L ∧
    ∀ i, i < L → (stdBert encode L t).1[i]? = some ((encode t).getD i 0) ∧
      (stdBert encode L t).2[i]? = some (if i < (encode t).length then 1 else 0) := by
  unfold stdBert
  simp only
  refine ⟨by simp; omega, by simp; omega, ?_⟩
  intro i hi
  by_cases h : i < (encode t).length
  · refine ⟨?_, ?_⟩
    · rw [List.getElem?_append_left (by simp; omega), List.getElem?_take, if_pos (by omega)]
      simp [List.getD, List.getElem?_eq_getElem h]
    · rw [List.getElem?_append_left (by simp; omega), List.getElem?_replicate, if_pos (by omega), if_pos h]
  · refine ⟨?_, ?_⟩
    · rw [List.getElem?_append_right (by simp; omega)]
      rw [List.getElem?_drop, List.getElem?_replicate, if_pos (by simp; omega)]
      simp [List.getD, List.getElem?_eq_none (Nat.le_of_not_lt h)]
    · rw [List.getElem?_append_right (by simp; omega)]
      rw [List.getElem?_drop, List.getElem?_replicate, if_pos (by simp; omega), if_neg h]

example : stdBert (fun t => t) 4 [7, 8] = ([7, 8, 0, 0], [1, 1, 0, 0]) ∧
    stdBert (fun t => t) 1 [7, 8] = ([7], [1]) := by decide

/-- Zeros after the text, with which the graph engine fills up features to their full size, do not matter. -/
theorem C84_padding (bytes : List Nat) (k : Nat) :
    sentenceText (bytes ++ List.replicate k 0) = sentenceText bytes :=
  sentenceText_padding bytes k

example : sentenceText ([72, 105, 0xC3, 0xA9, 32] ++ List.replicate 3 0) = some [72, 105, 0xE9] := by decide

/-- In every array of bytes, anywhere in the nested dictionaries of a batch, each sentence is replaced by
its own ids and mask. All dimensions but the last stay. Other arrays stay. -/
theorem C84_transform_partial {tok : Text → List Nat × List Nat} {W L : Nat}
    (htok : ∀ t, (tok t).1.length = W ∧ (tok t).2.length = L)
    {ctx ctx' : Ctx} (h : transform tok ctx = some ctx') {path : List String} :
    (∀ a, ctxAt path ctx = some (.other a) → ctxAt path ctx' = some (.other a)) ∧
    ∀ (a : Arr) (outer : List Nat) (len : Nat), ctxAt path ctx = some (.bytes a) →
      a.shape = outer ++ [len] → 0 < size outer →
      ∃ s m, ctxAt path ctx' = some (.tokens s m) ∧ s.shape = outer ++ [W] ∧ m.shape = outer ++ [L] ∧
        ∀ k, k < size outer → ∃ text, sentenceText (arrRow len k a) = some text ∧
          arrRow W k s = (tok text).1 ∧ arrRow L k m = (tok text).2 := by
  refine ⟨?_, ?_⟩
  · intro a ha
    obtain ⟨u, h1, h2⟩ := transform_at tok path ctx ctx' _ h ha
    simp only [transform] at h2
    cases h2
    exact h1
  intro a outer len ha hshape hpos
  obtain ⟨u, h1, h2⟩ := transform_at tok path ctx ctx' _ h ha
  simp only [transform] at h2
  cases h3 : tokenizeArr tok a with
  | none => rw [h3] at h2; cases h2
  | some p =>
    rw [h3] at h2
    cases h2
    unfold tokenizeArr at h3
    rw [hshape] at h3
    simp only [List.dropLast_concat, List.getLast?_concat] at h3
    split at h3
    · cases h3
    · by_cases hlen : len = 0
      · subst hlen
        simp only [ne_eq, not_true_eq_false, if_false, Option.bind_some] at h3
        obtain ⟨s, m, e1, e2, e3, e4⟩ := finish_arr (W := W) (L := L) (outer := outer)
          (rows := List.replicate (size outer) (tok [])) hpos (by simp) (by
            intro r hr
            rw [List.eq_of_mem_replicate hr]
            exact htok [])
        rw [h3] at e1
        cases e1
        refine ⟨s, m, h1, e2, e3, ?_⟩
        intro k hk
        refine ⟨[], by simp [arrRow]; rfl, ?_⟩
        exact e4 k (tok []) (by rw [List.getElem?_replicate, if_pos hk])
      · simp only [ne_eq, hlen, not_false_eq_true, if_true] at h3
        cases hrows : (rowsOf len (size outer) a.data).mapM (fun s => (sentenceText s).map tok) with
        | none => rw [hrows] at h3; cases h3
        | some rows =>
          rw [hrows] at h3
          simp only [Option.bind_some] at h3
          have hsome : ∀ (xs : List (List Nat)) (ys : List (List Nat × List Nat)),
              xs.mapM (fun s => (sentenceText s).map tok) = some ys →
              ys.length = xs.length ∧ (∀ r ∈ ys, ∃ t, r = tok t) ∧
                ∀ (k : Nat) (x : List Nat), xs[k]? = some x → ∃ t, sentenceText x = some t ∧ ys[k]? = some (tok t) := by
            intro xs
            induction xs with
            | nil => intro ys hy; cases hy; exact ⟨rfl, by simp, by simp⟩
            | cons x xs ih =>
              intro ys hy
              rw [List.mapM_cons] at hy
              cases hx : sentenceText x with
              | none => rw [hx] at hy; cases hy
              | some t =>
                rw [hx] at hy
                cases hm : xs.mapM (fun s => (sentenceText s).map tok) with
                | none => rw [hm] at hy; cases hy
                | some zs =>
                  rw [hm] at hy
                  cases hy
                  obtain ⟨i1, i2, i3⟩ := ih zs hm
                  refine ⟨by simp [i1], ?_, ?_⟩
                  · intro r hr
                    rcases List.mem_cons.1 hr with e | e
                    · exact ⟨t, e⟩
                    · exact i2 r e
                  · intro k y hk
                    cases k with
                    | zero =>
                      simp only [List.getElem?_cons_zero, Option.some.injEq] at hk
                      subst hk
                      exact ⟨t, hx, rfl⟩
                    | succ k => exact i3 k y (by simpa using hk)
          obtain ⟨r1, r2, r3⟩ := hsome _ _ hrows
          have hcnt : (rowsOf len (size outer) a.data).length = size outer := by simp [rowsOf]
          obtain ⟨s, m, e1, e2, e3, e4⟩ := finish_arr (W := W) (L := L) (outer := outer) (rows := rows) hpos
            (by rw [r1, hcnt]) (by
              intro r hr
              obtain ⟨t, e⟩ := r2 r hr
              rw [e]
              exact htok t)
          rw [h3] at e1
          cases e1
          refine ⟨s, m, h1, e2, e3, ?_⟩
          intro k hk
          obtain ⟨t, t1, t2⟩ := r3 k (arrRow len k a) (by
            unfold rowsOf arrRow
            rw [List.getElem?_map, List.getElem?_range hk]
            rfl)
          exact ⟨t, t1, e4 k _ t2⟩

/-- A batch with two text features and one of another type. -/
def C84_ctx : Ctx :=
  .dict [("label", .other ⟨[2], [0, 1]⟩),
    ("inputs", .dict [("nodes", .bytes ⟨[2, 3], [97, 0, 0, 110, 101, 119]⟩),
      ("neighbors", .bytes ⟨[2, 1, 2], [97, 0, 98, 32]⟩)])]

/-- The hypotheses are met. -/
example : ∃ ctx', transform (triLetter (loadVocab C84_vocab) 2 2) C84_ctx = some ctx' ∧
    ctxAt ["inputs", "nodes"] C84_ctx = some (.bytes ⟨[2, 3], [97, 0, 0, 110, 101, 119]⟩) ∧
    ctxAt ["inputs", "nodes"] ctx' = some (.tokens ⟨[2, 4], [1, 0, 0, 0, 5, 4, 0, 0]⟩ ⟨[2, 2], [1, 0, 1, 0]⟩) ∧
    ctxAt ["inputs", "neighbors"] ctx' = some (.tokens ⟨[2, 1, 4], [1, 0, 0, 0, 0, 0, 0, 0]⟩ ⟨[2, 1, 2], [1, 0, 1, 0]⟩) :=
  ⟨_, rfl, rfl, rfl, rfl⟩

/-- Tokens that were made beforehand: if each row of an array with two dimensions has the ids and then the mask
of a text, they are told apart as they were put together. -/
theorem C84_offline_partial {tok : Text → List Nat × List Nat} {W L b : Nat} {texts : List Text} (hL : 0 < L)
    (htok : ∀ t, (tok t).1.length = W ∧ (tok t).2.length = L) (hb : texts.length = b) :
    extractArr L ⟨[b, W + L], (texts.map fun t => (tok t).1 ++ (tok t).2).flatten⟩ =
      some (⟨[b, W], (texts.map fun t => (tok t).1).flatten⟩, ⟨[b, L], (texts.map fun t => (tok t).2).flatten⟩) := by
  have w0 : ∀ r ∈ texts.map (fun t => (tok t).1 ++ (tok t).2), r.length = W + L := by
    intro r hr
    obtain ⟨t, _, e⟩ := List.mem_map.1 hr
    rw [← e, List.length_append, (htok t).1, (htok t).2]
  have w1 : ∀ r ∈ texts.map (fun t => (tok t).1), r.length = W := by
    intro r hr
    obtain ⟨t, _, e⟩ := List.mem_map.1 hr
    rw [← e, (htok t).1]
  have w2 : ∀ r ∈ texts.map (fun t => (tok t).2), r.length = L := by
    intro r hr
    obtain ⟨t, _, e⟩ := List.mem_map.1 hr
    rw [← e, (htok t).2]
  have hrows : rowsOf (W + L) b (texts.map fun t => (tok t).1 ++ (tok t).2).flatten =
      texts.map fun t => (tok t).1 ++ (tok t).2 := by
    apply List.ext_getElem?
    intro k
    unfold rowsOf
    rw [List.getElem?_map]
    by_cases hk : k < b
    · rw [List.getElem?_range hk]
      have hk' : k < (texts.map fun t => (tok t).1 ++ (tok t).2).length := by simp; omega
      have := (flatten_row _ w0).2 k _ (List.getElem?_eq_getElem hk')
      rw [List.getElem?_eq_getElem hk', Option.map_some, this]
    · rw [List.getElem?_eq_none (by simp; omega), List.getElem?_eq_none (by simp; omega)]
      rfl
  have f1 := (flatten_row _ w1).1
  have f2 := (flatten_row _ w2).1
  have e1 : (texts.map fun t => (tok t).1 ++ (tok t).2).map (fun r => r.take W) = texts.map fun t => (tok t).1 := by
    rw [List.map_map]
    refine List.map_congr_left fun t _ => ?_
    simp only [Function.comp]
    rw [List.take_append_of_le_length (by rw [(htok t).1]; omega), List.take_of_length_le (by rw [(htok t).1]; omega)]
  have e2 : (texts.map fun t => (tok t).1 ++ (tok t).2).map (fun r => r.drop W) = texts.map fun t => (tok t).2 := by
    rw [List.map_map]
    refine List.map_congr_left fun t _ => ?_
    simp only [Function.comp]
    rw [← (htok t).1, List.drop_left]
  have hcut : (if L = 0 then 0 else W + L - L) = W := by rw [if_neg (by omega)]; omega
  unfold extractArr
  simp only [List.getLast?_cons_cons, List.getLast?_singleton, Option.getD_some]
  rw [if_pos (by omega)]
  simp only [size, Nat.mul_one, hrows, hcut, e1, e2]
  unfold reshape
  simp only [List.dropLast_cons_cons, List.dropLast_singleton, List.drop_succ_cons, List.drop_zero, List.cons_append, List.nil_append,
    size, Nat.mul_one, f1, f2, List.length_map, hb, if_true]
  rw [if_pos (by congr 1; omega)]
  simp only [Option.bind_some, Option.map_some]
  congr 3
  rw [show W + L - W = L by omega]

example : extractArr 2 ⟨[2, 5], [1, 2, 3, 1, 1, 4, 5, 6, 1, 0]⟩ =
    some (⟨[2, 3], [1, 2, 3, 4, 5, 6]⟩, ⟨[2, 2], [1, 1, 1, 0]⟩) := by decide

/-- A text without words has a mask of one word, like a text with a word. -/
theorem C84_empty_refuted : IsWords (kept []) [] ∧
    (triLetter (loadVocab C84_vocab) 2 2 []).2 = [1, 0] ∧ triLetter (loadVocab C84_vocab) 2 2 [] =
      triLetter (loadVocab C84_vocab) 2 2 [55] := by
  refine ⟨.none, by decide, by decide⟩

/-- A tab between words does not part them: "a\tb" is the word "ab". -/
theorem C84_tab_refuted : IsWords (kept [97, 9, 98]) [[97, 98]] ∧
    triLetter (loadVocab C84_vocab) 2 3 [97, 9, 98] = triLetter (loadVocab C84_vocab) 2 3 [97, 98] := by
  refine ⟨.last (by decide) (by decide), by decide⟩

/-- A text that is cut within a character, as a feature longer than `max_sent_chars` may be, stops the
batch: "aé" cut after two bytes. -/
theorem C84_cut_refuted : sentenceText [97, 0xC3, 0xA9] = some [97, 0xE9] ∧
    ∀ tok, tokenizeArr tok ⟨[2, 2], [97, 98, 97, 0xC3]⟩ = none := by
  refine ⟨by decide, ?_⟩
  intro tok
  rfl

/-- Tokens made beforehand, for the neighbors of nodes (three dimensions): the wrong dimension is cut and the batch
stops. -/
theorem C84_offline_refuted :
    extractArr 2 ⟨[1, 2, 5], [1, 2, 3, 1, 1, 4, 5, 6, 1, 0]⟩ = none ∧
    extractArr 1 ⟨[2, 1, 2], [1, 1, 2, 1]⟩ = some (⟨[2, 1, 0, 2], []⟩, ⟨[2, 1, 1, 2], [1, 1, 2, 1]⟩) := by
  decide

/-- A batch without sentences: the ids have no dimension for the words. -/
theorem C84_no_rows_refuted (tok : Text → List Nat × List Nat) :
    tokenizeArr tok ⟨[0, 5], []⟩ = some (⟨[0], []⟩, ⟨[0], []⟩) := rfl

end DeepGNN
