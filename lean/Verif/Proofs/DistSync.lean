import Verif.Model.DistSync

namespace DeepGNN.DistSync

theorem dot_not_digit (i : Nat) : '.' ∉ Nat.toDigits 10 i := by
  intro h
  exact absurd (Nat.isDigit_of_mem_toDigits (by decide) (by decide) h) (by decide)

theorem last_dot : ∀ {a b x y : List Char}, '.' ∉ x → '.' ∉ y → a ++ '.' :: x = b ++ '.' :: y → a = b ∧ x = y
  | [], [], x, y, _, _, h => by
    simp only [List.nil_append, List.cons.injEq, true_and] at h
    exact ⟨rfl, h⟩
  | [], c :: b, x, y, hx, _, h => by
    simp only [List.nil_append, List.cons_append, List.cons.injEq] at h
    exact absurd (show '.' ∈ x by rw [h.2]; simp) hx
  | c :: a, [], x, y, _, hy, h => by
    simp only [List.nil_append, List.cons_append, List.cons.injEq] at h
    exact absurd (show '.' ∈ y by rw [← h.2]; simp) hy
  | c :: a, d :: b, x, y, hx, hy, h => by
    simp only [List.cons_append, List.cons.injEq] at h
    have := last_dot hx hy h.2
    exact ⟨by rw [h.1, this.1], this.2⟩

theorem fileName_inj {tag tag' : List Char} {i j : Nat} (h : fileName tag i = fileName tag' j) : tag = tag' ∧ i = j := by
  have h1 := List.append_cancel_left h
  have h2 := last_dot (dot_not_digit i) (dot_not_digit j) h1
  have h3 := Nat.ofDigitChars_ten_toDigits (n := i)
  have h4 := Nat.ofDigitChars_ten_toDigits (n := j)
  rw [h2.2] at h3
  exact ⟨h2.1, h3.symm.trans h4⟩

theorem fileName_cleaned {files : List (List Char)} {tag : List Char} {i : Nat} : fileName tag i ∉ cleanup files := by
  intro h
  rw [cleanup, List.mem_filter] at h
  have h2 := h.2
  rw [fileName, List.isPrefixOf_iff_prefix.2 (List.prefix_append _ _)] at h2
  exact absurd h2 (by decide)

theorem run_append {n : Nat} : ∀ {s : State} {a b : List Act}, run n s (a ++ b) = (run n s a).bind fun t => run n t b
  | s, [], b => rfl
  | s, x :: a, b => by
    rw [List.cons_append, run, run]
    cases exec n s x with
    | none => rfl
    | some t => exact run_append

/-- Which calls are behind the files and the phases, after the folder was cleaned. -/
structure Inv (n : Nat) (acts : List Act) (s : State) : Prop where
  size : s.phases.length = n
  file : ∀ tag i, fileName tag i ∈ s.files ↔ Act.call i tag ∈ acts
  wait : ∀ (t : Nat) (tag : List Char) (i : Nat), s.phases[t]? = some (.waiting tag i) → i ≤ n ∧ ∀ j, j < i → Act.call j tag ∈ acts
  on : s.phases[0]? ≠ some .off

theorem inv_exec {n : Nat} {acts : List Act} {s t : State} {a : Act} (hi : Inv n acts s) (h : exec n s a = some t) :
    Inv n (acts ++ [a]) t := by
  have hset : ∀ (k m : Nat) (p : Phase), (s.phases.set k p)[m]? = if k = m ∧ m < s.phases.length then some p else s.phases[m]? := by
    intro k m p
    rw [List.getElem?_set]
    by_cases hkm : k = m
    · subst hkm
      by_cases hl : k < s.phases.length
      · simp [hl]
      · simp [hl, List.getElem?_eq_none (Nat.not_lt.1 hl)]
    · simp [hkm]
  cases a with
  | start k =>
    rw [exec] at h
    split at h
    · rename_i hk
      have hk0 : k ≠ 0 := by
        rintro rfl; exact hi.on hk
      simp only [Option.some.injEq] at h
      subst h
      refine ⟨by simpa using hi.size, ?_, ?_, ?_⟩
      · intro tag i
        simp only [if_neg hk0]
        rw [hi.file]; simp
      · intro m tag i hm
        simp only [hset] at hm
        split at hm
        · cases hm
        · have := hi.wait m tag i hm
          exact ⟨this.1, fun j hj => List.mem_append_left _ (this.2 j hj)⟩
      · simp only [hset]
        split
        · simp
        · exact hi.on
    · cases h
  | call k tag' =>
    rw [exec] at h
    split at h
    · rename_i hk
      simp only [Option.some.injEq] at h
      subst h
      refine ⟨by simpa using hi.size, ?_, ?_, ?_⟩
      · intro tag i
        simp only [List.mem_cons, List.mem_append, List.not_mem_nil, or_false, Act.call.injEq]
        rw [hi.file]
        constructor
        · rintro (hx | hx)
          · have := fileName_inj hx
            exact Or.inr ⟨this.2, this.1⟩
          · exact Or.inl hx
        · rintro (hx | ⟨rfl, rfl⟩)
          · exact Or.inr hx
          · exact Or.inl rfl
      · intro m tag i hm
        simp only [hset] at hm
        split at hm
        · cases hm
          exact ⟨Nat.zero_le _, fun j hj => absurd hj (Nat.not_lt_zero _)⟩
        · have := hi.wait m tag i hm
          exact ⟨this.1, fun j hj => List.mem_append_left _ (this.2 j hj)⟩
      · simp only [hset]
        split
        · simp
        · exact hi.on
    · cases h
  | check k =>
    rw [exec] at h
    split at h
    · rename_i tag' i' hk
      split at h
      · rename_i hlt
        split at h
        · rename_i hf
          simp only [Option.some.injEq] at h
          subst h
          refine ⟨by simpa using hi.size, ?_, ?_, ?_⟩
          · intro tag i
            simp only
            rw [hi.file]; simp
          · intro m tag i hm
            simp only [hset] at hm
            split at hm
            · cases hm
              refine ⟨hlt, fun j hj => List.mem_append_left _ ?_⟩
              by_cases hj' : j = i'
              · subst hj'; exact (hi.file _ _).1 hf
              · exact (hi.wait k tag' i' hk).2 j (by omega)
            · have := hi.wait m tag i hm
              exact ⟨this.1, fun j hj => List.mem_append_left _ (this.2 j hj)⟩
          · simp only [hset]
            split
            · simp
            · exact hi.on
        · simp only [Option.some.injEq] at h
          subst h
          refine ⟨hi.size, fun tag i => by rw [hi.file]; simp, ?_, hi.on⟩
          intro m tag i hm
          have := hi.wait m tag i hm
          exact ⟨this.1, fun j hj => List.mem_append_left _ (this.2 j hj)⟩
      · cases h
    · cases h
  | ret k tag' =>
    rw [exec] at h
    split at h
    · rename_i hk
      simp only [Option.some.injEq] at h
      subst h
      refine ⟨by simpa using hi.size, fun tag i => by simp only; rw [hi.file]; simp, ?_, ?_⟩
      · intro m tag i hm
        simp only [hset] at hm
        split at hm
        · cases hm
        · have := hi.wait m tag i hm
          exact ⟨this.1, fun j hj => List.mem_append_left _ (this.2 j hj)⟩
      · simp only [hset]
        split
        · simp
        · exact hi.on
    · cases h

theorem inv_run {n : Nat} : ∀ {acts rest : List Act} {s t : State}, Inv n acts s → run n s rest = some t → Inv n (acts ++ rest) t
  | acts, [], s, t, hi, h => by
    cases h
    rwa [List.append_nil]
  | acts, a :: rest, s, t, hi, h => by
    rw [run, Option.bind_eq_some_iff] at h
    obtain ⟨u, h1, h2⟩ := h
    have := inv_run (inv_exec hi h1) h2
    rwa [List.append_assoc, List.singleton_append] at this

theorem inv_start {n : Nat} {files : List (List Char)} {s : State} (h : exec n (init n files) (.start 0) = some s) :
    Inv n [.start 0] s := by
  rw [exec] at h
  split at h
  · rename_i h0
    simp only [if_true, Option.some.injEq] at h
    subst h
    have hn : 0 < n := by
      rcases Nat.eq_zero_or_pos n with rfl | hn
      · simp [init] at h0
      · exact hn
    refine ⟨by simp [init], ?_, ?_, ?_⟩
    · intro tag i
      constructor
      · intro hx; exact absurd hx fileName_cleaned
      · intro hx; simp at hx
    · intro t tag i ht
      simp only [init, List.getElem?_set, List.length_replicate, List.getElem?_replicate] at ht
      split at ht
      · first | cases ht | (split at ht <;> cases ht)
      · split at ht <;> cases ht
    · simp [init, hn]
  · cases h

theorem reach_inv {n : Nat} {files : List (List Char)} {rest : List Act} {s : State}
    (h : run n (init n files) (.start 0 :: rest) = some s) : Inv n (.start 0 :: rest) s := by
  rw [run, Option.bind_eq_some_iff] at h
  obtain ⟨t, h1, h2⟩ := h
  exact inv_run (inv_start h1) h2

/-- A waiting task whose files are all there reaches the end of its loop by itself. -/
theorem finish {n : Nat} {t : Nat} {tag : List Char} : ∀ (k : Nat) {s : State} {i : Nat}, s.phases[t]? = some (.waiting tag i) →
    i + k = n → (∀ j, j < n → fileName tag j ∈ s.files) →
    ∃ s', run n s (List.replicate k (.check t) ++ [.ret t tag]) = some s'
  | 0, s, i, hp, hk, hf => by
    have : i = n := by omega
    subst this
    exact ⟨{ s with phases := s.phases.set t .idle }, by simp [run, exec, hp]⟩
  | k + 1, s, i, hp, hk, hf => by
    have hlt : t < s.phases.length := by
      rcases Nat.lt_or_ge t s.phases.length with h | h
      · exact h
      · rw [List.getElem?_eq_none h] at hp; cases hp
    have hex : exec n s (.check t) = some { s with phases := s.phases.set t (.waiting tag (i + 1)) } := by
      rw [exec, hp]
      simp only
      rw [if_pos (by omega), if_pos (hf i (by omega))]
    obtain ⟨s', hs'⟩ := finish (t := t) (tag := tag) k (s := { s with phases := s.phases.set t (.waiting tag (i + 1)) }) (i := i + 1) (by simp [hlt])
      (by omega) hf
    refine ⟨s', ?_⟩
    rw [List.replicate_succ, List.cons_append, run, hex, Option.bind_some, hs']

end DeepGNN.DistSync
