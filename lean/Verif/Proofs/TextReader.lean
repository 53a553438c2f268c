import Verif.Spec.TextReader

namespace DeepGNN.Text

open Spec

/-- The lines that are not empty. -/
def nonBlank (l : List Bytes) : List Bytes := l.filter fun x => !x.isEmpty

theorem nonBlank_append (a b : List Bytes) : nonBlank (a ++ b) = nonBlank a ++ nonBlank b := List.filter_append ..

theorem nonBlank_one (x : Bytes) : nonBlank [x] = if x = [] then [] else [x] := by
  cases x <;> simp [nonBlank]

theorem nonBlank_cons (x : Bytes) (l : List Bytes) : nonBlank (x :: l) = (if x = [] then [] else [x]) ++ nonBlank l := by
  cases x <;> simp [nonBlank]

theorem splitAux_runs : ∀ (l : Bytes) (cr : Bool) (cur : Bytes), (cr = true → cur = []) →
    nonBlank (splitAux cr cur l) = runs cur l
  | [], cr, cur, _ => by
    simp only [splitAux, runs]
    split
    · rfl
    · rename_i h; rw [nonBlank_one, if_neg h]
  | b :: l, cr, cur, h => by
    simp only [splitAux, runs]
    by_cases h1 : (cr && b == 10) = true
    · rw [if_pos h1]
      simp only [Bool.and_eq_true, beq_iff_eq] at h1
      have hc := h h1.1
      subst hc
      rw [if_pos (by rw [h1.2]; decide), if_pos rfl, List.nil_append]
      exact splitAux_runs l false [] (by simp)
    · rw [if_neg h1]
      split
      · rw [nonBlank_cons, splitAux_runs l _ [] (fun _ => rfl)]
      · exact splitAux_runs l false _ (by simp)

theorem splitlines_runs (l : Bytes) : nonBlank (splitlines l) = runs [] l := splitAux_runs l false [] (by simp)

theorem runs_append_nl : ∀ (a cur b : Bytes), runs cur (a ++ 10 :: b) = runs cur a ++ runs [] b
  | [], cur, b => by
    have : isBreak 10 = true := by decide
    rw [List.nil_append]
    conv => lhs; rw [runs, if_pos this]
    rfl
  | x :: a, cur, b => by
    rw [List.cons_append, runs, runs]
    split
    · rw [runs_append_nl a [] b, List.append_assoc]
    · exact runs_append_nl a _ b

theorem runs_clean : ∀ (l cur : Bytes), (∀ b ∈ l, isBreak b = false) → runs cur l = if cur ++ l = [] then [] else [cur ++ l]
  | [], cur, _ => by simp [runs]
  | b :: l, cur, h => by
    rw [runs, if_neg (by simp [h b (by simp)]), runs_clean l _ (fun x hx => h x (by simp [hx]))]
    simp

/-- Text that is empty or ends with a newline. -/
def Ended (m : Bytes) : Prop := m = [] ∨ ∃ m', m = m' ++ [10]

theorem runs_ended {m : Bytes} (h : Ended m) (x : Bytes) : runs [] (m ++ x) = runs [] m ++ runs [] x := by
  rcases h with rfl | ⟨m', rfl⟩
  · rfl
  · rw [List.append_assoc, List.singleton_append, runs_append_nl, runs_append_nl, runs, if_pos rfl, List.append_nil]

theorem splitAux_nl : ∀ (a : Bytes) (cr : Bool) (cur b : Bytes), (cr = true → cur = []) →
    splitAux cr cur (a ++ 10 :: b) = splitAux cr cur (a ++ [10]) ++ splitAux false [] b
  | [], cr, cur, b, _ => by
    cases cr <;> simp [splitAux, isBreak]
  | x :: a, cr, cur, b, h => by
    simp only [List.cons_append, splitAux]
    by_cases h1 : (cr && x == 10) = true
    · rw [if_pos h1, if_pos h1]; exact splitAux_nl a false [] b (by simp)
    · rw [if_neg h1, if_neg h1]
      split
      · rw [splitAux_nl a _ [] b (fun _ => rfl), List.cons_append]
      · exact splitAux_nl a false _ b (by simp)

theorem splitAux_sublist : ∀ (a : Bytes) (cr : Bool) (cur : Bytes), (cr = true → cur = []) →
    (splitAux cr cur a).Sublist (splitAux cr cur (a ++ [10]))
  | [], cr, cur, h => by
    cases cr with
    | true => simp [splitAux, h rfl]
    | false =>
      simp only [List.nil_append, splitAux, Bool.false_and]
      split
      · exact List.nil_sublist _
      · simp [isBreak]
  | x :: a, cr, cur, h => by
    simp only [List.cons_append, splitAux]
    by_cases h1 : (cr && x == 10) = true
    · rw [if_pos h1, if_pos h1]; exact splitAux_sublist a false [] (by simp)
    · rw [if_neg h1, if_neg h1]
      split
      · exact (splitAux_sublist a _ [] (fun _ => rfl)).cons_cons _
      · exact splitAux_sublist a false _ (by simp)

theorem splitlines_nl (a b : Bytes) : splitlines (a ++ 10 :: b) = splitlines (a ++ [10]) ++ splitlines b :=
  splitAux_nl a false [] b (by simp)

theorem splitlines_sublist (a : Bytes) : (splitlines a).Sublist (splitlines (a ++ [10])) := splitAux_sublist a false [] (by simp)

theorem splitlines_ended {m : Bytes} (h : Ended m) (x : Bytes) : splitlines (m ++ x) = splitlines m ++ splitlines x := by
  rcases h with rfl | ⟨m', rfl⟩
  · rfl
  · rw [List.append_assoc, List.singleton_append, splitlines_nl]

theorem splitAux_clean : ∀ (l : Bytes) (cr : Bool) (cur : Bytes), (∀ b ∈ l, isBreak b = false) →
    splitAux cr cur l = if cur ++ l = [] then [] else [cur ++ l]
  | [], cr, cur, _ => by simp [splitAux]
  | b :: l, cr, cur, h => by
    have hb := h b (by simp)
    have h10 : (b == 10) = false := by
      rcases hh : (b == 10) with _ | _
      · rfl
      · rw [beq_iff_eq] at hh; subst hh; exact absurd hb (by decide)
    rw [splitAux, h10, Bool.and_false, if_neg (by simp), if_neg (by simp [hb]), splitAux_clean l false _ (fun x hx => h x (by simp [hx]))]
    simp

/-- The piece stands for the bytes `c`. -/
def Rep (p : Piece) (c : Bytes) : Prop :=
  p.len = c.length ∧
  match p.pre, p.suf with
  | none, none => c = [] ∧ p.lines = []
  | some a, none => c = a ∧ p.lines = [] ∧ 10 ∉ a
  | some a, some s => 10 ∉ s ∧ ∃ m, Ended m ∧ c = a ++ 10 :: (m ++ s) ∧ nonBlank p.lines = runs [] m ∧ p.lines.Sublist (splitlines m)
  | none, some _ => False

theorem takeWhile_nl {l : Bytes} (h : 10 ∈ l) : ∃ a b, l = a ++ 10 :: b ∧ 10 ∉ a := by
  induction l with
  | nil => simp at h
  | cons x l ih =>
    by_cases hx : x = 10
    · exact ⟨[], l, by rw [hx]; rfl, by simp⟩
    · obtain ⟨a, b, e, h1⟩ := ih (by rcases List.mem_cons.1 h with h | h; exact absurd h.symm hx; exact h)
      exact ⟨x :: a, b, by rw [e]; rfl, by simp [h1, Ne.symm hx]⟩

theorem findIdx_nl {a b : Bytes} (h : 10 ∉ a) : (a ++ 10 :: b).findIdx (· == 10) = a.length := by
  induction a with
  | nil => simp [List.findIdx_cons]
  | cons x a ih =>
    simp only [List.mem_cons, not_or] at h
    rw [List.cons_append, List.findIdx_cons, show (x == 10) = false by simpa using fun e => h.1 e.symm]
    simp [ih h.2]

theorem readPiece_rep (c : Bytes) : Rep (readPiece c) c := by
  unfold readPiece
  by_cases h0 : c.length = 0
  · rw [if_pos h0]
    have : c = [] := List.length_eq_zero_iff.1 h0
    subst this
    exact ⟨rfl, rfl, rfl⟩
  · rw [if_neg h0]
    by_cases h1 : (c.contains 10) = true
    · rw [if_pos h1]
      have h2 : 10 ∈ c := by simpa using h1
      obtain ⟨a, r, e, ha⟩ := takeWhile_nl h2
      have hfirst : c.findIdx (· == 10) = a.length := by rw [e]; exact findIdx_nl ha
      by_cases h3 : 10 ∈ r
      · obtain ⟨s', m', e2, hs⟩ := takeWhile_nl (List.mem_reverse.2 h3)
        have e3 : r = m'.reverse ++ 10 :: s'.reverse := by
          have := congrArg List.reverse e2
          simpa using this
        have hlast : c.reverse.findIdx (· == 10) = s'.length := by
          rw [e, e3]
          have : (a ++ 10 :: (m'.reverse ++ 10 :: s'.reverse)).reverse = s' ++ 10 :: (m' ++ 10 :: a.reverse) := by simp
          rw [this]; exact findIdx_nl hs
        have hlen : c.length = a.length + 1 + m'.length + 1 + s'.length := by rw [e, e3]; simp; omega
        have hl2 : c.length - 1 - s'.length = a.length + 1 + m'.length := by omega
        simp only [hfirst, hlast, hl2]
        rw [if_pos (by omega)]
        have t1 : c.take a.length = a := by rw [e]; simp
        have t2 : c.drop (a.length + 1 + m'.length + 1) = s'.reverse := by
          rw [e, e3]
          have : a ++ 10 :: (m'.reverse ++ 10 :: s'.reverse) = (a ++ 10 :: (m'.reverse ++ [10])) ++ s'.reverse := by simp
          rw [this]
          exact List.drop_left' (by simp; omega)
        have t3 : (c.take (a.length + 1 + m'.length)).drop (a.length + 1) = m'.reverse := by
          rw [e, e3]
          have : a ++ 10 :: (m'.reverse ++ 10 :: s'.reverse) = (a ++ 10 :: m'.reverse) ++ 10 :: s'.reverse := by simp
          rw [this, List.take_left' (by simp; omega)]
          have : a ++ 10 :: m'.reverse = (a ++ [10]) ++ m'.reverse := by simp
          rw [this]
          exact List.drop_left' (by simp)
        rw [t1, t2, t3]
        refine ⟨rfl, by simpa using hs, m'.reverse ++ [10], .inr ⟨_, rfl⟩, by rw [e, e3]; simp, ?_, splitlines_sublist _⟩
        rw [splitlines_runs, runs_append_nl, runs, if_pos rfl, List.append_nil]
      · have hlast : c.reverse.findIdx (· == 10) = r.length := by
          rw [e]
          have : (a ++ 10 :: r).reverse = r.reverse ++ 10 :: a.reverse := by simp
          rw [this, findIdx_nl (by simpa using h3), List.length_reverse]
        have hl2 : c.length - 1 - r.length = a.length := by rw [e]; simp
        simp only [hfirst, hlast, hl2]
        rw [if_neg (by simp)]
        refine ⟨rfl, ?_, [], .inl rfl, ?_, rfl, List.nil_sublist _⟩
        · rw [e]
          have : a ++ 10 :: r = (a ++ [10]) ++ r := by simp
          rw [this, List.drop_left' (by simp)]
          exact h3
        · rw [e, List.take_left' rfl]
          have : a ++ 10 :: r = (a ++ [10]) ++ r := by simp
          rw [List.nil_append, this, List.drop_left' (by simp)]
          simp
    · rw [if_neg h1]
      exact ⟨rfl, rfl, rfl, by simpa using h1⟩

theorem mergePiece_rep {h p : Piece} {c1 c2 : Bytes} (r1 : Rep h c1) (r2 : Rep p c2) : Rep (mergePiece h p) (c1 ++ c2) := by
  obtain ⟨l1, r1⟩ := r1
  obtain ⟨l2, r2⟩ := r2
  obtain ⟨hp, hl, hs, hn⟩ := h
  obtain ⟨pp, pl, ps, pn⟩ := p
  simp only at l1 l2 r1 r2
  cases pp with
  | none =>
    cases ps with
    | some _ => exact r2.elim
    | none =>
      obtain ⟨rfl, rfl⟩ := r2
      simp only [mergePiece, List.append_nil]
      refine ⟨by simp [l1, l2], r1⟩
  | some a =>
    cases hs with
    | some s =>
      cases hp with
      | none => exact r1.elim
      | some b =>
        obtain ⟨hs1, m, hm, e1, hb, hc⟩ := r1
        cases ps with
        | none =>
          obtain ⟨rfl, rfl, ha⟩ := r2
          simp only [mergePiece]
          exact ⟨by simp [l1, l2], by simp [hs1, ha], m, hm, by rw [e1]; simp, hb, hc⟩
        | some s' =>
          obtain ⟨hs2, m2, hm2, e2, hb2, hc2⟩ := r2
          simp only [mergePiece]
          refine ⟨by simp [l1, l2], hs2, m ++ (s ++ a) ++ 10 :: m2, .inr ?_, ?_, ?_, ?_⟩
          · rcases hm2 with rfl | ⟨m3, rfl⟩
            · exact ⟨m ++ (s ++ a), by simp⟩
            · exact ⟨m ++ (s ++ a) ++ 10 :: m3, by simp⟩
          · rw [e1, e2]; simp
          · rw [nonBlank_append, nonBlank_append, hb, hb2, splitlines_runs, runs_append_nl, runs_ended hm]
          · rw [splitlines_nl, List.append_assoc m, splitlines_ended hm]
            exact (hc.append (splitlines_sublist _)).append hc2
    | none =>
      cases hp with
      | none =>
        obtain ⟨rfl, rfl⟩ := r1
        cases ps with
        | none =>
          obtain ⟨rfl, rfl, ha⟩ := r2
          exact ⟨by simp [mergePiece, l1, l2], by simp [mergePiece, ha]⟩
        | some s' =>
          obtain ⟨hs2, m2, hm2, e2, hb2, hc2⟩ := r2
          exact ⟨by simp [mergePiece, l1, l2], by simpa [mergePiece] using ⟨hs2, m2, hm2, e2, hb2, hc2⟩⟩
      | some b =>
        obtain ⟨rfl, rfl, hb⟩ := r1
        cases ps with
        | none =>
          obtain ⟨rfl, rfl, ha⟩ := r2
          exact ⟨by simp [mergePiece, l1, l2], by simp [mergePiece, ha, hb]⟩
        | some s' =>
          obtain ⟨hs2, m2, hm2, e2, hb2, hc2⟩ := r2
          refine ⟨by simp [mergePiece, l1, l2], ?_⟩
          simp only [mergePiece, Option.getD_some, List.nil_append]
          exact ⟨hs2, m2, hm2, by rw [e2]; simp, hb2, hc2⟩

theorem foldl_rep : ∀ (cs : List Bytes) (p : Piece) (c : Bytes), Rep p c →
    Rep ((cs.map readPiece).foldl mergePiece p) (c ++ cs.flatten)
  | [], p, c, h => by simpa using h
  | x :: cs, p, c, h => by
    have := foldl_rep cs _ _ (mergePiece_rep h (readPiece_rep x))
    simpa using this

theorem subBlocks_flatten (content : Bytes) (off len t : Nat) :
    (subBlocks content off len t).flatten = (content.drop off).take len := by
  simp only [subBlocks]
  generalize hs : len / (t + 1) = sub
  have hle : t * sub ≤ len := by
    have := Nat.div_mul_le_self len (t + 1)
    rw [hs, Nat.mul_comm, Nat.add_mul] at this
    omega
  have key : ∀ k, ((List.range k).map fun i => (content.drop (off + i * sub)).take sub).flatten = (content.drop off).take (k * sub) := by
    intro k
    induction k with
    | zero => simp
    | succ k ih =>
      rw [List.range_succ, List.map_append, List.flatten_append, ih]
      simp only [List.map_cons, List.map_nil, List.flatten_cons, List.flatten_nil, List.append_nil]
      rw [Nat.succ_mul, List.take_add, List.drop_drop]
  rw [List.flatten_append, key]
  simp only [List.flatten_cons, List.flatten_nil, List.append_nil]
  conv => rhs; rw [show len = t * sub + (len - t * sub) by omega, List.take_add, List.drop_drop]

theorem readBlock_rep (content : Bytes) (off len t : Nat) : Rep (readBlock content off len t) ((content.drop off).take len) := by
  rw [← subBlocks_flatten content off len t, readBlock]
  cases subBlocks content off len t with
  | nil => exact ⟨rfl, rfl, rfl⟩
  | cons c cs =>
    simp only [List.map_cons]
    simpa using foldl_rep cs _ _ (readPiece_rep c)

/-- The pieces stand, one after the other, for the bytes `c`. -/
inductive Reps : List Piece → Bytes → Prop
  | nil : Reps [] []
  | cons {p ps c c'} : Rep p c → c ≠ [] → Reps ps c' → Reps (p :: ps) (c ++ c')

theorem fileItems_reps (content : Bytes) {len : Nat} (hl : 0 < len) (t : Nat) : ∀ (fuel off : Nat), content.length < off + fuel →
    Reps (fileItems content len t fuel off) (content.drop off)
  | 0, off, h => by
    rw [List.drop_eq_nil_of_le (by omega)]; exact .nil
  | fuel + 1, off, h => by
    have hr := readBlock_rep content off len t
    rw [fileItems]
    have hlen := hr.1
    rw [List.length_take, List.length_drop] at hlen
    by_cases h0 : (readBlock content off len t).len = 0
    · simp only [if_pos h0]
      rw [List.drop_eq_nil_of_le (by omega)]; exact .nil
    · simp only [if_neg h0]
      have ih := fileItems_reps content hl t fuel (off + (readBlock content off len t).len) (by omega)
      have e : content.drop off = (content.drop off).take len ++ content.drop (off + (readBlock content off len t).len) := by
        by_cases h1 : len ≤ content.length - off
        · rw [hlen, Nat.min_eq_left h1, ← List.drop_drop, List.take_append_drop]
        · rw [List.take_of_length_le (by rw [List.length_drop]; omega), List.drop_eq_nil_of_le (i := off + _) (by omega), List.append_nil]
      rw [e]
      refine .cons hr ?_ ih
      intro e0
      rw [e0] at hr
      exact h0 hr.1

/-- The lines still to come. -/
def stream : List Piece → Bytes → List Bytes
  | [], bytes => lastLine bytes
  | it :: q, bytes =>
    match it.suf with
    | none => stream q (bytes ++ it.pre.getD [])
    | some s => (if (bytes ++ it.pre.getD []).length > 0 then splitlines (bytes ++ it.pre.getD []) else []) ++ it.lines ++ stream q s

theorem splitlines_if (b : Bytes) : (if b.length > 0 then splitlines b else []) = splitlines b := by
  cases b <;> rfl

theorem stream_reps {ps : List Piece} {c : Bytes} (h : Reps ps c) (q : List Piece) : ∀ (b : Bytes), 10 ∉ b →
    ∃ b' m, 10 ∉ b' ∧ (nonBlank (stream (ps ++ q) b) = runs [] m ++ nonBlank (stream q b') ∧
      ∀ l, (stream q b').Sublist l → (stream (ps ++ q) b).Sublist (splitlines m ++ l)) ∧ Ended m ∧ b ++ c = m ++ b' := by
  induction h with
  | nil => intro b hb; exact ⟨b, [], hb, ⟨by simp [runs], fun l hl => by simpa [splitlines, splitAux] using hl⟩, .inl rfl, by simp⟩
  | @cons p ps c c' hp hc hps ih =>
    intro b hb
    obtain ⟨hl, hp⟩ := hp
    obtain ⟨pre, lines, suf, len⟩ := p
    simp only at hp
    cases suf with
    | none =>
      cases pre with
      | none => exact absurd hp.1 hc
      | some a =>
        obtain ⟨rfl, rfl, ha⟩ := hp
        obtain ⟨b', m, h1, h2, h3, h4⟩ := ih (b ++ c) (by simp [hb, ha])
        refine ⟨b', m, h1, ?_, h3, by rw [← h4]; simp⟩
        rw [List.cons_append, stream]
        exact h2
    | some s =>
      cases pre with
      | none => exact hp.elim
      | some a =>
        obtain ⟨hs, m, hm, e, hn, hsub⟩ := hp
        obtain ⟨b', m2, h1, h2, h3, h4⟩ := ih s hs
        refine ⟨b', (b ++ a) ++ 10 :: (m ++ m2), h1, ?_, ?_, ?_⟩
        · rw [List.cons_append, stream]
          simp only [Option.getD_some]
          rw [nonBlank_append, nonBlank_append, splitlines_if, splitlines_runs, hn, h2.1, runs_append_nl, runs_ended hm]
          refine ⟨by simp, fun l hl => ?_⟩
          have := (splitlines_sublist (b ++ a)).append (hsub.append (h2.2 l hl))
          rw [splitlines_nl, splitlines_ended hm]
          simpa only [List.append_assoc] using this
        · right
          rcases h3 with rfl | ⟨m3, rfl⟩
          · rcases hm with rfl | ⟨m4, rfl⟩
            · exact ⟨b ++ a, by simp⟩
            · exact ⟨b ++ a ++ 10 :: m4, by simp⟩
          · exact ⟨b ++ a ++ 10 :: (m ++ m3), by simp⟩
        · rw [e]
          have : s ++ c' = m2 ++ b' := h4
          simp [List.append_assoc, this]

theorem strip_clean {b : Bytes} (h : ∀ x ∈ b, isBreak x = false) : strip b = b := by
  have h1 : ∀ l : Bytes, (∀ x ∈ l, isBreak x = false) → l.dropWhile (fun b => b == 10 || b == 13) = l := by
    intro l hl
    cases l with
    | nil => rfl
    | cons x l =>
      rw [List.dropWhile_cons_of_neg]
      have := hl x (by simp)
      intro hx
      simp only [Bool.or_eq_true, beq_iff_eq] at hx
      rcases hx with rfl | rfl <;> exact absurd this (by decide)
  rw [strip, h1 b h, h1 _ (by simpa using h), List.reverse_reverse]

theorem lastLine_splitlines {b : Bytes} (h : ∀ x ∈ b, isBreak x = false) : lastLine b = splitlines b := by
  rw [lastLine, strip_clean h, splitlines, splitAux_clean b false [] h]
  cases b <;> simp

theorem lastLine_clean {b : Bytes} (h : ∀ x ∈ b, isBreak x = false) : nonBlank (lastLine b) = runs [] b := by
  rw [lastLine, strip_clean h, runs_clean b [] h]
  cases b with
  | nil => rfl
  | cons x b => simp [nonBlank]

/-- The lines to come at the start are the lines of the files. -/
theorem stream_items {len : Nat} (hl : 0 < len) (t : Nat) : ∀ (files : List Bytes),
    (∀ f, files.getLast? = some f → Spec.CleanEnd f) → nonBlank (stream (items len t files) []) = files.flatMap Spec.textLines ∧
      (stream (items len t files) []).Sublist (files.flatMap splitlines)
  | [], _ => ⟨rfl, List.Sublist.refl _⟩
  | [f], h => by
    have hr := fileItems_reps f hl t (f.length + 1) 0 (by omega)
    obtain ⟨b', m, h1, h2, h3, h4⟩ := stream_reps hr [] [] (by simp)
    rw [List.append_nil] at h2
    simp only [List.nil_append, List.drop_zero] at h4
    have hc := h f (by simp) m b' h4 h1
    refine ⟨?_, ?_⟩
    case refine_2 =>
      rw [items, List.flatMap_cons, List.flatMap_nil, List.append_nil]
      conv => rhs; rw [h4, splitlines_ended h3]
      exact h2.2 _ (by rw [stream, lastLine_splitlines hc]; exact List.Sublist.refl _)
    rw [items, h2.1, stream]
    rw [lastLine_clean hc, List.flatMap_cons, List.flatMap_nil, List.append_nil, Spec.textLines, h4, runs_ended h3]
  | f :: g :: fs, h => by
    have hr := fileItems_reps f hl t (f.length + 1) 0 (by omega)
    obtain ⟨b', m, h1, h2, h3, h4⟩ := stream_reps hr (flush :: items len t (g :: fs)) [] (by simp)
    have ih := stream_items hl t (g :: fs) (fun x hx => h x (by simpa using hx))
    simp only [List.nil_append, List.drop_zero] at h4
    refine ⟨?_, ?_⟩
    case refine_2 =>
      rw [items, List.flatMap_cons (x := f)]
      · conv => rhs; rw [h4, splitlines_ended h3, List.append_assoc]
        refine h2.2 _ ?_
        rw [stream]
        simp only [flush, Option.getD_some, List.append_nil]
        rw [splitlines_if]
        exact (List.Sublist.refl _).append ih.2
      · simp
    rw [items, h2.1, stream]
    · simp only [flush, Option.getD_some, List.append_nil]
      rw [nonBlank_append, splitlines_if, splitlines_runs, ih.1]
      rw [List.flatMap_cons (x := f), Spec.textLines, h4, runs_ended h3, List.append_assoc]
    · simp

/-- The lines of the iterator still to come. -/
def Reader.rest (st : Reader) : List Bytes := st.lines ++ stream st.queue st.bytes

theorem fillLoop_spec {k : Nat} : ∀ (queue : List Piece) (buf : List Bytes) (bytes : Bytes) (lines : List Bytes), buf.length < k →
    let r := fillLoop k queue buf bytes lines
    (r.2.done = true → buf ++ (lines ++ stream queue bytes) = r.1 ∧ r.1.length ≤ k) ∧
    (r.2.done = false → r.1.length = k ∧ r.1 ++ r.2.rest = buf ++ (lines ++ stream queue bytes))
  | [], buf, bytes, lines, h => by
    rw [fillLoop.eq_def, if_pos h]
    by_cases h1 : lines.length > 0 ∧ ¬ k - buf.length > lines.length
    · simp only [if_pos h1]
      refine ⟨by simp, fun _ => ⟨by simp; omega, ?_⟩⟩
      simp [Reader.rest]
      rw [← List.append_assoc (lines.take _), List.take_append_drop]
    · simp only [if_neg h1]
      refine ⟨fun _ => ⟨by simp [stream], ?_⟩, by simp⟩
      have : (lastLine bytes).length ≤ 1 := by
        simp only [lastLine]; split
        · split <;> simp
        · simp
      have hc : ¬ (lines.length > 0 ∧ ¬ k - buf.length > lines.length) := h1
      simp; omega
  | it :: queue, buf, bytes, lines, h => by
    rw [fillLoop.eq_def, if_pos h]
    by_cases h1 : lines.length > 0 ∧ ¬ k - buf.length > lines.length
    · simp only [if_pos h1]
      refine ⟨by simp, fun _ => ⟨by simp; omega, ?_⟩⟩
      simp [Reader.rest]
      rw [← List.append_assoc (lines.take _), List.take_append_drop]
    · simp only [if_neg h1]
      have hb : (buf ++ lines).length < k := by simp; omega
      cases hs : it.suf with
      | none =>
        have := fillLoop_spec queue (buf ++ lines) (bytes ++ it.pre.getD []) [] hb
        simpa [stream, hs] using this
      | some s =>
        have := fillLoop_spec queue (buf ++ lines) s
          ((if (bytes ++ it.pre.getD []).length > 0 then splitlines (bytes ++ it.pre.getD []) else []) ++ it.lines) hb
        simpa only [stream, hs, List.append_assoc] using this

end DeepGNN.Text
