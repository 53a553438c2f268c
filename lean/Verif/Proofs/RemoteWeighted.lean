import Verif.Proofs.RemoteUniform

namespace DeepGNN

open Spec

variable {α : Type}

/-! Merging weighted samples (merger.h:248-364). -/

theorem overwriteRow_length (D : WDraws) (rate : Int × Int) (ys os : List α) (r : Nat) :
    (overwriteRow D rate ys os r).1.length = os.length := by
  induction ys generalizing os r with
  | nil => cases os <;> rfl
  | cons y ys ih =>
    cases os with
    | nil => rfl
    | cons o os =>
      simp only [overwriteRow]
      split
      · split <;> simp [ih]
      · simp [ih]

/-- Every entry of the result is the old or the new one at its position. -/
theorem overwriteRow_mem (D : WDraws) (rate : Int × Int) (ys os : List α) (r : Nat) :
    ∀ x ∈ (overwriteRow D rate ys os r).1, x ∈ ys ∨ x ∈ os := by
  induction ys generalizing os r with
  | nil => cases os <;> simp [overwriteRow]
  | cons y ys ih =>
    cases os with
    | nil => simp [overwriteRow]
    | cons o os =>
      intro x hx
      simp only [overwriteRow] at hx
      split at hx
      · split at hx
        · rcases List.mem_cons.1 hx with rfl | hx
          · simp
          · rcases ih os _ x hx with h | h <;> simp [h]
        · rcases List.mem_cons.1 hx with rfl | hx
          · simp
          · rcases ih os _ x hx with h | h <;> simp [h]
      · rcases List.mem_cons.1 hx with rfl | hx
        · simp
        · rcases ih os _ x hx with h | h <;> simp [h]

/-- The first server with weight overwrites everything. -/
theorem overwriteRow_all (D : WDraws) (rate : Int × Int) (h : rate.2 ≤ rate.1) (ys os : List α) (r : Nat)
    (hl : ys.length = os.length) : (overwriteRow D rate ys os r).1 = ys := by
  induction ys generalizing os r with
  | nil => cases os with
    | nil => rfl
    | cons => simp at hl
  | cons y ys ih =>
    cases os with
    | nil => simp at hl
    | cons o os =>
      simp only [overwriteRow]
      rw [if_neg (by omega)]
      simp only [ih os r (by simpa using hl)]

/-- A server without weight overwrites nothing, if no draw is exactly 0. -/
theorem overwriteRow_none (D : WDraws) (hD : ∀ i, 0 < (D.real i).1) (w : Int) (h : 0 < w) (ys os : List α) (r : Nat) :
    (overwriteRow D (0, w) ys os r).1 = os := by
  induction ys generalizing os r with
  | nil => cases os <;> rfl
  | cons y ys ih =>
    cases os with
    | nil => rfl
    | cons o os =>
      simp only [overwriteRow]
      rw [if_pos h, if_pos]
      · simp only [ih os]
      · have := hD r
        have h2 : 0 < ((D.real r).1 : Int) := by omega
        have := Int.mul_pos h2 h
        simpa using this

/-- The new cell after an answer for its node. -/
def WCell.merge (D : WDraws) (count : Nat) (default : α) (c : WCell α) (a : Int × List α) (r : Nat) : WCell α × Nat :=
  let acc := f32 (c.weight + a.1)
  let z := if acc = 0 then (List.replicate count default, r) else overwriteRow D (a.1, acc) a.2 c.row r
  ({ c with weight := acc, row := z.1 }, z.2)

/-- What one reply does to the cells: position by position. -/
def mergeCells (D : WDraws) (count : Nat) (default : α) : List (WCell α) → List (Option (Int × List α)) → Nat → List (WCell α) × Nat
  | c :: cs, some a :: as, r =>
    let x := c.merge D count default a r
    let y := mergeCells D count default cs as x.2
    (x.1 :: y.1, y.2)
  | c :: cs, none :: as, r =>
    let y := mergeCells D count default cs as r
    (c :: y.1, y.2)
  | cs, _, r => (cs, r)

theorem mergeWeightedLoop_skip (D : WDraws) (count : Nat) (default : α) (rs : List (Int × Int)) (flat : List α)
    (c : WCell α) (cs : List (WCell α)) (r : Nat) (h : ∀ x ∈ rs, x.1 ≠ c.node) :
    mergeWeightedLoop D count default rs flat (c :: cs) r =
      (mergeWeightedLoop D count default rs flat cs r).map fun y => (c :: y.1, y.2) := by
  cases rs with
  | nil => rfl
  | cons x rs =>
    obtain ⟨n, w⟩ := x
    have hne : c.node ≠ n := fun e => h (n, w) (by simp) e.symm
    rw [mergeWeightedLoop, mergeWeightedLoop]
    rw [List.dropWhile_cons_of_pos (by simpa using hne), List.takeWhile_cons_of_pos (by simpa using hne)]
    cases cs.dropWhile (fun c => decide (c.node ≠ n)) with
    | nil => rfl
    | cons d ds =>
      simp only []
      split
      · rfl
      · rw [Option.map_map]
        rfl

theorem mergeWeightedLoop_eq (D : WDraws) (count : Nat) (default : α) (as : List (Option (Int × List α)))
    (cells : List (WCell α)) (ha : Answers (cells.map (·.node)) as) (hrow : ∀ x, some x ∈ as → x.2.length = count) (r : Nat) :
    mergeWeightedLoop D count default ((knownNodes (cells.map (·.node)) as).map fun x => (x.1, x.2.1))
        ((knownNodes (cells.map (·.node)) as).flatMap (·.2.2)) cells r =
      some (mergeCells D count default cells as r) := by
  induction cells generalizing as r with
  | nil =>
    have : as = [] := List.eq_nil_of_length_eq_zero (by simpa using ha.length)
    subst this
    rfl
  | cons c cs ih =>
    cases as with
    | nil => have := ha.length; simp at this
    | cons a as =>
      rw [List.map_cons] at ha
      have ht := ih as (known_tail ha) (fun x hx => hrow x (by simp [hx]))
      cases a with
      | none =>
        rw [List.map_cons, knownNodes_none, mergeWeightedLoop_skip, ht]
        · rfl
        · intro x hx
          obtain ⟨y, hy, rfl⟩ := List.mem_map.1 hx
          exact known_head ha y hy
      | some a =>
        have hl : a.2.length = count := hrow a (by simp)
        rw [List.map_cons, knownNodes_some, List.map_cons, List.flatMap_cons, mergeWeightedLoop,
          List.dropWhile_cons_of_neg (by simp), List.takeWhile_cons_of_neg (by simp)]
        simp only []
        rw [if_neg (by rw [List.length_append]; omega), ← hl, List.take_left, List.drop_left, hl, ht]
        rfl

theorem mergeCells_length (D : WDraws) (count : Nat) (default : α) (cells : List (WCell α))
    (as : List (Option (Int × List α))) (r : Nat) : (mergeCells D count default cells as r).1.length = cells.length := by
  induction cells generalizing as r with
  | nil => rfl
  | cons c cs ih =>
    cases as with
    | nil => rfl
    | cons a as => cases a <;> simp [mergeCells, ih]

/-- Each cell is merged with the answer at its position. -/
theorem mergeCells_get (D : WDraws) (count : Nat) (default : α) (cells : List (WCell α))
    (as : List (Option (Int × List α))) (hl : as.length = cells.length) (r p : Nat) (c : WCell α) (hc : cells[p]? = some c) :
    ∃ r', (mergeCells D count default cells as r).1[p]? = some
      (match (as[p]?).join with
        | none => c
        | some a => (c.merge D count default a r').1) := by
  induction cells generalizing as r p with
  | nil => simp at hc
  | cons d cs ih =>
    cases as with
    | nil => simp at hl
    | cons a as =>
      cases p with
      | zero =>
        simp only [List.getElem?_cons_zero, Option.some.injEq] at hc
        subst hc
        cases a with
        | none => exact ⟨0, rfl⟩
        | some a => exact ⟨r, rfl⟩
      | succ p =>
        simp only [List.getElem?_cons_succ] at hc ⊢
        cases a with
        | none =>
          obtain ⟨r', h⟩ := ih as (by simpa using hl) r p hc
          exact ⟨r', by simpa [mergeCells] using h⟩
        | some a =>
          obtain ⟨r', h⟩ := ih as (by simpa using hl) (d.merge D count default a r).2 p hc
          exact ⟨r', by simpa [mergeCells] using h⟩

/-- Sum of weights. -/
def cellSum (as : List (Int × List α)) : Int := (as.map (·.1)).sum

/-- State of a cell after the answers `done`. -/
structure CellInv (D : WDraws) (count : Nat) (default : α) (row0 : List α) (done : List (Int × List α)) (c : WCell α) :
    Prop where
  weight : c.weight = cellSum done
  length : c.row.length = count
  none : done = [] → c.row = row0
  zero : done ≠ [] → cellSum done = 0 → c.row = List.replicate count default
  mem : 0 < cellSum done → ∀ x ∈ c.row, ∃ a ∈ done, x ∈ a.2
  pos : (∀ i, 0 < (D.real i).1) → 0 < cellSum done → ∀ x ∈ c.row, ∃ a ∈ done, 0 < a.1 ∧ x ∈ a.2

theorem cellSum_append (as : List (Int × List α)) (a : Int × List α) : cellSum (as ++ [a]) = cellSum as + a.1 := by
  simp [cellSum]

theorem cellSum_nonneg {as : List (Int × List α)} (h : ∀ a ∈ as, 0 ≤ a.1) : 0 ≤ cellSum as := by
  induction as with
  | nil => simp [cellSum]
  | cons a as ih =>
    have := ih fun b hb => h b (by simp [hb])
    have := h a (by simp)
    simp only [cellSum, List.map_cons, List.sum_cons] at *
    omega

theorem CellInv.step {D : WDraws} {count : Nat} {default : α} {row0 : List α} {done : List (Int × List α)} {c : WCell α}
    (h : CellInv D count default row0 done c) (a : Int × List α) (ha : 0 ≤ a.1) (hd : ∀ b ∈ done, 0 ≤ b.1)
    (hrow : a.2.length = count) (hsmall : cellSum done + a.1 ≤ 2 ^ 24) (r : Nat) :
    CellInv D count default row0 (done ++ [a]) (c.merge D count default a r).1 := by
  have hs := cellSum_nonneg hd
  have hacc : f32 (c.weight + a.1) = cellSum done + a.1 := by
    rw [h.weight]
    exact f32_small (by omega)
  by_cases h0 : cellSum done + a.1 = 0
  · refine ⟨?_, ?_, by simp, ?_, ?_, ?_⟩
    · simp [WCell.merge, hacc, cellSum_append]
    · simp [WCell.merge, hacc, h0]
    · intro _ _; simp [WCell.merge, hacc, h0]
    · rw [cellSum_append]; omega
    · rw [cellSum_append]; omega
  · have hrowe : (c.merge D count default a r).1.row = (overwriteRow D (a.1, cellSum done + a.1) a.2 c.row r).1 := by
      simp [WCell.merge, hacc, h0]
    refine ⟨?_, ?_, by simp, ?_, ?_, ?_⟩
    · simp [WCell.merge, hacc, cellSum_append]
    · rw [hrowe, overwriteRow_length, h.length]
    · rw [cellSum_append]; exact fun _ e => absurd e h0
    · intro _ x hx
      rw [hrowe] at hx
      by_cases hz : cellSum done = 0
      · rw [overwriteRow_all _ _ (by show cellSum done + a.1 ≤ a.1; omega) _ _ _ (by rw [hrow, h.length])] at hx
        exact ⟨a, by simp, hx⟩
      · rcases overwriteRow_mem _ _ _ _ _ x hx with hx | hx
        · exact ⟨a, by simp, hx⟩
        · obtain ⟨b, hb, hbx⟩ := h.mem (by omega) x hx
          exact ⟨b, by simp [hb], hbx⟩
    · intro hD _ x hx
      rw [hrowe] at hx
      by_cases hz : cellSum done = 0
      · rw [overwriteRow_all _ _ (by show cellSum done + a.1 ≤ a.1; omega) _ _ _ (by rw [hrow, h.length])] at hx
        exact ⟨a, by simp, by omega, hx⟩
      · by_cases ha0 : a.1 = 0
        · rw [ha0, overwriteRow_none D hD _ (by omega)] at hx
          obtain ⟨b, hb, hbx⟩ := h.pos hD (by omega) x hx
          exact ⟨b, by simp [hb], hbx⟩
        · rcases overwriteRow_mem _ _ _ _ _ x hx with hx | hx
          · exact ⟨a, by simp, by omega, hx⟩
          · obtain ⟨b, hb, hbx⟩ := h.pos hD (by omega) x hx
            exact ⟨b, by simp [hb], hbx⟩

theorem mergeCells_node (D : WDraws) (count : Nat) (default : α) (cells : List (WCell α))
    (as : List (Option (Int × List α))) (r : Nat) :
    (mergeCells D count default cells as r).1.map (·.node) = cells.map (·.node) := by
  induction cells generalizing as r with
  | nil => rfl
  | cons c cs ih =>
    cases as with
    | nil => rfl
    | cons a as => cases a <;> simp [mergeCells, ih, WCell.merge]

theorem answersAt_append {α : Type} (xs ys : List (List (Option α))) (p : Nat) :
    answersAt (xs ++ ys) p = answersAt xs p ++ answersAt ys p := by
  simp [answersAt]

/-- All replies, one after the other. -/
theorem foldlM_mergeWeighted (D : WDraws) (count : Nat) (default : α) (nodes : List Int) (outs : List (List α))
    (done todo : List (List (Option (Int × List α)))) (ids : List Nat) (hids : ids.length = todo.length)
    (hall : ∀ as ∈ done ++ todo, Answers nodes as ∧ ∀ x, some x ∈ as → x.2.length = count ∧ 0 ≤ x.1)
    (hsum : ∀ p, cellSum (answersAt (done ++ todo) p) ≤ 2 ^ 24)
    (cells : List (WCell α)) (hn : cells.map (·.node) = nodes) (r : Nat)
    (hinv : ∀ p c, cells[p]? = some c → CellInv D count default (outs.getD p []) (answersAt done p) c) :
    ∃ cells' r', ((todo.map (wReply nodes)).zip ids).foldlM (fun a x => mergeWeighted D count default x.2 x.1 a) (cells, r) =
        some (cells', r') ∧ cells'.map (·.node) = nodes ∧
      ∀ p c, cells'[p]? = some c → CellInv D count default (outs.getD p []) (answersAt (done ++ todo) p) c := by
  induction todo generalizing done cells r ids with
  | nil =>
    refine ⟨cells, r, by simp [pure], hn, ?_⟩
    simpa using hinv
  | cons as todo ih =>
    cases ids with
    | nil => simp at hids
    | cons i ids =>
      obtain ⟨h1, h2⟩ := hall as (by simp)
      have hstep : mergeWeighted D count default i (wReply nodes as) (cells, r) =
          some (mergeCells D count default cells as r) := by
        have := mergeWeightedLoop_eq D count default as cells (by rw [hn]; exact h1) (fun x hx => (h2 x hx).1) r
        rw [hn] at this
        exact this
      have hlen : as.length = cells.length := by rw [h1.length, ← hn, List.length_map]
      obtain ⟨cells', r', h3, h4, h5⟩ := ih (done ++ [as]) ids (by simpa using hids)
        (by simpa using hall) (by simpa using hsum) (mergeCells D count default cells as r).1
        (by rw [mergeCells_node, hn]) (mergeCells D count default cells as r).2 (by
          intro p c hc
          have hp : p < cells.length := by
            rw [← mergeCells_length D count default cells as r]
            exact (List.getElem?_eq_some_iff.1 hc).1
          obtain ⟨rr, hrr⟩ := mergeCells_get D count default cells as hlen r p cells[p] (by simp [hp])
          rw [hrr] at hc
          have hold := hinv p cells[p] (by simp [hp])
          rw [answersAt_append]
          cases hj : (as[p]?).join with
          | none =>
            rw [hj] at hc
            simp only [Option.some.injEq] at hc
            subst hc
            simpa [answersAt, hj] using hold
          | some a =>
            rw [hj] at hc
            simp only [Option.some.injEq] at hc
            subst hc
            have hmem : some a ∈ as := by
              cases hq : as[p]? with
              | none => rw [hq] at hj; simp at hj
              | some b =>
                rw [hq, Option.join_some] at hj
                rw [← hj]
                exact List.mem_of_getElem? hq
            have hsa : answersAt [as] p = [a] := by simp [answersAt, hj]
            have hnn : ∀ (q : List (List (Option (Int × List α)))), (∀ l ∈ q, l ∈ done ++ as :: todo) →
                ∀ b ∈ answersAt q p, 0 ≤ b.1 := by
              intro q hq b hb
              obtain ⟨l, hl, hlb⟩ := List.mem_filterMap.1 hb
              have hbm : some b ∈ l := by
                cases hg : l[p]? with
                | none => rw [hg] at hlb; simp at hlb
                | some b' =>
                  rw [hg, Option.join_some] at hlb
                  rw [← hlb]
                  exact List.mem_of_getElem? hg
              exact ((hall l (hq l hl)).2 b hbm).2
            rw [hsa]
            apply hold.step a (h2 a hmem).2 (hnn done (fun l hl => by simp [hl])) (h2 a hmem).1
            have h6 := hsum p
            have h7 := cellSum_nonneg (hnn todo (fun l hl => by simp [hl]))
            have h8 : cellSum (answersAt (done ++ as :: todo) p) = cellSum (answersAt done p) + a.1 + cellSum (answersAt todo p) := by
              have : done ++ as :: todo = done ++ [as] ++ todo := by simp
              rw [this, answersAt_append, answersAt_append, hsa]
              simp only [cellSum, List.map_append, List.sum_append_int, List.map_cons, List.map_nil, List.sum_cons, List.sum_nil]
              omega
            omega)
      refine ⟨cells', r', ?_, h4, by simpa using h5⟩
      rw [List.map_cons, List.zip_cons_cons, List.foldlM_cons]
      simp only [hstep, Option.bind_eq_bind, Option.bind_some]
      exact h3

end DeepGNN
