import Verif.Proofs.RemoteWeighted
import Verif.Proofs.WeightedShare
import Verif.Spec.RemoteShare

/-
Shares of the samples after merging the replies of several servers.
-/

namespace DeepGNN

open Spec

/-! Draws used by a merge: they depend on weights only. -/

theorem overwriteRow_draws (D : WDraws) (rate : Int × Int) (ys os : List Nbr) (r : Nat) (hl : ys.length = os.length) :
    (overwriteRow D rate ys os r).2 = r + if rate.1 < rate.2 then os.length else 0 := by
  induction ys generalizing os r with
  | nil =>
    cases os with
    | nil => simp [overwriteRow]
    | cons => simp at hl
  | cons y ys ih =>
    cases os with
    | nil => simp at hl
    | cons o os =>
      have hl' : ys.length = os.length := by simpa using hl
      simp only [overwriteRow]
      split
      · rename_i h
        have := ih os (r + 1) hl'
        rw [if_pos h] at this
        split <;> simp only [this, List.length_cons] <;> omega
      · rename_i h
        have := ih os r hl'
        rw [if_neg h] at this
        simp only [this]

theorem overwriteRow_get (D : WDraws) (rate : Int × Int) (ys os : List Nbr) (r : Nat) (hl : ys.length = os.length) (i : Nat) :
    (overwriteRow D rate ys os r).1[i]? =
      if rate.1 < rate.2 then
        if ((D.real (r + i)).1 : Int) * rate.2 > (D.real (r + i)).2 * rate.1 then os[i]? else ys[i]?
      else ys[i]? := by
  induction ys generalizing os r i with
  | nil =>
    cases os with
    | nil => simp [overwriteRow]
    | cons => simp at hl
  | cons y ys ih =>
    cases os with
    | nil => simp at hl
    | cons o os =>
      have hl' : ys.length = os.length := by simpa using hl
      simp only [overwriteRow]
      split
      · rename_i h
        cases i with
        | zero =>
          simp only [Nat.add_zero, List.getElem?_cons_zero]
          split <;> simp
        | succ i =>
          have := ih os (r + 1) hl' i
          rw [if_pos h, show r + 1 + i = r + (i + 1) by omega] at this
          split <;> simp only [List.getElem?_cons_succ, this]
      · rename_i h
        cases i with
        | zero => simp
        | succ i =>
          have := ih os r hl' i
          rw [if_neg h] at this
          simpa using this

/-- Draws used for a node with weight `w` so far. -/
def usedBy (count : Nat) (w : Int) : Option (Int × List Nbr) → Nat
  | none => 0
  | some a => if w + a.1 = 0 then 0 else if a.1 < w + a.1 then count else 0

/-- Draws used for a reply. -/
def used (count : Nat) : List Int → List (Option (Int × List Nbr)) → Nat
  | w :: ws, a :: as => usedBy count w a + used count ws as
  | _, _ => 0

/-- Weights after a reply. -/
def newWeights : List Int → List (Option (Int × List Nbr)) → List Int
  | w :: ws, a :: as => (w + (a.map (·.1)).getD 0) :: newWeights ws as
  | ws, _ => ws

theorem usedBy_le (count : Nat) (w : Int) (a : Option (Int × List Nbr)) : usedBy count w a ≤ count := by
  cases a with
  | none => simp [usedBy]
  | some a => simp only [usedBy]; split <;> (try split) <;> omega

theorem used_le (count : Nat) (ws : List Int) (as : List (Option (Int × List Nbr))) : used count ws as ≤ ws.length * count := by
  induction ws generalizing as with
  | nil => simp [used]
  | cons w ws ih =>
    cases as with
    | nil => simp [used]
    | cons a as =>
      have h1 := ih as
      have h2 := usedBy_le count w a
      simp only [used, List.length_cons, Nat.add_mul, Nat.one_mul]
      omega

theorem used_take (count : Nat) (ws : List Int) (as : List (Option (Int × List Nbr))) (p : Nat) (w : Int) (hw : ws[p]? = some w)
    (a : Option (Int × List Nbr)) (ha : as[p]? = some a) :
    used count (ws.take p) (as.take p) + usedBy count w a ≤ used count ws as := by
  induction ws generalizing as p with
  | nil => simp at hw
  | cons v ws ih =>
    cases as with
    | nil => simp at ha
    | cons b as =>
      cases p with
      | zero =>
        simp only [List.getElem?_cons_zero, Option.some.injEq] at hw ha
        subst hw; subst ha
        simp [used]
      | succ p =>
        have := ih as p (by simpa using hw) (by simpa using ha)
        simp only [List.take_succ_cons, used]
        omega

/-- The cells are as the weights say. -/
structure CellsOk (count : Nat) (ws : List Int) (cells : List WCell) : Prop where
  weights : cells.map (·.weight) = ws
  rows : ∀ c ∈ cells, c.row.length = count

/-- The answers fit the cells, and float32 adds the weights exactly. -/
def Fits (count : Nat) (ws : List Int) (as : List (Option (Int × List Nbr))) : Prop :=
  ∀ x ∈ ws.zip as, ∀ a, x.2 = some a → a.2.length = count ∧ f32 (x.1 + a.1) = x.1 + a.1

theorem WCell.merge_draws (D : WDraws) (count : Nat) (default : Nbr) (c : WCell) (a : Int × List Nbr) (r : Nat)
    (hc : c.row.length = count) (ha : a.2.length = count) (hf : f32 (c.weight + a.1) = c.weight + a.1) :
    (c.merge D count default a r).2 = r + usedBy count c.weight (some a) := by
  simp only [WCell.merge, hf, usedBy]
  split
  · rfl
  · rw [overwriteRow_draws _ _ _ _ _ (by omega), hc]

theorem WCell.merge_weight (D : WDraws) (count : Nat) (default : Nbr) (c : WCell) (a : Int × List Nbr) (r : Nat)
    (hf : f32 (c.weight + a.1) = c.weight + a.1) : (c.merge D count default a r).1.weight = c.weight + a.1 := by
  simp only [WCell.merge, hf]

theorem WCell.merge_row (D : WDraws) (count : Nat) (default : Nbr) (c : WCell) (a : Int × List Nbr) (r : Nat)
    (hc : c.row.length = count) : (c.merge D count default a r).1.row.length = count := by
  simp only [WCell.merge]
  split
  · simp
  · rw [overwriteRow_length, hc]

theorem mergeCells_ok (D : WDraws) (count : Nat) (default : Nbr) (ws : List Int) (cells : List WCell)
    (as : List (Option (Int × List Nbr))) (hl : as.length = cells.length) (hc : CellsOk count ws cells) (hf : Fits count ws as) (r : Nat) :
    (mergeCells D count default cells as r).2 = r + used count ws as ∧
      CellsOk count (newWeights ws as) (mergeCells D count default cells as r).1 := by
  induction cells generalizing ws as r with
  | nil =>
    obtain rfl : ws = [] := by have := hc.weights; simpa using this.symm
    have : as = [] := List.eq_nil_of_length_eq_zero (by simpa using hl)
    subst this
    exact ⟨rfl, hc⟩
  | cons c cs ih =>
    cases as with
    | nil => simp at hl
    | cons a as =>
      obtain rfl := hc.weights
      have hcs : CellsOk count (cs.map (·.weight)) cs := ⟨rfl, fun d hd => hc.rows d (by simp [hd])⟩
      have hfs : Fits count (cs.map (·.weight)) as := fun x hx => hf x (by simp [hx])
      cases a with
      | none =>
        obtain ⟨h1, h2⟩ := ih _ as (by simpa using hl) hcs hfs r
        refine ⟨by simp [mergeCells, used, usedBy, h1], ?_, ?_⟩
        · simp [mergeCells, newWeights, h2.weights]
        · intro d hd
          simp only [mergeCells, List.mem_cons] at hd
          rcases hd with rfl | hd
          · exact hc.rows _ (by simp)
          · exact h2.rows d hd
      | some a =>
        obtain ⟨hal, haf⟩ := hf (c.weight, some a) (by simp) a rfl
        have hcr := hc.rows c (by simp)
        have h0 := WCell.merge_draws D count default c a r hcr hal haf
        obtain ⟨h1, h2⟩ := ih _ as (by simpa using hl) hcs hfs (c.merge D count default a r).2
        refine ⟨?_, ?_, ?_⟩
        · rw [h0] at h1
          simp only [mergeCells, used, List.map_cons, h0, h1]
          omega
        · simp [mergeCells, newWeights, h2.weights, WCell.merge_weight D count default c a r haf]
        · intro d hd
          simp only [mergeCells, List.mem_cons] at hd
          rcases hd with rfl | hd
          · exact WCell.merge_row D count default c a r hcr
          · exact h2.rows d hd

theorem mergeCells_at (D : WDraws) (count : Nat) (default : Nbr) (ws : List Int) (cells : List WCell)
    (as : List (Option (Int × List Nbr))) (hl : as.length = cells.length) (hc : CellsOk count ws cells) (hf : Fits count ws as) (r : Nat)
    (p : Nat) (c : WCell) (hp : cells[p]? = some c) :
    (mergeCells D count default cells as r).1[p]? = some
      (match as[p]?.join with
        | none => c
        | some a => (c.merge D count default a (r + used count (ws.take p) (as.take p))).1) := by
  induction cells generalizing ws as r p with
  | nil => simp at hp
  | cons d cs ih =>
    cases as with
    | nil => simp at hl
    | cons a as =>
      obtain rfl := hc.weights
      have hcs : CellsOk count (cs.map (·.weight)) cs := ⟨rfl, fun d hd => hc.rows d (by simp [hd])⟩
      have hfs : Fits count (cs.map (·.weight)) as := fun x hx => hf x (by simp [hx])
      cases p with
      | zero =>
        simp only [List.getElem?_cons_zero, Option.some.injEq] at hp
        subst hp
        cases a with
        | none => rfl
        | some a => simp [mergeCells, used]
      | succ p =>
        simp only [List.getElem?_cons_succ] at hp ⊢
        cases a with
        | none =>
          have := ih _ as (by simpa using hl) hcs hfs r p hp
          simpa [mergeCells, used, usedBy] using this
        | some a =>
          obtain ⟨hal, haf⟩ := hf (d.weight, some a) (by simp) a rfl
          have h0 := WCell.merge_draws D count default d a r (hc.rows d (by simp)) hal haf
          have := ih _ as (by simpa using hl) hcs hfs (d.merge D count default a r).2 p hp
          rw [h0] at this
          simp only [mergeCells, List.getElem?_cons_succ, h0, this, List.map_cons, List.take_succ_cons, used, Nat.add_assoc]

/-! One place of the output. -/

/-- What happens to place `i` of a row: the answers for its node with the draw used, if any. -/
def slotFold (u : Nat → Nat × Nat) (i : Nat) (default : Nbr) : List ((Int × List Nbr) × Option Nat) → Int → Option Nbr → Option Nbr
  | [], _, v => v
  | (a, j) :: es, acc, v =>
    slotFold u i default es (acc + a.1)
      (match j with
        | none => if acc + a.1 = 0 then some default else a.2[i]?
        | some j => if ((u j).1 : Int) * (acc + a.1) > (u j).2 * a.1 then v else a.2[i]?)

theorem slotFold_cons (u : Nat → Nat × Nat) (i : Nat) (default : Nbr) (a : Int × List Nbr) (j : Option Nat)
    (es : List ((Int × List Nbr) × Option Nat)) (acc : Int) (v : Option Nbr) :
    slotFold u i default ((a, j) :: es) acc v = slotFold u i default es (acc + a.1)
      (match j with
        | none => if acc + a.1 = 0 then some default else a.2[i]?
        | some j => if ((u j).1 : Int) * (acc + a.1) > (u j).2 * a.1 then v else a.2[i]?) := by
  cases j <;> rfl

/-- Which answers need a draw. -/
def DrawsFit : List ((Int × List Nbr) × Option Nat) → Int → Prop
  | [], _ => True
  | (a, j) :: es, acc => (j = none ↔ acc + a.1 = 0 ∨ acc + a.1 ≤ a.1) ∧ DrawsFit es (acc + a.1)

theorem draws_cons (a : Int × List Nbr) (j : Nat) (es : List ((Int × List Nbr) × Option Nat)) :
    ((a, some j) :: es).filterMap (·.2) = j :: es.filterMap (·.2) := rfl

theorem slotFold_congr (u v : Nat → Nat × Nat) (i : Nat) (default : Nbr) (es : List ((Int × List Nbr) × Option Nat)) (acc : Int)
    (o : Option Nbr) (h : ∀ j ∈ es.filterMap (·.2), u j = v j) : slotFold u i default es acc o = slotFold v i default es acc o := by
  induction es generalizing acc o with
  | nil => rfl
  | cons e es ih =>
    obtain ⟨a, j⟩ := e
    cases j with
    | none => simp only [slotFold]; exact ih _ _ (fun j hj => h j (by simpa using hj))
    | some j =>
      simp only [slotFold]
      rw [h j (by simp), ih _ _ (fun k hk => h k (by simp only [draws_cons, List.mem_cons]; exact .inr hk))]

/-- Sum of `F` over the answers, by weight. -/
def weighted (F : Option Nbr → Int) (i : Nat) : List ((Int × List Nbr) × Option Nat) → Int
  | [] => 0
  | (a, _) :: es => a.1 * F a.2[i]? + weighted F i es

def evSum : List ((Int × List Nbr) × Option Nat) → Int
  | [] => 0
  | (a, _) :: es => a.1 + evSum es

theorem evSum_nonneg (es : List ((Int × List Nbr) × Option Nat)) (h : ∀ e ∈ es, 0 ≤ e.1.1) : 0 ≤ evSum es := by
  induction es with
  | nil => simp [evSum]
  | cons e es ih =>
    have := ih fun x hx => h x (by simp [hx])
    have := h e (by simp)
    simp only [evSum]
    omega

/-- The draws `k`, `k + 1`, ... are given by `cs`. -/
def from' (Q k : Nat) (cs : List Nat) : Nat → Nat × Nat := fun j => (2 * cs.getD (j - k) 0 + 1, 2 * Q)

/-- The sum over all draws of a function of the place. -/
theorem slot_share (Q : Nat) (F : Option Nbr → Int) (i : Nat) (default : Nbr) (es : List ((Int × List Nbr) × Option Nat)) :
    ∀ (R k : Nat) (acc : Int) (v : Option Nbr), 0 ≤ acc → (∀ e ∈ es, 0 ≤ e.1.1) → 0 < acc + evSum es →
      (∀ d : Nat, 0 < d → (d : Int) ≤ acc + evSum es → d ∣ Q) → DrawsFit es acc →
      (es.filterMap (·.2)).Pairwise (· < ·) → (∀ j ∈ es.filterMap (·.2), k ≤ j ∧ j < k + R) →
      (acc + evSum es) * ((tuples Q R).map fun cs => F (slotFold (from' Q k cs) i default es acc v)).sum =
        (Q : Int) ^ R * (acc * F v + weighted F i es) := by
  induction es with
  | nil =>
    intro R k acc v _ _ _ _ _ _ _
    simp only [slotFold, evSum, weighted, sum_const, length_tuples, Int.add_zero]
    simp only [Int.mul_left_comm]
  | cons e es ih =>
    obtain ⟨a, j⟩ := e
    cases j with
    | none =>
      intro R k acc v hacc hnn hpos hQ hfit hpw hrange
      have ha : 0 ≤ a.1 := hnn _ (List.mem_cons_self ..)
      have hs := evSum_nonneg es (fun x hx => hnn x (by simp [hx]))
      simp only [evSum] at hpos hQ
      have hadd : acc + (a.1 + evSum es) = acc + a.1 + evSum es := by omega
      rw [hadd] at hpos hQ
      have hor := hfit.1.1 rfl
      have := ih R k (acc + a.1) (if acc + a.1 = 0 then some default else a.2[i]?) (by omega)
        (fun x hx => hnn x (by simp [hx])) hpos hQ hfit.2 (by simpa using hpw) (by simpa using hrange)
      simp only [slotFold, evSum, hadd]
      rw [this]
      congr 1
      simp only [weighted]
      have h0 : acc = 0 := by omega
      by_cases hz : acc + a.1 = 0
      · have : a.1 = 0 := by omega
        simp [h0, this]
      · rw [if_neg hz]
        simp [h0]
    | some j =>
      intro R
      induction R with
      | zero =>
        intro k acc v _ _ _ _ _ _ hrange
        have := hrange j (by simp)
        omega
      | succ R ihR =>
        intro k acc v hacc hnn hpos hQ hfit hpw hrange
        have ha : 0 ≤ a.1 := hnn _ (List.mem_cons_self ..)
        have hs := evSum_nonneg es (fun x hx => hnn x (by simp [hx]))
        have hkj := hrange j (by simp)
        have hpw' : (∀ x ∈ es.filterMap (·.2), j < x) ∧ (es.filterMap (·.2)).Pairwise (· < ·) := by
          simpa [draws_cons] using hpw
        have hrange' : ∀ x ∈ es.filterMap (·.2), k ≤ x ∧ x < k + (R + 1) := fun x hx =>
          hrange x (by simp only [draws_cons, List.mem_cons]; exact .inr hx)
        have hshift : ∀ b cs x, k + 1 ≤ x → from' Q k (b :: cs) x = from' Q (k + 1) cs x := by
          intro b cs x hx
          simp only [from']
          rw [show x - k = (x - (k + 1)) + 1 by omega, List.getD_cons_succ]
        rw [sum_tuples_succ]
        by_cases hj : j = k
        · subst hj
          simp only [evSum] at hpos hQ ⊢
          have hadd : acc + (a.1 + evSum es) = acc + a.1 + evSum es := by omega
          rw [hadd] at hpos hQ ⊢
          have hne : ¬ (acc + a.1 = 0 ∨ acc + a.1 ≤ a.1) := fun h => by simpa using hfit.1.2 h
          have hinner : ∀ w, (acc + a.1 + evSum es) * ((tuples Q R).map fun cs => F (slotFold (from' Q (j + 1) cs) i default es (acc + a.1) w)).sum =
              (Q : Int) ^ R * ((acc + a.1) * F w + weighted F i es) := fun w =>
            ih R (j + 1) (acc + a.1) w (by omega) (fun x hx => hnn x (by simp [hx])) hpos hQ hfit.2 hpw'.2
              (fun x hx => ⟨hpw'.1 x hx, by have := hrange' x hx; omega⟩)
          have h1 : ((List.range Q).map fun b => ((tuples Q R).map fun cs =>
                F (slotFold (from' Q j (b :: cs)) i default ((a, some j) :: es) acc v)).sum) =
              (mids Q).map fun (u : Nat × Nat) => if (u.1 : Int) * ((acc + a.1).toNat : Nat) > u.2 * (a.1.toNat : Nat)
                then ((tuples Q R).map fun cs => F (slotFold (from' Q (j + 1) cs) i default es (acc + a.1) v)).sum
                else ((tuples Q R).map fun cs => F (slotFold (from' Q (j + 1) cs) i default es (acc + a.1) a.2[i]?)).sum := by
            rw [mids, List.map_map]
            apply List.map_congr_left
            intro b _
            simp only [Function.comp]
            rw [Int.toNat_of_nonneg (by omega), Int.toNat_of_nonneg ha]
            have hj0 : from' Q j (b :: []) j = (2 * b + 1, 2 * Q) := by simp [from']
            split
            · rename_i hlt
              congr 1
              apply List.map_congr_left
              intro cs _
              simp only [slotFold]
              rw [if_pos (by simpa [from'] using hlt)]
              rw [slotFold_congr _ _ _ _ _ _ _ (fun x hx => hshift b cs x (hpw'.1 x hx))]
            · rename_i hlt
              congr 1
              apply List.map_congr_left
              intro cs _
              simp only [slotFold]
              rw [if_neg (by simpa [from'] using hlt)]
              rw [slotFold_congr _ _ _ _ _ _ _ (fun x hx => hshift b cs x (hpw'.1 x hx))]
          obtain ⟨m, hm⟩ := hQ (acc + a.1).toNat (by omega) (by omega)
          rw [h1, sum_skip Q m a.1.toNat (acc + a.1).toNat (by omega) (by rw [hm, Nat.mul_comm]) (by omega)]
          have hA := hinner v
          have hB := hinner a.2[i]?
          generalize ((tuples Q R).map fun cs => F (slotFold (from' Q (j + 1) cs) i default es (acc + a.1) v)).sum = A at hA ⊢
          generalize ((tuples Q R).map fun cs => F (slotFold (from' Q (j + 1) cs) i default es (acc + a.1) a.2[i]?)).sum = B at hB ⊢
          have hm' : (Q : Int) = (acc + a.1) * m := by
            rw [hm]; push_cast; rw [Int.toNat_of_nonneg (by omega)]
          rw [Int.toNat_of_nonneg ha, weighted, Int.pow_succ]
          generalize weighted F i es = W at hA hB ⊢
          generalize (Q : Int) ^ R = P at hA hB ⊢
          generalize F v = x at hA ⊢
          generalize F a.2[i]? = y at hB ⊢
          generalize acc + a.1 + evSum es = T at hA hB ⊢
          rw [hm']
          have e1 : T * (m * a.1 * B + ((acc + a.1) * m - m * a.1) * A) = m * a.1 * (T * B) + ((acc + a.1) * m - m * a.1) * (T * A) := by
            grind
          rw [e1, hA, hB]
          grind
        · have h1 : ((List.range Q).map fun b => ((tuples Q R).map fun cs =>
                F (slotFold (from' Q k (b :: cs)) i default ((a, some j) :: es) acc v)).sum) =
              (List.range Q).map fun _ => ((tuples Q R).map fun cs =>
                F (slotFold (from' Q (k + 1) cs) i default ((a, some j) :: es) acc v)).sum := by
            apply List.map_congr_left
            intro b _
            congr 1
            apply List.map_congr_left
            intro cs _
            rw [slotFold_congr _ (from' Q (k + 1) cs)]
            intro x hx
            simp only [draws_cons, List.mem_cons] at hx
            rcases hx with rfl | hx
            · exact hshift b cs _ (by omega)
            · exact hshift b cs _ (by have := hpw'.1 x hx; omega)
          rw [h1, sum_const, List.length_range]
          have := ihR (k + 1) acc v hacc hnn hpos hQ hfit hpw (by
            intro x hx
            have h2 := hrange x hx
            simp only [draws_cons, List.mem_cons] at hx
            rcases hx with rfl | hx
            · omega
            · have := hpw'.1 x hx; omega)
          rw [Int.mul_left_comm, this, Int.pow_succ]
          grind

/-! All replies. -/

theorem newWeights_length (ws : List Int) (as : List (Option (Int × List Nbr))) : (newWeights ws as).length = ws.length := by
  induction ws generalizing as with
  | nil => cases as <;> rfl
  | cons w ws ih => cases as <;> simp [newWeights, ih]

theorem newWeights_get (ws : List Int) (as : List (Option (Int × List Nbr))) (p : Nat) (w : Int) (hw : ws[p]? = some w)
    (a : Option (Int × List Nbr)) (ha : as[p]? = some a) : (newWeights ws as)[p]? = some (w + (a.map (·.1)).getD 0) := by
  induction ws generalizing as p with
  | nil => simp at hw
  | cons v ws ih =>
    cases as with
    | nil => simp at ha
    | cons b as =>
      cases p with
      | zero =>
        simp only [List.getElem?_cons_zero, Option.some.injEq] at hw ha
        subst hw; subst ha
        simp [newWeights]
      | succ p =>
        simpa [newWeights] using ih as p (by simpa using hw) (by simpa using ha)

theorem answersAt_cons {α : Type} (as : List (Option α)) (rest : List (List (Option α))) (p : Nat) :
    answersAt (as :: rest) p = as[p]?.join.toList ++ answersAt rest p := by
  simp only [answersAt, List.filterMap_cons]
  cases as[p]?.join <;> rfl

theorem cellSum_cons (as : List (Option (Int × List Nbr))) (rest : List (List (Option (Int × List Nbr)))) (p : Nat) :
    cellSum (answersAt (as :: rest) p) = (as[p]?.join.map (·.1)).getD 0 + cellSum (answersAt rest p) := by
  rw [answersAt_cons]
  cases as[p]?.join <;> simp [cellSum]

theorem mem_of_join {α : Type} {as : List (Option α)} {p : Nat} {a : α} (h : as[p]?.join = some a) : some a ∈ as := by
  cases hq : as[p]? with
  | none => rw [hq] at h; simp at h
  | some b =>
    rw [hq, Option.join_some] at h
    rw [← h]
    exact List.mem_of_getElem? hq

theorem answersAt_nonneg {rest : List (List (Option (Int × List Nbr)))} (h : ∀ as ∈ rest, ∀ x, some x ∈ as → 0 ≤ x.1) (p : Nat) :
    ∀ b ∈ answersAt rest p, 0 ≤ b.1 := by
  intro b hb
  obtain ⟨l, hl, hlb⟩ := List.mem_filterMap.1 hb
  exact h l hl b (mem_of_join hlb)

/-- One place of the output after all replies. -/
theorem foldlM_slot (count : Nat) (default : Nbr) (nodes : List Int) (p i : Nat) (hi : i < count)
    (todo : List (List (Option (Int × List Nbr)))) (ids : List Nat) (hids : ids.length = todo.length)
    (hall : ∀ as ∈ todo, Answers nodes as ∧ ∀ x, some x ∈ as → x.2.length = count ∧ 0 ≤ x.1)
    (ws : List Int) (hws : ws.length = nodes.length) (hw0 : ∀ w ∈ ws, 0 ≤ w)
    (hsum : ∀ q w, ws[q]? = some w → w + cellSum (answersAt todo q) ≤ 2 ^ 24)
    (w : Int) (hw : ws[p]? = some w) (r : Nat) :
    ∃ es : List ((Int × List Nbr) × Option Nat), es.map (·.1) = answersAt todo p ∧ DrawsFit es w ∧
      (es.filterMap (·.2)).Pairwise (· < ·) ∧
      (∀ j ∈ es.filterMap (·.2), r ≤ j ∧ j < r + todo.length * (nodes.length * count)) ∧
      ∀ (D : WDraws) (cells : List WCell), CellsOk count ws cells → cells.map (·.node) = nodes →
        ∀ c, cells[p]? = some c → ∃ cells' r' c',
          ((todo.map (wReply nodes)).zip ids).foldlM (fun a x => mergeWeighted D count default x.2 x.1 a) (cells, r) =
            some (cells', r') ∧ cells'[p]? = some c' ∧ c'.row[i]? = slotFold D.real i default es w c.row[i]? := by
  induction todo generalizing ids ws w r with
  | nil =>
    refine ⟨[], rfl, trivial, by simp, by simp, ?_⟩
    intro D cells _ _ c hc
    exact ⟨cells, r, c, by simp [pure], hc, rfl⟩
  | cons as todo ih =>
    cases ids with
    | nil => simp at hids
    | cons id ids =>
      obtain ⟨h1, h2⟩ := hall as (by simp)
      have hal : as.length = ws.length := by rw [h1.length, hws]
      have hnn : ∀ q, 0 ≤ cellSum (answersAt todo q) := fun q =>
        cellSum_nonneg (answersAt_nonneg (fun l hl x hx => ((hall l (by simp [hl])).2 x hx).2) q)
      have hadd : ∀ (q : Nat) (w : Int), ws[q]? = some w → ∀ a : Int × List Nbr, as[q]?.join = some a → w + a.1 ≤ 2 ^ 24 ∧ 0 ≤ w ∧ 0 ≤ a.1 := by
        intro q w hq a ha
        have e1 := hsum q w hq
        rw [cellSum_cons, ha] at e1
        have e2 := hnn q
        have e3 := (h2 a (mem_of_join ha)).2
        have e4 := hw0 w (List.mem_of_getElem? hq)
        simp only [Option.map_some, Option.getD_some] at e1
        omega
      have hfits : Fits count ws as := by
        intro x hx a ha
        obtain ⟨q, hq⟩ := List.getElem?_of_mem hx
        obtain ⟨hq1, hq2⟩ := List.getElem?_zip_eq_some.1 hq
        have hj : as[q]?.join = some a := by rw [hq2, ha]; rfl
        obtain ⟨e1, e2, e3⟩ := hadd q x.1 hq1 a hj
        exact ⟨(h2 a (mem_of_join hj)).1, f32_small (by omega)⟩
      have hp : p < as.length := by rw [hal]; exact (List.getElem?_eq_some_iff.1 hw).1
      have hap : as[p]? = some as[p] := by simp [hp]
      have hjoin : as[p]?.join = as[p] := by rw [hap]; rfl
      have hnew := newWeights_get ws as p w hw as[p] hap
      obtain ⟨es, i1, i2, i3, i4, i5⟩ := ih ids (by simpa using hids) (fun l hl => hall l (by simp [hl])) (newWeights ws as)
        (by rw [newWeights_length, hws]) (by
          intro v hv
          obtain ⟨q, hq⟩ := List.getElem?_of_mem hv
          have hql : q < ws.length := by rw [← newWeights_length ws as]; exact (List.getElem?_eq_some_iff.1 hq).1
          rw [newWeights_get ws as q ws[q] (by simp [hql]) as[q] (by simp [hal, hql])] at hq
          simp only [Option.some.injEq] at hq
          have hwq := hw0 ws[q] (by simp)
          cases haq : as[q] with
          | none => rw [haq] at hq; simp at hq; omega
          | some a =>
            have := (hadd q ws[q] (by simp [hql]) a (by simp [hal, hql, haq])).2.2
            rw [haq] at hq; simp at hq; omega)
        (by
          intro q v hq
          have hql : q < ws.length := by rw [← newWeights_length ws as]; exact (List.getElem?_eq_some_iff.1 hq).1
          rw [newWeights_get ws as q ws[q] (by simp [hql]) as[q] (by simp [hal, hql])] at hq
          simp only [Option.some.injEq] at hq
          have e1 := hsum q ws[q] (by simp [hql])
          rw [cellSum_cons, List.getElem?_eq_getElem (by omega), Option.join_some] at e1
          omega)
        _ hnew (r + used count ws as)
      have hle := used_le count ws as
      rw [hws] at hle
      have hlen : (as :: todo).length * (nodes.length * count) = nodes.length * count + todo.length * (nodes.length * count) := by
        rw [List.length_cons, Nat.add_mul, Nat.one_mul, Nat.add_comm]
      have hrun : ∀ (D : WDraws) (cells : List WCell), CellsOk count ws cells → cells.map (·.node) = nodes →
          mergeWeighted D count default id (wReply nodes as) (cells, r) = some (mergeCells D count default cells as r) := by
        intro D cells hc hn
        have := mergeWeightedLoop_eq D count default as cells (by rw [hn]; exact h1) (fun x hx => (h2 x hx).1) r
        rw [hn] at this
        exact this
      have hcl : ∀ cells : List WCell, CellsOk count ws cells → as.length = cells.length := by
        intro cells hc
        rw [hal, ← hc.weights, List.length_map]
      cases hasp : as[p] with
      | none =>
        rw [hasp] at hjoin i2 i5
        simp only [Option.map_none, Option.getD_none, Int.add_zero] at i2 i5
        refine ⟨es, ?_, i2, i3, ?_, ?_⟩
        · rw [answersAt_cons, hjoin, i1]; rfl
        · intro j hj
          have := i4 j hj
          omega
        · intro D cells hc hn c hcp
          obtain ⟨m1, m2⟩ := mergeCells_ok D count default ws cells as (hcl cells hc) hc hfits r
          have m3 := mergeCells_at D count default ws cells as (hcl cells hc) hc hfits r p c hcp
          rw [hjoin] at m3
          obtain ⟨cells', r', c', f1, f2, f3⟩ := i5 D (mergeCells D count default cells as r).1 m2 (by rw [mergeCells_node, hn]) c m3
          refine ⟨cells', r', c', ?_, f2, f3⟩
          rw [List.map_cons, List.zip_cons_cons, List.foldlM_cons]
          simp only [hrun D cells hc hn, Option.bind_eq_bind, Option.bind_some]
          rw [← m1] at f1
          exact f1
      | some a =>
        rw [hasp] at hjoin i2 i5
        simp only [Option.map_some, Option.getD_some] at i2 i5
        obtain ⟨b1, b2, b3⟩ := hadd p w hw a hjoin
        have hacc : f32 (w + a.1) = w + a.1 := f32_small (by omega)
        have har := (h2 a (mem_of_join hjoin)).1
        have htake := used_take count ws as p w hw (some a) (by rw [hap, hasp])
        refine ⟨(a, if w + a.1 = 0 ∨ w + a.1 ≤ a.1 then none else some (r + used count (ws.take p) (as.take p) + i)) :: es, ?_, ?_, ?_, ?_, ?_⟩
        · rw [answersAt_cons, hjoin, List.map_cons, i1]; rfl
        · refine ⟨?_, i2⟩
          split
          · rename_i h; exact ⟨fun _ => h, fun _ => rfl⟩
          · rename_i h; exact ⟨fun h' => by simp at h', fun h' => absurd h' h⟩
        · split
          · simpa using i3
          · rename_i h
            rw [draws_cons]
            refine List.pairwise_cons.2 ⟨fun j hj => ?_, i3⟩
            have := (i4 j hj).1
            rw [usedBy, if_neg (by omega), if_pos (by omega)] at htake
            omega
        · split
          · intro j hj
            have := i4 j (by simpa using hj)
            omega
          · rename_i h
            rw [draws_cons]
            intro j hj
            rw [usedBy, if_neg (by omega), if_pos (by omega)] at htake
            rcases List.mem_cons.1 hj with rfl | hj
            · omega
            · have := i4 j hj
              omega
        · intro D cells hc hn c hcp
          obtain ⟨m1, m2⟩ := mergeCells_ok D count default ws cells as (hcl cells hc) hc hfits r
          have m3 := mergeCells_at D count default ws cells as (hcl cells hc) hc hfits r p c hcp
          rw [hjoin] at m3
          obtain ⟨cells', r', c', f1, f2, f3⟩ := i5 D (mergeCells D count default cells as r).1 m2 (by rw [mergeCells_node, hn]) _ m3
          refine ⟨cells', r', c', ?_, f2, ?_⟩
          · rw [List.map_cons, List.zip_cons_cons, List.foldlM_cons]
            simp only [hrun D cells hc hn, Option.bind_eq_bind, Option.bind_some]
            rw [← m1] at f1
            exact f1
          · rw [f3, slotFold_cons]
            congr 1
            have hcw : c.weight = w := by
              have e1 := hc.weights
              have e2 : (cells.map (·.weight))[p]? = some c.weight := by rw [List.getElem?_map, hcp]; rfl
              rw [e1, hw] at e2
              simpa using e2.symm
            have hcr := hc.rows c (List.mem_of_getElem? hcp)
            simp only [WCell.merge, hcw, hacc]
            by_cases h0 : w + a.1 = 0
            · rw [if_pos h0, if_pos (Or.inl h0)]
              simp only [if_pos h0]
              rw [List.getElem?_replicate, if_pos hi]
            · rw [if_neg h0, overwriteRow_get _ _ _ _ _ (by omega)]
              by_cases hlt : a.1 < w + a.1
              · simp only [if_pos hlt, if_neg (show ¬ (w + a.1 = 0 ∨ w + a.1 ≤ a.1) by omega)]
              · simp only [if_neg hlt, if_pos (show w + a.1 = 0 ∨ w + a.1 ≤ a.1 by omega), if_neg h0]

end DeepGNN
