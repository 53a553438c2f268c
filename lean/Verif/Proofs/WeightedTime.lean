import Verif.Model.WeightedTime
import Verif.Proofs.WeightedShare
import Verif.Proofs.Sampling
import Verif.Proofs.Pipeline

/-
Weighted sampling at a timestamp: with exact sums the runs are sampled as the groups of `Proofs/Weighted.lean`.
-/

namespace DeepGNN

open Spec

/-- The run `x` holds the neighbours `l`, with exact sums. -/
structure RunOk (x : WRun) (l : List Nbr) : Prop where
  nonNeg : NonNeg l
  weight : x.weight = nsum l
  addTo : ∀ t, 0 ≤ t → t ≤ 2 ^ 23 → x.addTo t = t + nsum l
  empty : x.cums = [] ↔ l = []
  pick : l ≠ [] → ∀ u : Nat × Nat, u.1 < u.2 → x.pick u = weightedPick (GW l) u
  index : l ≠ [] → ∀ u : Nat × Nat, u.1 < u.2 →
    bsearch (fun c => decide ((c - x.base.getD 0) * u.2 < x.weight * u.1)) x.cums 0 x.cums.length < l.length

theorem runTake_eq {x : WRun} {l : List Nbr} (h : RunOk x l) (hne : l ≠ []) (D : WDraws) (hD : D.Ok) (rate : Int × Int)
    (k r : Nat) : runTake D x rate k r = weightedTake D (GW l) rate k r := by
  induction k generalizing r with
  | zero => rfl
  | succ k ih =>
    rw [runTake, weightedTake]
    simp only [ih, h.pick hne _ (hD _)]

/-- The non-empty lists. -/
def nonEmpty (ls : List (List Nbr)) : List (List Nbr) := ls.filter fun l => !decide (l = [])

theorem nonEmpty_flatten (ls : List (List Nbr)) : (nonEmpty ls).flatten = ls.flatten := by
  induction ls with
  | nil => rfl
  | cons l ls ih =>
    simp only [nonEmpty] at ih ⊢
    rw [List.filter_cons]
    by_cases h : l = []
    · simp [h, ih]
    · simp [h, ih]

theorem nonEmpty_append (a b : List (List Nbr)) : nonEmpty (a ++ b) = nonEmpty a ++ nonEmpty b := by
  simp [nonEmpty]

theorem All2.nonNeg {xs : List WRun} {ls : List (List Nbr)} (h : All2 RunOk xs ls) : NonNeg ls.flatten := by
  induction h with
  | nil => intro y hy; simp at hy
  | cons a _ ih =>
    intro y hy
    rw [List.flatten_cons] at hy
    rcases List.mem_append.1 hy with hy | hy
    · exact a.nonNeg y hy
    · exact ih y hy

theorem weightedRuns_eq (D : WDraws) (hD : D.Ok) (rate : Int × Int) (F : WPos → Option (List Nbr)) (T : Int) (R : List (List Nbr))
    (hR0 : 0 ≤ T)
    (hF : ∀ left c r, (0 < T ∨ left = 0) → F ⟨T, left, c, r⟩ = weightedGroups D rate (R.map GW) T left c r)
    (xs : List WRun) (ls : List (List Nbr)) (hx : All2 RunOk xs ls) (hle : nsum ls.flatten + T ≤ 2 ^ 24)
    (left c r : Nat) (hp : 0 < nsum ls.flatten + T ∨ left = 0) :
    ((weightedRuns D rate xs ⟨nsum ls.flatten + T, left, c, r⟩).bind fun z => (F z.2).map fun zs => z.1 ++ zs) =
      weightedGroups D rate ((nonEmpty ls ++ R).map GW) (nsum ls.flatten + T) left c r := by
  induction hx generalizing left c r with
  | nil =>
    simp only [weightedRuns, Option.bind_some, nonEmpty, List.filter_nil, List.nil_append, List.flatten_nil, nsum_nil, Int.zero_add] at hp ⊢
    rw [hF left c r hp]
    cases weightedGroups D rate (R.map GW) T left c r <;> rfl
  | @cons x l xs ls hxl hrest ih =>
    have h0 := hxl.nonNeg.sum
    have h1 := (All2.nonNeg hrest).sum
    rw [List.flatten_cons, nsum_append] at hle hp ⊢
    rw [weightedRuns]
    simp only [hxl.weight]
    rw [show nsum l + nsum ls.flatten + T - nsum l = nsum ls.flatten + T by omega, f32_small (by omega)]
    by_cases hl : l = []
    · have hk : (if nsum l = nsum l + nsum ls.flatten + T then left else D.binomial c left (nsum l) (nsum l + nsum ls.flatten + T)) = 0 := by
        subst hl
        rw [nsum_nil] at hp ⊢
        split
        · omega
        · exact binomial_zero _ _ _ _ (by omega)
      rw [hk, runTake, Option.bind_some, if_pos (hxl.empty.2 hl)]
      have e : nonEmpty (l :: ls) = nonEmpty ls := by simp [nonEmpty, hl]
      have hz : nsum l = 0 := by rw [hl]; rfl
      have := ih (by omega) left c r (by omega)
      rw [e, hz, Int.zero_add, ← this]
      simp only [Nat.sub_zero]
      cases weightedRuns D rate xs ⟨nsum ls.flatten + T, left, c, r⟩ <;> simp
    · have e : nonEmpty (l :: ls) = l :: nonEmpty ls := by simp [nonEmpty, hl]
      rw [e, if_neg (fun h => hl (hxl.empty.1 h)), List.cons_append, List.map_cons, weightedGroups]
      by_cases hleft : left = 0
      · subst hleft
        rw [if_pos (Or.inr rfl)]
        have hk : (if nsum l = nsum l + nsum ls.flatten + T then 0 else D.binomial c 0 (nsum l) (nsum l + nsum ls.flatten + T)) = 0 := by
          split
          · rfl
          · exact Nat.le_zero.1 (binomial_le' ..)
        rw [hk, runTake, Option.bind_some]
        have := ih (by omega) 0 c r (Or.inr rfl)
        rw [weightedGroups_zero] at this
        simp only [Nat.sub_zero, Nat.add_zero]
        revert this
        cases weightedRuns D rate xs ⟨nsum ls.flatten + T, 0, c, r⟩ <;> simp
      · rw [if_neg (show ¬ (nsum l + nsum ls.flatten + T = 0 ∨ left = 0) by omega), GW_last hl, Option.bind_some,
          show nsum l + nsum ls.flatten + T - nsum l = nsum ls.flatten + T by omega, f32_small (by omega)]
        dsimp only
        generalize hk : (if nsum l = nsum l + nsum ls.flatten + T then left
          else D.binomial c left (nsum l) (nsum l + nsum ls.flatten + T)) = k
        rw [runTake_eq hxl hl D hD]
        cases weightedTake D (GW l) rate k r with
        | none => rfl
        | some z =>
          simp only [Option.bind_some]
          have := ih (by omega) (left - k) (c + left) z.2 (by
            by_cases hz : 0 < nsum ls.flatten + T
            · exact Or.inl hz
            · right
              rw [if_pos (by omega)] at hk
              omega)
          rw [← this]
          cases weightedRuns D rate xs ⟨nsum ls.flatten + T, left - k, c + left, z.2⟩ with
          | none => rfl
          | some w =>
            simp only [Option.map_some, Option.bind_some]
            cases F w.2 <;> simp

theorem weightedTypes_eq (D : WDraws) (hD : D.Ok) (rate : Int × Int) (xss : List (List WRun)) (lss : List (List (List Nbr)))
    (hx : All2 (All2 RunOk) xss lss) (hle : nsum lss.flatten.flatten ≤ 2 ^ 24)
    (left c r : Nat) (hp : 0 < nsum lss.flatten.flatten ∨ left = 0) :
    weightedTypes D rate xss ⟨nsum lss.flatten.flatten, left, c, r⟩ =
      weightedGroups D rate ((nonEmpty lss.flatten).map GW) (nsum lss.flatten.flatten) left c r := by
  induction hx generalizing left c r with
  | nil => rfl
  | @cons xs ls xss lss h hrest ih =>
    have h0 := (All2.nonNeg h).sum
    have h1 : NonNeg lss.flatten.flatten := by
      clear ih hle hp
      induction hrest with
      | nil => intro y hy; simp at hy
      | cons a _ ihr =>
        intro y hy
        rw [List.flatten_cons, List.flatten_append] at hy
        rcases List.mem_append.1 hy with hy | hy
        · exact All2.nonNeg a y hy
        · exact ihr y hy
    have h1 := h1.sum
    rw [List.flatten_cons, List.flatten_append, nsum_append] at hle hp ⊢
    rw [weightedTypes, nonEmpty_append]
    split
    · rename_i hz
      have hl : left = 0 := by dsimp only at hz; omega
      rw [hl, weightedGroups_zero]
    · exact weightedRuns_eq D hD rate (weightedTypes D rate xss) (nsum lss.flatten.flatten) (nonEmpty lss.flatten) h1
        (fun left c r hp => ih (by omega) left c r hp) xs ls h hle left c r hp

theorem addTo_eq (xs : List WRun) (ls : List (List Nbr)) (hx : All2 RunOk xs ls) (t : Int) (ht : 0 ≤ t)
    (hle : t + nsum ls.flatten ≤ 2 ^ 23) : xs.foldl WRun.addTo t = t + nsum ls.flatten := by
  induction hx generalizing t with
  | nil => simp
  | cons a h ih =>
    have h0 := a.nonNeg.sum
    have h1 := (All2.nonNeg h).sum
    rw [List.flatten_cons, nsum_append] at hle ⊢
    rw [List.foldl_cons, a.addTo t ht (by omega), ih _ (by omega) (by omega)]
    omega

/-- `Partition.weightedSampleAt` after reading. -/
def absPartAt (D : WDraws) (count : Nat) (default : Nbr) (xss : List (List WRun)) (out : List Nbr) (acc : Int) :
    Option (List Nbr × Int) :=
  let total := xss.flatten.foldl WRun.addTo 0
  let acc := f32 (acc + total)
  if total = 0 then some (if acc = 0 then List.replicate count default else out, acc)
  else (weightedTypes D (total, acc) xss ⟨total, count, 0, 0⟩).map fun ys => (ys ++ out.drop ys.length, acc)

theorem All2.flat {xss : List (List WRun)} {lss : List (List (List Nbr))} (h : All2 (All2 RunOk) xss lss) :
    All2 RunOk xss.flatten lss.flatten := by
  induction h with
  | nil => exact .nil
  | @cons xs ls xss lss a h ih =>
    rw [List.flatten_cons, List.flatten_cons]
    clear h
    induction a with
    | nil => exact ih
    | cons a _ iha => exact .cons a iha

theorem nonEmpty_ok {xs : List WRun} {ls : List (List Nbr)} (h : All2 RunOk xs ls) : GroupsOk (nonEmpty ls) := by
  intro l hl
  obtain ⟨h1, h2⟩ := List.mem_filter.1 hl
  refine ⟨by simpa using h2, fun y hy => All2.nonNeg h y (List.mem_flatten.2 ⟨l, h1, hy⟩)⟩

theorem absPartAt_eq (D : WDraws) (hD : D.Ok) (count : Nat) (default : Nbr) (xss : List (List WRun)) (lss : List (List (List Nbr)))
    (hx : All2 (All2 RunOk) xss lss) (hle : nsum lss.flatten.flatten ≤ 2 ^ 23) (out : List Nbr) (acc : Int)
    (h0 : 0 ≤ acc) (hacc : acc + nsum lss.flatten.flatten ≤ 2 ^ 24) :
    absPartAt D count default xss out acc = absPart D count default ((nonEmpty lss.flatten).map GW) out acc := by
  have hf := All2.flat hx
  have hn := (All2.nonNeg hf).sum
  have ht := addTo_eq _ _ hf 0 (by omega) (by omega)
  rw [Int.zero_add] at ht
  rw [absPart_eq D count default _ (nonEmpty_ok hf) out acc h0 (by rw [nonEmpty_flatten]; exact hacc), absPartAt, ht, nonEmpty_flatten,
    f32_small (by omega)]
  split
  · rename_i hz; rw [hz, Int.add_zero]
  · rw [weightedTypes_eq D hD _ xss lss hx (by omega) count 0 0 (by omega)]

/-! Reading the runs -/

theorem bsearch_zero {α} (lt : α → Bool) (a : α) (l : List α) (h : lt a = true) : 0 < bsearch lt (a :: l) 0 (a :: l).length := by
  obtain ⟨-, -, -, h4⟩ := bsearch_spec lt (a :: l) 0 (a :: l).length (by simp)
  rcases Nat.eq_zero_or_pos (bsearch lt (a :: l) 0 (a :: l).length) with h0 | h0
  · rw [h0] at h4
    rcases h4 with h4 | ⟨b, hb, hlt⟩
    · simp at h4
    · simp only [List.getElem?_cons_zero, Option.some.injEq] at hb
      subst hb
      rw [h] at hlt; simp at hlt
  · exact h0

/-- No run is empty at the beginning of a type. -/
theorem aliveRuns_empty (ts : Int) (hts : -(2 ^ 31) ≤ ts ∧ ts < 2 ^ 31) (goff : Nat) (r : List (Int × Int))
    (hr : ∀ e ∈ r, e.2 < 2 ^ 31) : ∀ x ∈ aliveRuns ts goff r, goff ≤ x.1 ∧ (x.2.2 = 0 → goff < x.1) := by
  induction hn : r.length using Nat.strongRecOn generalizing r goff with
  | ind n ih =>
    rw [aliveRuns]
    split
    · simp
    · rename_i e rest h0
      split
      · simp
      · rename_i hc
        intro x hx
        rcases List.mem_cons.1 hx with rfl | hx
        · refine ⟨by simp, ?_⟩
          dsimp only
          intro hd
          rcases Nat.eq_zero_or_pos (findStart r ts) with hq | hq
          · exfalso
            rw [hq, List.drop_zero] at h0
            subst h0
            have he := hr e (by simp)
            have h1 : e.1 ≤ ts := by
              simp only [findStart] at hq
              split at hq
              · omega
              · by_cases h2 : e.2 = -1
                · omega
                · have := bsearch_zero (fun a : Int × Int => decide (a.2 ≠ -1 ∧ a.2 ≤ toInt32 (max ts e.2))) e rest (by
                    have : toInt32 (max ts e.2) = max ts e.2 := by simp only [toInt32]; omega
                    rw [this]; simp only [decide_eq_true_eq]; omega)
                  omega
            have h2 : ¬ e.1 > ts := by omega
            simp only [findLast, h2, if_false] at hd
            have := bsearch_zero (fun a : Int × Int => decide (¬ (a.2 > e.2 ∨ a.1 > ts))) e rest (by
              simp only [decide_eq_true_eq]; omega)
            omega
          · omega
        · have hl : (e :: rest).length ≤ r.length := by rw [← h0]; simp
          have := ih _ (by
            rw [← hn]
            have : 1 ≤ (e :: rest).length := by simp
            rw [List.length_drop]
            split <;> omega) _ ((e :: rest).drop (if findLast (e :: rest) ts = 0 then 1 else findLast (e :: rest) ts)) (by
              intro z hz
              apply hr
              apply List.mem_of_mem_drop (i := findStart r ts)
              rw [h0]
              exact List.mem_of_mem_drop hz) rfl x hx
          have hs : 1 ≤ (if findLast (e :: rest) ts = 0 then 1 else findLast (e :: rest) ts) := by split <;> omega
          omega

/-- A run with exact sums: the part `x` of the edges `l` of a type. -/
def mkRun (l : List Nbr) (x : Nat × Nat × Nat) : WRun :=
  { endSum := nsum (l.take (x.1 + x.2.2)), base := if x.1 = 0 then none else some (nsum (l.take x.1)),
    cums := (List.range x.2.2).map fun i => nsum (l.take (x.1 + i + 1)), nbrs := l.drop x.1 }

theorem nsum_take_add (l : List Nbr) (a n : Nat) : nsum (l.take (a + n)) = nsum (l.take a) + nsum ((l.drop a).take n) := by
  rw [List.take_add, nsum_append]

theorem bsearch_congr {α β} (lt : α → Bool) (lt' : β → Bool) (l : List α) (f : α → β) (h : ∀ a, lt' (f a) = lt a) (first len : Nat) :
    bsearch lt' (l.map f) first len = bsearch lt l first len := by
  induction len using Nat.strongRecOn generalizing first with
  | ind len ih =>
    rw [bsearch, bsearch]
    split
    · rfl
    · dsimp only
      rw [List.getElem?_map]
      cases l[first + len / 2]? with
      | none => rfl
      | some a =>
        simp only [Option.map_some, h]
        split
        · exact ih _ (by omega) _
        · exact ih _ (by omega) _

theorem mkRun_ok {l : List Nbr} (hn : NonNeg l) (hle : nsum l ≤ 2 ^ 23) (x : Nat × Nat × Nat) (hx : x.1 + x.2.2 ≤ l.length) :
    RunOk (mkRun l x) ((l.drop x.1).take x.2.2) := by
  have hseg : NonNeg ((l.drop x.1).take x.2.2) := fun y hy => hn y (List.mem_of_mem_drop (List.mem_of_mem_take hy))
  have hpre : NonNeg (l.take x.1) := fun y hy => hn y (List.mem_of_mem_take hy)
  have hs := hseg.sum
  have hp := hpre.sum
  have ht := hn.take_le (x.1 + x.2.2)
  have hadd := nsum_take_add l x.1 x.2.2
  have hlen : ((l.drop x.1).take x.2.2).length = x.2.2 := by rw [List.length_take, List.length_drop]; omega
  have hw : (mkRun l x).weight = nsum ((l.drop x.1).take x.2.2) := by
    simp only [WRun.weight, mkRun]
    by_cases h0 : x.1 = 0
    · simp [h0]
    · rw [if_neg h0]
      dsimp only
      rw [show nsum (l.take (x.1 + x.2.2)) - nsum (l.take x.1) = nsum ((l.drop x.1).take x.2.2) by omega]
      exact f32_small (by omega)
  suffices hpi : (l.drop x.1).take x.2.2 ≠ [] → ∀ u : Nat × Nat, u.1 < u.2 →
      (mkRun l x).pick u = weightedPick (GW ((l.drop x.1).take x.2.2)) u ∧
      bsearch (fun c => decide ((c - (mkRun l x).base.getD 0) * u.2 < (mkRun l x).weight * u.1)) (mkRun l x).cums 0
        (mkRun l x).cums.length < ((l.drop x.1).take x.2.2).length by
    refine ⟨hseg, hw, ?_, ?_, fun hne u hu => (hpi hne u hu).1, fun hne u hu => (hpi hne u hu).2⟩
    · intro t h0 h1
      simp only [WRun.addTo, mkRun]
      by_cases hx0 : x.1 = 0
      · simp only [hx0, if_true, Nat.zero_add, List.drop_zero]
        rw [hx0, Nat.zero_add] at ht
        rw [hx0, List.drop_zero] at hs
        exact f32_small (by omega)
      · rw [if_neg hx0]
        dsimp only
        rw [f32_small (x := t + nsum (l.take (x.1 + x.2.2))) (by omega), f32_small (by omega)]
        omega
    · rw [← List.length_eq_zero_iff (l := (l.drop x.1).take x.2.2), hlen, ← List.length_eq_zero_iff]
      simp [mkRun]
  · intro hne u hu
    obtain ⟨k, hk, h1, -, -⟩ := pick_index hne hseg u hu
    have hb : (mkRun l x).base.getD 0 = nsum (l.take x.1) := by
      simp only [mkRun]
      by_cases h0 : x.1 = 0
      · simp [h0]
      · simp [h0]
    have hcums : (GW ((l.drop x.1).take x.2.2)).cums = (mkRun l x).cums.map fun c => c - nsum (l.take x.1) := by
      simp only [GW, mkRun, List.map_map, hlen]
      apply List.map_congr_left
      intro i hi
      have hi := List.mem_range.1 hi
      simp only [Function.comp]
      have e1 := nsum_take_add l x.1 (i + 1)
      rw [← Nat.add_assoc] at e1
      rw [List.take_take, Nat.min_eq_left (by omega)]
      omega
    simp only [weightedPick, GW_last hne, Option.bind_some] at h1
    simp only [weightedPick, GW_last hne, Option.bind_some]
    rw [hcums, bsearch_congr (fun c => decide ((c - nsum (l.take x.1)) * u.2 < nsum ((l.drop x.1).take x.2.2) * u.1)) _ _ _
      (fun _ => rfl), List.length_map] at h1 ⊢
    simp only [WRun.pick, hb, hw]
    generalize bsearch (fun c => decide ((c - nsum (l.take x.1)) * u.2 < nsum ((l.drop x.1).take x.2.2) * u.1)) (mkRun l x).cums 0
      (mkRun l x).cums.length = i at h1 ⊢
    have hi : i < ((l.drop x.1).take x.2.2).length := by
      have h1 : ((l.drop x.1).take x.2.2)[i]? = some ((l.drop x.1).take x.2.2)[k] := h1
      exact (List.getElem?_eq_some_iff.1 h1).1
    refine ⟨?_, hi⟩
    show (l.drop x.1)[i]? = ((l.drop x.1).take x.2.2)[i]?
    rw [List.getElem?_take_of_lt (by omega)]

end DeepGNN
