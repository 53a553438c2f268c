import Verif.Model.CreatedWeighted
import Verif.Props.C69
import Verif.Proofs.Created

namespace DeepGNN

open Spec

variable {C : WeightCodec} {wm : Option Nat} {m : Meta} {parts : List (List (List Rec))} {g : Graph}
  {items : List Item} {p : Partition} {k : Nat} {edges : List GEdge} {xs : List ((Int × List PEdge) × Nat)}

/-- Total weight. -/
abbrev tsum (l : List (Nbr × Int)) : Int := nsum (l.map (·.1))

/-- The run `x` holds the neighbours `l` with their times. -/
structure TRunOk (x : TRun) (l : List (Nbr × Int)) : Prop where
  run : RunOk x.run (l.map (·.1))
  pick : l ≠ [] → ∀ u : Nat × Nat, u.1 < u.2 → ∃ y ∈ l, x.pick u = some y ∧ x.run.pick u = some y.1

theorem timedTake_sim {x : TRun} {l : List (Nbr × Int)} (h : TRunOk x l) (hne : l ≠ []) (D : WDraws) (hD : D.Ok)
    (rate : Int × Int) (k r : Nat) : ∃ zs r', timedTake D x rate k r = some (zs, r') ∧
      runTake D x.run rate k r = some (zs.map (·.1), r') ∧ ∀ z ∈ zs, z ∈ l := by
  induction k generalizing r with
  | zero => exact ⟨[], r, rfl, rfl, by simp⟩
  | succ k ih =>
    rw [timedTake, runTake]
    split
    · exact ih (r + 1)
    · simp only
      generalize (if rate.1 < rate.2 then r + 1 else r) = r1
      obtain ⟨y, hy, h1, h2⟩ := h.pick hne _ (hD r1)
      obtain ⟨zs, r', h3, h4, h5⟩ := ih (r1 + 1)
      refine ⟨y :: zs, r', by simp [h1, h3], by simp [h2, h4], ?_⟩
      intro z hz
      rcases List.mem_cons.1 hz with rfl | hz
      · exact hy
      · exact h5 z hz

theorem All2.runs {txs : List TRun} {ls : List (List (Nbr × Int))} (h : All2 TRunOk txs ls) :
    All2 RunOk (txs.map (·.run)) (ls.map (·.map (·.1))) := by
  induction h with
  | nil => exact .nil
  | cons a _ ih => exact .cons a.run ih

theorem All2.runs2 {txs : List (List TRun)} {ls : List (List (List (Nbr × Int)))} (h : All2 (All2 TRunOk) txs ls) :
    All2 (All2 RunOk) (txs.map (·.map (·.run))) (ls.map (·.map (·.map (·.1)))) := by
  induction h with
  | nil => exact .nil
  | cons a _ ih => exact .cons a.runs ih

theorem flatten_fst (ls : List (List (Nbr × Int))) : (ls.map (·.map (·.1))).flatten = ls.flatten.map (·.1) := by
  rw [List.map_flatten]

theorem timedRuns_sim (D : WDraws) (hD : D.Ok) (rate : Int × Int) (T : Int) (hT : 0 ≤ T) (txs : List TRun)
    (ls : List (List (Nbr × Int))) (hx : All2 TRunOk txs ls) (hle : tsum ls.flatten + T ≤ 2 ^ 24)
    (left c r : Nat) (hp : 0 < tsum ls.flatten + T ∨ left = 0) :
    ∃ zs left' c' r', timedRunsLoop D rate txs ⟨tsum ls.flatten + T, left, c, r⟩ = some (zs, ⟨T, left', c', r'⟩) ∧
      weightedRuns D rate (txs.map (·.run)) ⟨tsum ls.flatten + T, left, c, r⟩ = some (zs.map (·.1), ⟨T, left', c', r'⟩) ∧
      (0 < T ∨ left' = 0) ∧ ∀ z ∈ zs, z ∈ ls.flatten := by
  induction hx generalizing left c r with
  | nil =>
    refine ⟨[], left, c, r, ?_, ?_, by simpa [tsum] using hp, by simp⟩ <;> simp [timedRunsLoop, weightedRuns, tsum]
  | @cons x l txs ls hxl hrest ih =>
    have h0 := hxl.run.nonNeg.sum
    have h1 := (All2.nonNeg hrest.runs).sum
    rw [flatten_fst] at h1
    simp only [tsum, List.flatten_cons, List.map_append, nsum_append] at hle hp ⊢
    simp only [tsum] at ih
    rw [timedRunsLoop, List.map_cons, weightedRuns]
    simp only [hxl.run.weight]
    rw [show nsum (l.map (·.1)) + nsum (ls.flatten.map (·.1)) + T - nsum (l.map (·.1)) = nsum (ls.flatten.map (·.1)) + T by omega,
      f32_small (by omega)]
    generalize hk : (if nsum (l.map (·.1)) = nsum (l.map (·.1)) + nsum (ls.flatten.map (·.1)) + T then left
      else D.binomial c left (nsum (l.map (·.1))) (nsum (l.map (·.1)) + nsum (ls.flatten.map (·.1)) + T)) = k
    have htake : ∃ zs r', timedTake D x rate k r = some (zs, r') ∧
        runTake D x.run rate k r = some (zs.map (·.1), r') ∧ ∀ z ∈ zs, z ∈ l := by
      by_cases hl : l = []
      · have hk0 : k = 0 := by
          subst hl
          rw [← hk]
          simp only [List.map_nil, nsum_nil] at hp ⊢
          split
          · omega
          · exact binomial_zero _ _ _ _ (by omega)
        rw [hk0]
        exact ⟨[], r, rfl, rfl, by simp⟩
      · exact timedTake_sim hxl hl D hD rate k r
    obtain ⟨zs, r', h2, h3, h4⟩ := htake
    have hleft : 0 < nsum (ls.flatten.map (·.1)) + T ∨ left - k = 0 := by
      by_cases hz : 0 < nsum (ls.flatten.map (·.1)) + T
      · exact Or.inl hz
      · right
        rw [if_pos (by omega)] at hk
        omega
    obtain ⟨ws, left', c', r'', h5, h6, h7, h8⟩ := ih (by omega) (left - k)
      (if x.run.cums = [] then c else c + left) r' hleft
    refine ⟨zs ++ ws, left', c', r'', by rw [h2, Option.bind_some, h5]; rfl, ?_, h7, ?_⟩
    · rw [h3, Option.bind_some, h6]; simp
    · intro z hz
      rcases List.mem_append.1 hz with hz | hz
      · exact List.mem_append_left _ (h4 z hz)
      · exact List.mem_append_right _ (h8 z hz)

theorem timedTypes_sim (D : WDraws) (hD : D.Ok) (rate : Int × Int) (txss : List (List TRun))
    (lss : List (List (List (Nbr × Int)))) (hx : All2 (All2 TRunOk) txss lss) (hle : tsum lss.flatten.flatten ≤ 2 ^ 24)
    (left c r : Nat) (hp : 0 < tsum lss.flatten.flatten ∨ left = 0) :
    ∃ zs, timedTypes D rate txss ⟨tsum lss.flatten.flatten, left, c, r⟩ = some zs ∧
      weightedTypes D rate (txss.map (·.map (·.run))) ⟨tsum lss.flatten.flatten, left, c, r⟩ = some (zs.map (·.1)) ∧
      ∀ z ∈ zs, z ∈ lss.flatten.flatten := by
  induction hx generalizing left c r with
  | nil => exact ⟨[], rfl, rfl, by simp⟩
  | @cons txs ls txss lss h hrest ih =>
    have h0 := (All2.nonNeg h.runs).sum
    rw [flatten_fst] at h0
    have h1 : 0 ≤ tsum lss.flatten.flatten := by
      have := (All2.nonNeg (All2.flat hrest.runs2)).sum
      simpa [List.map_flatten, tsum] using this
    simp only [tsum, List.flatten_cons, List.flatten_append, List.map_append, nsum_append] at hle hp h1 ⊢
    rw [timedTypes, List.map_cons, weightedTypes]
    split
    · exact ⟨[], rfl, rfl, by simp⟩
    · obtain ⟨zs, left', c', r', h2, h3, h4, h5⟩ := timedRuns_sim D hD rate (tsum lss.flatten.flatten) h1 txs ls h hle left c r hp
      obtain ⟨ws, h6, h7, h8⟩ := ih (by simp only [tsum]; omega) left' c' r' h4
      simp only [tsum] at h2 h3 h6 h7
      refine ⟨zs ++ ws, by rw [h2, Option.bind_some, h6]; rfl, ?_, ?_⟩
      · rw [h3, Option.bind_some, h7]; simp
      · intro z hz
        rcases List.mem_append.1 hz with hz | hz
        · exact List.mem_append_left _ (h5 z hz)
        · exact List.mem_append_right _ (h8 z hz)

/-- What a call at a timestamp reads. -/
def readTimedAt (ts : Int) (types : List Int) (e : Partition × Nat) : Option (List (List TRun)) :=
  (e.1.groups e.2).bind fun gs => (walk Group.typ gs types).mapM (e.1.timedRuns ts)

/-- `Partition.weightedCreated` after reading. -/
def timedPart (D : WDraws) (count : Nat) (default : Nbr) (xss : List (List TRun)) (out : List (Nbr × Int)) (acc : Int) :
    Option (List (Nbr × Int) × Int) :=
  let total := (xss.flatten.map (·.run)).foldl WRun.addTo 0
  let acc := f32 (acc + total)
  if total = 0 then some (if acc = 0 then List.replicate count (default, noTime) else out, acc)
  else (timedTypes D (total, acc) xss ⟨total, count, 0, 0⟩).map fun ys => (ys ++ out.drop ys.length, acc)

/-- One partition: the sample without times is the same. -/
theorem timedPart_spec (D : WDraws) (hD : D.Ok) (count : Nat) (default : Nbr) (txss : List (List TRun))
    (lss : List (List (List (Nbr × Int)))) (hx : All2 (All2 TRunOk) txss lss) (out : List (Nbr × Int)) (acc : Int) (h0 : 0 ≤ acc)
    (hacc : acc + tsum lss.flatten.flatten ≤ 2 ^ 23) (hlen : out.length = count) :
    ∃ o, timedPart D count default txss out acc = some (o, acc + tsum lss.flatten.flatten) ∧ o.length = count ∧
      absPartAt D count default (txss.map (·.map (·.run))) (out.map (·.1)) acc =
        some (o.map (·.1), acc + tsum lss.flatten.flatten) ∧
      (acc + tsum lss.flatten.flatten = 0 → o = List.replicate count (default, noTime)) ∧
      (0 < acc + tsum lss.flatten.flatten → ∀ z ∈ o, z ∈ lss.flatten.flatten ∨ (0 < acc ∧ z ∈ out)) := by
  have hr := hx.runs2
  have hf := All2.flat hr
  have hn := (All2.nonNeg hf).sum
  have ht := addTo_eq _ _ hf 0 (by omega) (by
    have : nsum (lss.map (·.map (·.map (·.1)))).flatten.flatten = tsum lss.flatten.flatten := by
      simp [tsum, List.map_flatten]
    rw [this]; omega)
  have e1 : nsum (lss.map (·.map (·.map (·.1)))).flatten.flatten = tsum lss.flatten.flatten := by
    simp [tsum, List.map_flatten]
  have e2 : (txss.map (·.map (·.run))).flatten = txss.flatten.map (·.run) := by rw [List.map_flatten]
  rw [e1] at ht hn
  rw [e2, Int.zero_add] at ht
  simp only [timedPart, absPartAt, e2, ht, f32_small (show (acc + tsum lss.flatten.flatten).natAbs ≤ 2 ^ 24 by omega)]
  by_cases hz : tsum lss.flatten.flatten = 0
  · rw [if_pos hz, if_pos hz, hz, Int.add_zero]
    refine ⟨_, rfl, ?_, ?_, ?_, ?_⟩
    · split
      · simp
      · exact hlen
    · split <;> simp
    · intro h; rw [if_pos h]
    · intro h z hzm
      rw [if_neg (by omega)] at hzm
      exact Or.inr ⟨h, hzm⟩
  · rw [if_neg hz, if_neg hz]
    obtain ⟨zs, h1, h2, h3⟩ := timedTypes_sim D hD (tsum lss.flatten.flatten, acc + tsum lss.flatten.flatten) txss lss hx (by omega)
      count 0 0 (Or.inl (by omega))
    have h4 := weightedTypes_eq D hD (tsum lss.flatten.flatten, acc + tsum lss.flatten.flatten) _ _ hr (by rw [e1]; omega)
      count 0 0 (Or.inl (by rw [e1]; omega))
    obtain ⟨ys, h5, h6, h7, -⟩ := weightedGroups_spec D hD (tsum lss.flatten.flatten, acc + tsum lss.flatten.flatten)
      (nonEmpty (lss.map (·.map (·.map (·.1)))).flatten) (nonEmpty_ok hf) (by rw [nonEmpty_flatten, e1]; omega) count 0 0
    rw [nonEmpty_flatten, e1] at h5 h7
    rw [e1, h2, h5] at h4
    have hys : ys = zs.map (·.1) := (Option.some.inj h4).symm
    subst hys
    rw [List.length_map] at h6 h7
    refine ⟨zs ++ out.drop zs.length, by rw [h1]; rfl, ?_, by rw [h2]; simp, fun h => by omega, ?_⟩
    · rw [List.length_append, List.length_drop]; omega
    · intro _ z hzm
      rcases List.mem_append.1 hzm with hzm | hzm
      · exact Or.inl (h3 z hzm)
      · by_cases ha : 0 < acc
        · exact Or.inr ⟨ha, List.mem_of_mem_drop hzm⟩
        · have := h7 (by dsimp only; omega) (Or.inl (by omega))
          rw [List.drop_eq_nil_of_le (by omega)] at hzm
          simp at hzm

theorem createdPart_eq {e : Partition × Nat} {ts : Int} {types : List Int} {xss : List (List TRun)}
    (h : readTimedAt ts types e = some xss) (D : WDraws) (count : Nat) (default : Nbr) (out : List (Nbr × Int)) (acc : Int) :
    e.1.weightedCreated D e.2 ts types count default out acc = timedPart D count default xss out acc := by
  simp only [readTimedAt] at h
  obtain ⟨gs, h5, h6⟩ := Option.bind_eq_some_iff.1 h
  simp only [Partition.weightedCreated, h5, h6, Option.bind_some, timedPart]

theorem runs_of_timed {p : Partition} {ts : Int} {g : Group} {xs : List TRun} (h : p.timedRuns ts g = some xs) :
    p.weightRuns ts g = some (xs.map (·.run)) := by
  simp only [Partition.timedRuns] at h
  obtain ⟨r, h1, h2⟩ := Option.bind_eq_some_iff.1 h
  simp only [Partition.weightRuns, h1, Option.bind_some]
  have : ∀ (l : List (Nat × Nat × Nat)) (xs : List TRun), l.mapM (p.timedRun g) = some xs →
      l.mapM (p.weightRun g) = some (xs.map (·.run)) := by
    intro l
    induction l with
    | nil => intro xs h; simp at h; subst h; rfl
    | cons a l ih =>
      intro xs h
      rw [List.mapM_cons] at h ⊢
      obtain ⟨x, h3, h4⟩ := Option.bind_eq_some_iff.1 h
      obtain ⟨ys, h5, h6⟩ := Option.bind_eq_some_iff.1 h4
      obtain rfl : x :: ys = xs := by simpa using h6
      simp only [Partition.timedRun] at h3
      obtain ⟨w, h7, h8⟩ := Option.bind_eq_some_iff.1 h3
      obtain ⟨t, -, h9⟩ := Option.map_eq_some_iff.1 h8
      rw [h7, ih ys h5, ← h9]
      rfl
  exact this _ _ h2

theorem readRuns_of_timed {e : Partition × Nat} {ts : Int} {types : List Int} {xss : List (List TRun)}
    (h : readTimedAt ts types e = some xss) : readRunsAt ts types e = some (xss.map (·.map (·.run))) := by
  simp only [readTimedAt] at h
  obtain ⟨gs, h1, h2⟩ := Option.bind_eq_some_iff.1 h
  simp only [readRunsAt, h1, Option.bind_some]
  clear h h1
  generalize walk Group.typ gs types = l at h2
  induction l generalizing xss with
  | nil => simp at h2; subst h2; rfl
  | cons a l ih =>
    rw [List.mapM_cons] at h2 ⊢
    obtain ⟨x, h3, h4⟩ := Option.bind_eq_some_iff.1 h2
    obtain ⟨ys, h5, h6⟩ := Option.bind_eq_some_iff.1 h4
    obtain rfl : x :: ys = xss := by simpa using h6
    rw [runs_of_timed h3, ih h5]
    rfl

theorem plainPart_eq {e : Partition × Nat} {ts : Int} {types : List Int} {xss : List (List WRun)}
    (h : readRunsAt ts types e = some xss) (D : WDraws) (count : Nat) (default : Nbr) (out : List Nbr) (acc : Int) :
    e.1.weightedSampleAt D e.2 ts types count default out acc = absPartAt D count default xss out acc := by
  simp only [readRunsAt] at h
  obtain ⟨gs, h5, h6⟩ := Option.bind_eq_some_iff.1 h
  simp only [Partition.weightedSampleAt, h5, h6, Option.bind_some, absPartAt]

theorem All2.tsum_nonneg {txsss : List (List (List TRun))} {lsss : List (List (List (List (Nbr × Int))))}
    (h : All2 (All2 (All2 TRunOk)) txsss lsss) : 0 ≤ tsum lsss.flatten.flatten.flatten := by
  induction h with
  | nil => simp [tsum]
  | cons a _ ih =>
    have := (All2.nonNeg (All2.flat a.runs2)).sum
    rename_i b _ _ _
    have e1 : nsum (b.map (·.map (·.map (·.1)))).flatten.flatten = tsum b.flatten.flatten := by
      simp [tsum, List.map_flatten]
    rw [e1] at this
    simp only [tsum, List.flatten_cons, List.flatten_append, List.map_append, nsum_append] at ih this ⊢
    omega

/-- The loop over the partitions. -/
theorem createdEntries_spec (D : Nat → WDraws) (hD : ∀ i, (D i).Ok) (ts : Int) (types : List Int) (count : Nat) (default : Nbr)
    (es : List (Partition × Nat)) (txsss : List (List (List TRun))) (h : es.mapM (readTimedAt ts types) = some txsss)
    (lsss : List (List (List (List (Nbr × Int))))) (hx : All2 (All2 (All2 TRunOk)) txsss lsss) (seen out : List (Nbr × Int))
    (acc : Int) (s : Nat) (h0 : 0 ≤ acc) (hle : acc + tsum lsss.flatten.flatten.flatten ≤ 2 ^ 23) (hlen : out.length = count)
    (hz : acc = 0 → lsss = [] → out = List.replicate count (default, noTime)) (hp : 0 < acc → ∀ z ∈ out, z ∈ seen) :
    ∃ o s', createdEntries D ts types count default es out acc s = some (o, s') ∧
      weightedEntriesAt D ts types count default es (out.map (·.1)) acc s = some (o.map (·.1), s') ∧ o.length = count ∧
      (acc + tsum lsss.flatten.flatten.flatten = 0 → o = List.replicate count (default, noTime)) ∧
      (0 < acc + tsum lsss.flatten.flatten.flatten → ∀ z ∈ o, z ∈ seen ++ lsss.flatten.flatten.flatten) := by
  induction es generalizing txsss lsss seen out acc s with
  | nil =>
    obtain rfl : [] = txsss := by simpa using h
    cases hx
    refine ⟨out, s, rfl, rfl, hlen, ?_, ?_⟩
    · intro h1; exact hz (by simpa [tsum] using h1) rfl
    · intro h1 z hzm; simpa using hp (by simpa [tsum] using h1) z hzm
  | cons e es ih =>
    rw [List.mapM_cons] at h
    obtain ⟨xss, h1, h2⟩ := Option.bind_eq_some_iff.1 h
    obtain ⟨ysss, h3, h4⟩ := Option.bind_eq_some_iff.1 h2
    obtain rfl : xss :: ysss = txsss := by simpa using h4
    cases hx with
    | @cons _ lss _ lsss ha hb =>
      have hn1 : 0 ≤ tsum lss.flatten.flatten := by
        have := All2.tsum_nonneg (.cons ha .nil)
        simpa using this
      have hn2 := All2.tsum_nonneg hb
      have e0 : tsum ((lss :: lsss).flatten.flatten.flatten) = tsum lss.flatten.flatten + tsum lsss.flatten.flatten.flatten := by
        simp only [tsum, List.flatten_cons, List.flatten_append, List.map_append, nsum_append]
      rw [e0] at hle ⊢
      obtain ⟨o1, e1, e2, e3, e4, e5⟩ := timedPart_spec (D s) (hD s) count default xss lss ha out acc h0 (by omega) hlen
      obtain ⟨o, s', f1, f2, f3, f4, f5⟩ := ih ysss h3 lsss hb (seen ++ lss.flatten.flatten) o1 (acc + tsum lss.flatten.flatten) (s + 1)
        (by omega) (by omega) e2 (fun hq _ => e4 hq) (by
          intro hq z hzm
          rcases e5 hq z hzm with h | ⟨h, h'⟩
          · exact List.mem_append_right _ h
          · exact List.mem_append_left _ (hp h z h'))
      refine ⟨o, s', ?_, ?_, f3, ?_, ?_⟩
      · rw [createdEntries, createdPart_eq h1, e1, Option.bind_some]; exact f1
      · rw [weightedEntriesAt, plainPart_eq (readRuns_of_timed h1), e3, Option.bind_some]; exact f2
      · intro hq; exact f4 (by omega)
      · intro hq z hzm
        have := f5 (by omega) z hzm
        simpa only [List.flatten_cons, List.flatten_append, List.append_assoc] using this

/-! What the tables hold. -/

def gtimed (e : GEdge) : Nbr × Int := (gnbr e, e.created)

def mkT (es : List GEdge) (y : Nat × Nat × Nat) : TRun := ⟨mkRun (es.map gnbr) y, (es.map (·.created)).drop y.1⟩

theorem gtimed_fst (l : List GEdge) : (l.map gtimed).map (·.1) = l.map gnbr := by
  rw [List.map_map]; rfl

theorem mkT_ok {es : List GEdge} (hn : NonNeg (es.map gnbr)) (hle : nsum (es.map gnbr) ≤ 2 ^ 23) (y : Nat × Nat × Nat)
    (hy : y.1 + y.2.2 ≤ es.length) : TRunOk (mkT es y) (((es.map gtimed).drop y.1).take y.2.2) := by
  have hr := mkRun_ok hn hle y (by simpa using hy)
  have hl : (((es.map gtimed).drop y.1).take y.2.2).map (·.1) = ((es.map gnbr).drop y.1).take y.2.2 := by
    rw [List.map_take, List.map_drop, gtimed_fst]
  refine ⟨by rw [hl]; exact hr, ?_⟩
  intro hne u hu
  have hne' : ((es.map gnbr).drop y.1).take y.2.2 ≠ [] := by
    rw [← hl]; simpa using hne
  have hi := hr.index hne' u hu
  have key : ∀ i, i < (((es.map gtimed).drop y.1).take y.2.2).length → ∃ z ∈ ((es.map gtimed).drop y.1).take y.2.2,
      (((es.map gnbr).drop y.1)[i]?.bind fun a => ((es.map (·.created)).drop y.1)[i]?.map fun t => (a, t)) = some z ∧
      ((es.map gnbr).drop y.1)[i]? = some z.1 := by
    intro i hi
    refine ⟨_, List.getElem_mem hi, ?_, ?_⟩ <;>
    · simp only [List.length_take, List.length_drop, List.length_map] at hi
      simp only [List.getElem?_drop, List.getElem?_map, List.getElem_take, List.getElem_drop, List.getElem_map]
      rw [List.getElem?_eq_getElem (show y.1 + i < es.length by omega)]
      rfl
  rw [← hl, List.length_map] at hi
  exact key _ hi

/-- The runs of the visited types with times, and what they hold. -/
def blkTRuns (ts : Int) (edges : List GEdge) (types : List Int) : List (List TRun) :=
  (walk (·.1) (runs GEdge.typ edges) types).map fun g => (aliveRuns ts 0 (g.2.map times)).map (mkT g.2)

def blkTimed (ts : Int) (edges : List GEdge) (types : List Int) : List (List (List (Nbr × Int))) :=
  (walk (·.1) (runs GEdge.typ edges) types).map fun g => (aliveRuns ts 0 (g.2.map times)).map fun y =>
    ((g.2.map gtimed).drop y.1).take y.2.2

theorem blkTimed_flatten (hs : EdgesTimesSorted edges) (ts : Int) (hts : -(2 ^ 31) ≤ ts ∧ ts < 2 ^ 31) (types : List Int) :
    (blkTimed ts edges types).flatten.flatten = ((walkEdges edges types).filter (liveB ts)).map gtimed := by
  simp only [blkTimed, walkEdges]
  have hsub : ∀ r ∈ walk (fun x : Int × List GEdge => x.1) (runs GEdge.typ edges) types, r ∈ runs GEdge.typ edges :=
    fun r hr => walk_subset _ _ _ r hr
  generalize walk (fun x : Int × List GEdge => x.1) (runs GEdge.typ edges) types = W at hsub
  induction W with
  | nil => rfl
  | cons r W ih =>
    have h2 := (aliveRuns_spec times ts hts r.2 [] (runs_timesSorted hs (hsub r (by simp)))).2
    simp only [List.length_nil, List.nil_append] at h2
    have h3 : r.2.filter (liveB ts) = r.2.filter fun a => aliveT ts (times a) := rfl
    rw [List.map_cons, List.flatten_cons, List.flatten_append, ih fun r hr => hsub r (by simp [hr]), List.flatMap_cons,
      List.filter_append, List.map_append, h3, ← h2, ← List.flatMap_def, List.map_flatMap]
    simp only [List.map_drop, List.map_take]

theorem blkTimed_ok (hs : EdgesTimesSorted edges) (ts : Int) (hts : -(2 ^ 31) ≤ ts ∧ ts < 2 ^ 31) (types : List Int)
    (hx : ∀ l ∈ blkGroups edges types, NonNeg l ∧ nsum l ≤ 2 ^ 23) :
    All2 (All2 TRunOk) (blkTRuns ts edges types) (blkTimed ts edges types) := by
  apply All2.of_map
  intro r hr
  apply All2.of_map
  intro y hy
  obtain ⟨hn, hle⟩ := hx _ (List.mem_map_of_mem hr)
  exact mkT_ok hn hle y (by simpa using (blkRuns_type hs ts hts (walk_subset _ _ _ r hr)).1 y hy)

theorem NodeTables.readTimed (h : NodeTables m p k edges xs) (hwm : 0 ≤ m.watermark) (hs : EdgesTimesSorted edges)
    (ts : Int) (hts : -(2 ^ 31) ≤ ts ∧ ts < 2 ^ 31) (hrem : ∀ e ∈ edges, e.removed < 2 ^ 31) (types : List Int)
    (hx : ∀ l ∈ blkGroups edges types, NonNeg l ∧ nsum l ≤ 2 ^ 24) :
    readTimedAt ts types (p, k) = some (blkTRuns ts edges types) := by
  have hv : (visited xs types).map (fun x => (x.1.1, x.1.2.map (·.1))) = walk (·.1) (runs GEdge.typ edges) types := by
    obtain ⟨o, ho⟩ := h.xruns
    have h1 : (visited xs types).map (·.1) = walk (·.1) (xs.map (·.1)) types := by
      rw [walk_map]; rfl
    have h2 : runs GEdge.typ edges = (runs ptyp (withOffs nfeats o edges)).map
        (fun g => (g.1, g.2.map (·.1))) := by
      conv => lhs; rw [← map_fst_withOffs nfeats o edges]
      rw [runs_map]; rfl
    rw [h2, walk_map, ← ho]
    have h3 : walk (fun a : Int × List PEdge => a.1) (xs.map (·.1)) types = (visited xs types).map (·.1) :=
      h1.symm
    rw [h3, List.map_map]; rfl
  simp only [readTimedAt, h.groups, Option.bind_some, walk_toGroup]
  have hb : blkTRuns ts edges types = (visited xs types).map fun x =>
      (aliveRuns ts 0 ((x.1.2.map (·.1)).map times)).map (mkT (x.1.2.map (·.1))) := by
    rw [blkTRuns, ← hv, List.map_map]; rfl
  rw [hb, List.mapM_map]
  apply mapM_some_map
  intro x hxv
  have hxm := mem_visited hxv
  have hr : (x.1.1, x.1.2.map (·.1)) ∈ runs GEdge.typ edges := by
    apply walk_subset _ _ types
    rw [← hv]
    exact List.mem_map_of_mem hxv
  have hmem : (x.1.2.map (·.1)).map gnbr ∈ blkGroups edges types := by
    rw [blkGroups, ← hv, List.map_map]
    exact List.mem_map.2 ⟨x, hxv, rfl⟩
  obtain ⟨hn, hle⟩ := hx _ hmem
  have hsub : ∀ e ∈ x.1.2.map (·.1), e ∈ edges := by
    have h1 := infix_flatMap (fun g : Int × List GEdge => g.2) hr
    rw [runs_flatMap] at h1
    exact fun e he => h1.subset he
  have ht : x.1.2.map (fun e => times e.1) = (x.1.2.map (·.1)).map times := by rw [List.map_map]; rfl
  simp only [Function.comp, Partition.timedRuns, h.groupTimes hwm hxm, Option.bind_some]
  rw [ht]
  apply mapM_some_map
  intro y hy
  have h1 := (blkRuns_type hs ts hts hr).1 y hy
  have h2 := aliveRuns_empty ts hts 0 _ (by
    intro z hz
    obtain ⟨e, he, rfl⟩ := List.mem_map.1 hz
    exact hrem e (hsub e he)) y hy
  rw [Partition.timedRun, h.weightRun hxm hn hle y (by simpa using h1) h2.2, Option.bind_some, h.groupTimes hwm hxm, ht,
    Option.map_some]
  simp only [mkT, List.map_map]
  rfl

/-- What the calls for node `n` at time `t` read. -/
theorem readTimed_spec (h : Built C wm m parts g) (hg : GraphOk C m g items parts) (hwm : 0 ≤ m.watermark) (n t : Int) (types : List Int)
    (hgap : Spec.NoGap parts n types) (hts : -(2 ^ 31) ≤ t ∧ t < 2 ^ 31) (ho : Spec.OrderedLifetimes parts n)
    (hrem : C69_removals parts n)
    (hc : ∀ r ∈ Spec.allRecords parts, ∀ c, r.created = some c → 0 ≤ c)
    (hr : ∀ r ∈ Spec.allRecords parts, r.removed ≠ some 0) (hw : C69_weightsOk parts n types) :
    ∃ es txsss, ∃ lsss : List (List (List (List (Nbr × Int)))), g.entries n = some es ∧
      es.mapM (readTimedAt t (sortUnique types)) = some txsss ∧ All2 (All2 (All2 TRunOk)) txsss lsss ∧
      lsss.flatten.flatten.flatten = (Spec.liveSlots parts n t types).map Spec.withTime ∧
      (g.nodeMap n = none → lsss = []) ∧ (g.nodeMap n ≠ none → lsss ≠ []) := by
  have hord := h.ordered hg n hc hr ho
  have hrem := h.removals hg n hc hr hrem
  obtain ⟨hfound, hsub⟩ := read_weights hg n types hgap hw
  obtain ⟨es, h1, h2⟩ := hg.mapEntries n (readTimedAt t (sortUnique types))
    (fun b => blkTRuns t b.edges (sortUnique types)) (by
      intro it hit x hx hxn
      obtain ⟨xs, ht⟩ := (hg.ok it hit).tables hx
      have hmem : x.1 ∈ it.blks := (List.mem_zipIdx_iff_getElem?.1 hx) |> List.mem_of_getElem?
      exact ht.readTimed hwm (hord it hit x.1 hmem hxn) t hts (hrem it hit x.1 hmem hxn) _ fun l hl =>
        ⟨(hsub it hit x.1 hmem hxn l hl).1, by have := (hsub it hit x.1 hmem hxn l hl).2; omega⟩)
  refine ⟨es, _, items.flatMap fun it => (it.blks.filter (fun b => b.id = n)).map fun b =>
      blkTimed t b.edges (sortUnique types), h1, h2, ?_, ?_, ?_, ?_⟩
  · apply All2.flatMap_of
    intro it hit
    apply All2.of_map
    intro b hb
    obtain ⟨hb1, hb2⟩ := List.mem_filter.1 hb
    exact blkTimed_ok (hord it hit b hb1 (by simpa using hb2)) t hts _ (hsub it hit b hb1 (by simpa using hb2))
  · have h4 : Spec.liveSlots parts n t (sortUnique types) = Spec.liveSlots parts n t types := by
      simp only [Spec.liveSlots, sortUnique_mem]
    rw [← h4, ← inputEdges_liveSlots parts n t _ h.acc hc hr, ← hfound, foundEdges, List.map_map]
    show _ = List.map gtimed _
    clear hgap hfound hg hrem hsub h1 h2 h4 hw
    induction items with
    | nil => rfl
    | cons it items ih =>
      rw [List.flatMap_cons, List.flatMap_cons, List.flatten_append, List.flatten_append, List.flatten_append, List.filter_append,
        List.map_append, ih fun it hit => hord it (by simp [hit])]
      congr 1
      have hb : ∀ b ∈ it.blks.filter (fun b => b.id = n), EdgesTimesSorted b.edges := by
        intro b hb
        obtain ⟨h1, h2⟩ := List.mem_filter.1 hb
        exact hord it (by simp) b h1 (by simpa using h2)
      generalize it.blks.filter (fun b => b.id = n) = bs at hb
      induction bs with
      | nil => rfl
      | cons b bs ihb =>
        rw [List.map_cons, List.flatten_cons, List.flatten_append, List.flatten_append, List.flatMap_cons, List.filter_append,
          List.map_append, ihb fun b hb' => hb b (by simp [hb']), blkTimed_flatten (hb b (by simp)) t hts]
  · intro h0
    have := (entries_items hg.parts_eq hg.inv n).2.1 h0
    rw [List.flatMap_eq_nil_iff]
    intro it hit
    rw [List.map_eq_nil_iff, List.filter_eq_nil_iff]
    intro b hb
    simpa using this it hit b hb
  · intro h0 hnil
    apply h0
    rw [(entries_items hg.parts_eq hg.inv n).2]
    intro it hit b hb hbn
    rw [List.flatMap_eq_nil_iff] at hnil
    have := hnil it hit
    rw [List.map_eq_nil_iff, List.filter_eq_nil_iff] at this
    exact this b hb (by simpa using hbn)

end DeepGNN
