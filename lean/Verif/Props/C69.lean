import Verif.Proofs.WeightedTime
import Verif.Props.C19
import Verif.Props.C16
import Verif.Props.C62

/-
C69 Weighted neighbour sampling at a timestamp follows the weights of the edges that exist then.
-/

namespace DeepGNN

open Spec

variable {C : WeightCodec} {wm : Option Nat} {m : Meta} {parts : List (List (List Rec))} {g : Graph}
  {items : List Item} {p : Partition} {k : Nat} {edges : List GEdge} {xs : List ((Int × List PEdge) × Nat)}

/-- The runs of the visited types, and what they hold. -/
def blkWRuns (ts : Int) (edges : List GEdge) (types : List Int) : List (List WRun) :=
  (walk (·.1) (runs GEdge.typ edges) types).map fun g => (aliveRuns ts 0 (g.2.map times)).map (mkRun (g.2.map gnbr))

def blkRuns (ts : Int) (edges : List GEdge) (types : List Int) : List (List (List Nbr)) :=
  (walk (·.1) (runs GEdge.typ edges) types).map fun g => (aliveRuns ts 0 (g.2.map times)).map fun y =>
    ((g.2.map gnbr).drop y.1).take y.2.2

/-- What a call at a timestamp reads. -/
def readRunsAt (ts : Int) (types : List Int) (e : Partition × Nat) : Option (List (List WRun)) :=
  (e.1.groups e.2).bind fun gs => (walk Group.typ gs types).mapM (e.1.weightRuns ts)

/-- The edges of a type are ordered if those of the node are. -/
theorem runs_timesSorted (hs : EdgesTimesSorted edges) {r : Int × List GEdge} (hr : r ∈ runs GEdge.typ edges) :
    TimesSorted (r.2.map times) := by
  have h1 := infix_flatMap (fun g : Int × List GEdge => g.2) hr
  rw [runs_flatMap] at h1
  have h2 : r.2.Pairwise fun x y => x.typ = y.typ → x.created ≤ y.created ∧ remLe x.removed y.removed := hs.sublist h1.sublist
  simp only [TimesSorted, List.pairwise_map]
  refine h2.imp_of_mem ?_
  intro a b ha hb hab
  have h3 := (runs_mem GEdge.typ edges r hr).2
  exact hab (by rw [h3 a ha, h3 b hb])

theorem blkRuns_type (hs : EdgesTimesSorted edges) (ts : Int) (hts : -(2 ^ 31) ≤ ts ∧ ts < 2 ^ 31) {r : Int × List GEdge}
    (hr : r ∈ runs GEdge.typ edges) :
    (∀ x ∈ aliveRuns ts 0 (r.2.map times), x.1 + x.2.2 ≤ (r.2.map gnbr).length) ∧
    ((aliveRuns ts 0 (r.2.map times)).map fun y => ((r.2.map gnbr).drop y.1).take y.2.2).flatten = (r.2.filter (liveB ts)).map gnbr := by
  obtain ⟨h1, h2⟩ := aliveRuns_spec times ts hts r.2 [] (runs_timesSorted hs hr)
  simp only [List.length_nil, Nat.zero_add, List.nil_append] at h1 h2
  refine ⟨by simpa using h1, ?_⟩
  have h3 : r.2.filter (liveB ts) = r.2.filter fun a => aliveT ts (times a) := rfl
  rw [h3, ← h2, ← List.flatMap_def, List.map_flatMap]
  simp only [List.map_drop, List.map_take]

theorem blkRuns_flatten (hs : EdgesTimesSorted edges) (ts : Int) (hts : -(2 ^ 31) ≤ ts ∧ ts < 2 ^ 31) (types : List Int) :
    (blkRuns ts edges types).flatten.flatten = ((walkEdges edges types).filter (liveB ts)).map gnbr := by
  simp only [blkRuns, walkEdges]
  have hsub : ∀ r ∈ walk (fun x : Int × List GEdge => x.1) (runs GEdge.typ edges) types, r ∈ runs GEdge.typ edges :=
    fun r hr => walk_subset _ _ _ r hr
  generalize walk (fun x : Int × List GEdge => x.1) (runs GEdge.typ edges) types = W at hsub
  induction W with
  | nil => rfl
  | cons r W ih =>
    rw [List.map_cons, List.flatten_cons, List.flatten_append, ih fun r hr => hsub r (by simp [hr]), List.flatMap_cons,
      List.filter_append, List.map_append, (blkRuns_type hs ts hts (hsub r (by simp))).2]

theorem All2.of_map {α β γ} (R : β → γ → Prop) (f : α → β) (h : α → γ) (l : List α) (hl : ∀ a ∈ l, R (f a) (h a)) :
    All2 R (l.map f) (l.map h) := by
  induction l with
  | nil => exact .nil
  | cons a l ih => exact .cons (hl a (by simp)) (ih fun b hb => hl b (by simp [hb]))

theorem blkRuns_ok (hs : EdgesTimesSorted edges) (ts : Int) (hts : -(2 ^ 31) ≤ ts ∧ ts < 2 ^ 31) (types : List Int)
    (hx : ∀ l ∈ blkGroups edges types, NonNeg l ∧ nsum l ≤ 2 ^ 23) :
    All2 (All2 RunOk) (blkWRuns ts edges types) (blkRuns ts edges types) := by
  apply All2.of_map
  intro r hr
  apply All2.of_map
  intro y hy
  obtain ⟨hn, hle⟩ := hx _ (List.mem_map_of_mem hr)
  exact mkRun_ok hn hle y ((blkRuns_type hs ts hts (walk_subset _ _ _ r hr)).1 y hy)

theorem NodeTables.weightRun (h : NodeTables m p k edges xs) {x : (Int × List PEdge) × Nat} (hxm : x ∈ xs)
    (hn : NonNeg ((x.1.2.map (·.1)).map gnbr)) (hle : nsum ((x.1.2.map (·.1)).map gnbr) ≤ 2 ^ 24) (y : Nat × Nat × Nat)
    (hy : y.1 + y.2.2 ≤ x.1.2.length) (h0 : y.2.2 = 0 → 0 < y.1) :
    p.weightRun (toGroup x) y = some (mkRun ((x.1.2.map (·.1)).map gnbr) y) := by
  have hex := exactSums_of_small hn hle
  have hws : ((x.1.2.map (·.1)).map gnbr).map (·.weight) = x.1.2.map (·.1.weight) := by
    simp [gnbr, Function.comp_def]
  rw [hws] at hex
  have hnb := h.groupNbrs hxm
  rw [seenRun_exact (by rw [List.map_map]; exact hex)] at hnb
  have hcum : ∀ i, i < x.1.2.length → p.edgeWeights[x.2 + i]? = some (nsum (((x.1.2.map (·.1)).map gnbr).take (i + 1))) := by
    intro i hi
    rw [h.cum x hxm i hi, fsum_exact hex, ← hws, ← List.map_take]
    rfl
  generalize hl : (x.1.2.map (·.1)).map gnbr = l at *
  have e1 := hcum (y.1 + y.2.2 - 1) (by omega)
  rw [show x.2 + (y.1 + y.2.2 - 1) = x.2 + y.1 + y.2.2 - 1 by omega, show y.1 + y.2.2 - 1 + 1 = y.1 + y.2.2 by omega] at e1
  have e3 : (List.range' (x.2 + y.1) y.2.2).mapM (fun j => p.edgeWeights[j]?) =
      some ((List.range y.2.2).map fun i => nsum (l.take (y.1 + i + 1))) := by
    have hl : y.2.2 = (List.range y.2.2).length := by simp
    conv => lhs; rw [hl]
    apply mapM_range' (fun j => p.edgeWeights[j]?) (fun i => nsum (l.take (y.1 + i + 1))) (List.range y.2.2) (x.2 + y.1)
    intro i hi
    rw [List.getElem_range, Nat.add_assoc]
    exact hcum _ (by simp at hi; omega)
  simp only [Partition.weightRun, toGroup] at hnb ⊢
  rw [e1, e3, hnb]
  by_cases hy0 : y.1 = 0
  · simp only [hy0, if_true, Option.bind_some, Option.map_some, mkRun]
  · have e2 := hcum (y.1 - 1) (by omega)
    rw [show x.2 + (y.1 - 1) = x.2 + y.1 - 1 by omega, show y.1 - 1 + 1 = y.1 by omega] at e2
    simp only [hy0, if_false, e2, Option.bind_some, Option.map_some, mkRun]

theorem NodeTables.weightRuns (h : NodeTables m p k edges xs) (hwm : 0 ≤ m.watermark) (hs : EdgesTimesSorted edges)
    (ts : Int) (hts : -(2 ^ 31) ≤ ts ∧ ts < 2 ^ 31) (hrem : ∀ e ∈ edges, e.removed < 2 ^ 31) (types : List Int)
    (hx : ∀ l ∈ blkGroups edges types, NonNeg l ∧ nsum l ≤ 2 ^ 24) :
    readRunsAt ts types (p, k) = some (blkWRuns ts edges types) := by
  have hv : (visited xs types).map (fun x => (x.1.1, x.1.2.map (·.1))) = walk (·.1) (runs GEdge.typ edges) types := by
    obtain ⟨o, ho⟩ := h.xruns
    have h1 : (visited xs types).map (·.1) = walk (·.1) (xs.map (·.1)) types := by
      rw [walk_map]; rfl
    have h2 : runs GEdge.typ edges = (runs ptyp (withOffs nfeats o edges)).map
        (fun g => (g.1, g.2.map (·.1))) := by
      conv => lhs; rw [← map_fst_withOffs nfeats o edges]
      rw [runs_map]; rfl
    rw [h2, walk_map, ← ho]
    have h3 : walk (fun a : Int × List PEdge => a.1) (xs.map (·.1)) types = (visited xs types).map (·.1) :=
      h1.symm
    rw [h3, List.map_map]; rfl
  simp only [readRunsAt, h.groups, Option.bind_some, walk_toGroup]
  have hb : blkWRuns ts edges types = (visited xs types).map fun x =>
      (aliveRuns ts 0 ((x.1.2.map (·.1)).map times)).map (mkRun ((x.1.2.map (·.1)).map gnbr)) := by
    rw [blkWRuns, ← hv, List.map_map]; rfl
  rw [hb, List.mapM_map]
  apply mapM_some_map
  intro x hxv
  have hxm := mem_visited hxv
  have hr : (x.1.1, x.1.2.map (·.1)) ∈ runs GEdge.typ edges := by
    apply walk_subset _ _ types
    rw [← hv]
    exact List.mem_map_of_mem hxv
  have hmem : (x.1.2.map (·.1)).map gnbr ∈ blkGroups edges types := by
    rw [blkGroups, ← hv, List.map_map]
    exact List.mem_map.2 ⟨x, hxv, rfl⟩
  obtain ⟨hn, hle⟩ := hx _ hmem
  have hsub : ∀ e ∈ x.1.2.map (·.1), e ∈ edges := by
    have h1 := infix_flatMap (fun g : Int × List GEdge => g.2) hr
    rw [runs_flatMap] at h1
    exact fun e he => h1.subset he
  simp only [Function.comp, Partition.weightRuns, h.groupTimes hwm hxm, Option.bind_some]
  rw [show x.1.2.map (fun e => times e.1) = (x.1.2.map (·.1)).map times by rw [List.map_map]; rfl]
  apply mapM_some_map
  intro y hy
  have h1 := (blkRuns_type hs ts hts hr).1 y hy
  have h2 := aliveRuns_empty ts hts 0 _ (by
    intro z hz
    obtain ⟨e, he, rfl⟩ := List.mem_map.1 hz
    exact hrem e (hsub e he)) y hy
  exact h.weightRun hxm hn hle y (by simpa using h1) h2.2

/-- The loop over the partitions. -/
theorem weightedEntriesAt_abs (D : Nat → WDraws) (hD : ∀ i, (D i).Ok) (ts : Int) (types : List Int) (count : Nat) (default : Nbr)
    (es : List (Partition × Nat)) (xsss : List (List (List WRun))) (h : es.mapM (readRunsAt ts types) = some xsss)
    (lsss : List (List (List (List Nbr)))) (hx : All2 (All2 (All2 RunOk)) xsss lsss) (out : List Nbr) (acc : Int) (s : Nat)
    (h0 : 0 ≤ acc) (hle : acc + nsum lsss.flatten.flatten.flatten ≤ 2 ^ 23) :
    weightedEntriesAt D ts types count default es out acc s =
      absEntries D count default (lsss.map fun lss => (nonEmpty lss.flatten).map GW) out acc s := by
  induction es generalizing xsss lsss out acc s with
  | nil =>
    obtain rfl : [] = xsss := by simpa using h
    cases hx
    rfl
  | cons e es ih =>
    rw [List.mapM_cons] at h
    obtain ⟨xss, h1, h2⟩ := Option.bind_eq_some_iff.1 h
    obtain ⟨ysss, h3, h4⟩ := Option.bind_eq_some_iff.1 h2
    obtain rfl : xss :: ysss = xsss := by simpa using h4
    cases hx with
    | @cons _ lss _ lsss ha hb =>
      have hn1 := (All2.nonNeg (All2.flat ha)).sum
      have hn2 : 0 ≤ nsum lsss.flatten.flatten.flatten := by
        clear ih h3 h4 hle h2 h
        induction hb with
        | nil => simp
        | cons a _ ih2 =>
          have := (All2.nonNeg (All2.flat a)).sum
          simp only [List.flatten_cons, List.flatten_append, nsum_append]
          omega
      simp only [List.flatten_cons, List.flatten_append, nsum_append] at hle
      have hp : e.1.weightedSampleAt (D s) e.2 ts types count default out acc = absPartAt (D s) count default xss out acc := by
        simp only [readRunsAt] at h1
        obtain ⟨gs, h5, h6⟩ := Option.bind_eq_some_iff.1 h1
        simp only [Partition.weightedSampleAt, h5, h6, Option.bind_some, absPartAt]
      simp only [weightedEntriesAt, absEntries, List.map_cons]
      rw [hp, absPartAt_eq (D s) (hD s) count default xss lss ha (by omega) out acc h0 (by omega),
        absPart_eq (D s) count default _ (nonEmpty_ok (All2.flat ha)) out acc h0 (by rw [nonEmpty_flatten]; omega), nonEmpty_flatten]
      split
      · rw [Option.bind_some, Option.bind_some]
        exact ih _ h3 _ hb _ _ _ h0 (by omega)
      · rw [Option.bind_map, Option.bind_map]
        congr 1
        funext ys
        exact ih _ h3 _ hb _ _ _ (by dsimp only; omega) (by dsimp only; omega)

theorem All2.flatMap_of {α β γ} (R : β → γ → Prop) (f : α → List β) (h : α → List γ) (l : List α) (hl : ∀ a ∈ l, All2 R (f a) (h a)) :
    All2 R (l.flatMap f) (l.flatMap h) := by
  induction l with
  | nil => exact .nil
  | cons a l ih =>
    rw [List.flatMap_cons, List.flatMap_cons]
    have h1 := hl a (by simp)
    have h2 := ih fun b hb => hl b (by simp [hb])
    generalize f a = u at h1
    generalize h a = v at h1
    induction h1 with
    | nil => exact h2
    | cons x _ ih2 => exact .cons x ih2

/-- Removal times that fit in 32 bits, for the edges of node `n`. -/
def C69_removals (parts : List (List (List Rec))) (n : Int) : Prop :=
  ∀ e ∈ Spec.allTimedEdges parts, e.src = n → ∀ x, e.removed = some x → x < 2 ^ 31

theorem Built.removals (h : Built C wm m parts g) (hg : GraphOk C m g items parts) (n : Int)
    (hc : ∀ r ∈ Spec.allRecords parts, ∀ c, r.created = some c → 0 ≤ c)
    (hr : ∀ r ∈ Spec.allRecords parts, r.removed ≠ some 0) (hu : C69_removals parts n) :
    ∀ it ∈ items, ∀ b ∈ it.blks, b.id = n → ∀ e ∈ b.edges, e.removed < 2 ^ 31 := by
  intro it hit b hb hid e he
  obtain ⟨part, hp, hsrc⟩ := item_of_src hg.src hit
  simp only [C69_removals, Spec.allTimedEdges] at hu
  rw [timed_calls parts.flatten h.acc hc hr] at hu
  have h1 : (b.id, e) ∈ parts.flatten.flatMap (effEdges 0 (-1)) := by
    have h2 : (b.id, e) ∈ part.flatMap (effEdges 0 (-1)) := by
      rw [← hsrc.edges]
      exact List.mem_flatMap.2 ⟨b, hb, List.mem_map_of_mem he⟩
    obtain ⟨c, hcm, hx⟩ := List.mem_flatMap.1 h2
    exact List.mem_flatMap.2 ⟨c, List.mem_flatten.2 ⟨part, hp, hcm⟩, hx⟩
  have h2 := hu _ (List.mem_map_of_mem h1) (by simpa [toTimed] using hid)
  simp only [toTimed] at h2
  split at h2
  · omega
  · exact h2 _ rfl

/-- Requirements on the weights: as `C19_weightsOk`, with one more bit, and for all neighbours, whenever they exist. -/
def C69_weightsOk (parts : List (List (List Rec))) (n : Int) (types : List Int) : Prop :=
  (∀ y ∈ Spec.neighbors parts n types, 0 ≤ y.weight) ∧
    ((Spec.neighbors parts n types).map (·.weight)).sum ≤ 2 ^ 23

/-- The total weight at a time is not larger. -/
theorem neighborsAt_le (h : Built C wm m parts g)
    (hc : ∀ r ∈ Spec.allRecords parts, ∀ c, r.created = some c → 0 ≤ c)
    (hr : ∀ r ∈ Spec.allRecords parts, r.removed ≠ some 0) (n t : Int) (types : List Int) (hw : C69_weightsOk parts n types) :
    nsum (Spec.neighborsAt parts n t types) ≤ 2 ^ 23 := by
  obtain ⟨hn, hle⟩ := hw
  have hle : nsum (Spec.neighbors parts n types) ≤ 2 ^ 23 := hle
  have : ∀ (f : GEdge → Bool) (l : List GEdge), NonNeg (l.map gnbr) → nsum ((l.filter f).map gnbr) ≤ nsum (l.map gnbr) := by
    intro f l hl
    induction l with
    | nil => simp
    | cons a l ih =>
      have h1 := hl (gnbr a) (by simp)
      have h2 := ih fun y hy => hl y (by rw [List.map_cons]; exact List.mem_cons_of_mem _ hy)
      rw [List.filter_cons, List.map_cons, nsum_cons]
      split
      · rw [List.map_cons, nsum_cons]; omega
      · omega
  rw [← inputEdges_neighborsAt parts n t _ h.acc hc hr]
  rw [← inputEdges_neighbors] at hn hle
  have := this (liveB t) _ hn
  omega

theorem callLists_ok {M K Q E : Nat} {ds : List WDraws} (h : ds ∈ callLists M K Q E) (i : Nat) : (drawsOf ds i).Ok := by
  have h1 : ∀ d ∈ ds, d.Ok := by
    induction E generalizing ds with
    | zero =>
      obtain rfl : ds = [] := by simpa [callLists] using h
      simp
    | succ E ih =>
      obtain ⟨D, hD, h⟩ := List.mem_flatMap.1 h
      obtain ⟨es, he, rfl⟩ := List.mem_map.1 h
      intro d hd
      rcases List.mem_cons.1 hd with rfl | hd
      · exact mem_callDraws_ok hD
      · exact ih he d hd
  rw [drawsOf, List.getD_eq_getElem?_getD]
  cases hi : ds[i]? with
  | none =>
    intro j
    simp only [Option.getD_none, mkDraws]
    split <;> simp
  | some d => exact h1 d (List.mem_of_getElem? hi)

theorem tuples_lt {M k : Nat} {us : List Nat} (h : us ∈ tuples M k) : ∀ u ∈ us, u < M := by
  induction k generalizing us with
  | zero =>
    obtain rfl : us = [] := by simpa [tuples] using h
    simp
  | succ k ih =>
    obtain ⟨a, ha, h⟩ := List.mem_flatMap.1 h
    obtain ⟨vs, hv, rfl⟩ := List.mem_map.1 h
    intro u hu
    rcases List.mem_cons.1 hu with rfl | hu
    · exact List.mem_range.1 ha
    · exact ih hv u hu

theorem gridCalls_ok {M K Q R : Nat} (hQ : 0 < Q) {D : WDraws} (h : D ∈ gridCalls M K Q R) : D.Ok := by
  obtain ⟨cs, -, h⟩ := List.mem_flatMap.1 h
  obtain ⟨us, hu, rfl⟩ := List.mem_map.1 h
  exact gridDraws_ok hQ _ _ fun u h' => tuples_lt hu u h'

/-- The edges of node `n` that a call reads, and their weights. -/
theorem read_weights (hg : GraphOk C m g items parts) (n : Int) (types : List Int)
    (hgap : Spec.NoGap parts n types) (hw : C69_weightsOk parts n types) :
    foundEdges items n (sortUnique types) = inputEdges parts n (sortUnique types) ∧
    ∀ it ∈ items, ∀ b ∈ it.blks, b.id = n → ∀ l ∈ blkGroups b.edges (sortUnique types), NonNeg l ∧ nsum l ≤ 2 ^ 23 := by
  obtain ⟨hn, hle⟩ := hw
  have hle : nsum (Spec.neighbors parts n types) ≤ 2 ^ 23 := hle
  have hfound : foundEdges items n (sortUnique types) = inputEdges parts n (sortUnique types) := by
    apply hg.found_eq n _ (sortUnique_sorted types)
    intro x hx hxn y hy hyn hyt hex
    obtain ⟨r, hr, h1, h2⟩ := mem_input_record hx
    obtain ⟨r', hr', h1', h2'⟩ := mem_input_record hy
    simp only [sortUnique_mem] at hyt hex ⊢
    rw [← h2]
    exact hgap r hr r' hr' (by rw [h1, hxn]) (by rw [h1', hyn]) (by rw [h2']; exact hyt)
      (by rw [h2, h2']; exact hex)
  have hflat : (items.flatMap fun it => (it.blks.filter (fun b => b.id = n)).map fun b =>
      blkGroups b.edges (sortUnique types)).flatten.flatten = Spec.neighbors parts n types := by
    have h2 : Spec.neighbors parts n (sortUnique types) = Spec.neighbors parts n types := by
      simp only [Spec.neighbors, sortUnique_mem]
    rw [← h2, ← inputEdges_neighbors, ← hfound, foundEdges]
    clear hgap hn hle hfound h2 hg
    induction items with
    | nil => rfl
    | cons it items ih =>
      rw [List.flatMap_cons, List.flatMap_cons, List.flatten_append, List.flatten_append, List.map_append, ih]
      congr 1
      induction it.blks.filter (fun b => b.id = n) with
      | nil => rfl
      | cons b bs ihb =>
        rw [List.map_cons, List.flatten_cons, List.flatten_append, List.flatMap_cons, List.map_append, ihb,
          blkGroups_flatten]
  refine ⟨hfound, ?_⟩
  · intro it hit b hb hbn l hl
    have hmem : l ∈ (items.flatMap fun it => (it.blks.filter (fun b => b.id = n)).map fun b =>
      blkGroups b.edges (sortUnique types)).flatten :=
      List.mem_flatten.2 ⟨_, List.mem_flatMap.2 ⟨it, hit, List.mem_map.2 ⟨b, List.mem_filter.2 ⟨hb, by simpa using hbn⟩,
        rfl⟩⟩, hl⟩
    refine ⟨?_, ?_⟩
    · intro y hy
      apply hn
      rw [← hflat]
      exact List.mem_flatten.2 ⟨l, hmem, hy⟩
    · obtain ⟨a, c, hac⟩ := List.append_of_mem hmem
      rw [hac] at hflat
      rw [List.flatten_append, List.flatten_cons] at hflat
      have h1 : NonNeg a.flatten := fun y hy => hn y (by rw [← hflat]; simp only [List.mem_append]; exact Or.inl hy)
      have h2 : NonNeg c.flatten := fun y hy => hn y (by
        rw [← hflat]; simp only [List.mem_append]; exact Or.inr (Or.inr hy))
      have h3 := h1.sum
      have h4 := h2.sum
      rw [← hflat, nsum_append, nsum_append] at hle
      omega

/-- What the calls for node `n` at time `t` read. -/
theorem readRuns_spec (h : Built C wm m parts g) (hg : GraphOk C m g items parts) (hwm : 0 ≤ m.watermark) (n t : Int) (types : List Int)
    (hgap : Spec.NoGap parts n types) (hts : -(2 ^ 31) ≤ t ∧ t < 2 ^ 31) (ho : Spec.OrderedLifetimes parts n)
    (hrem : C69_removals parts n)
    (hc : ∀ r ∈ Spec.allRecords parts, ∀ c, r.created = some c → 0 ≤ c)
    (hr : ∀ r ∈ Spec.allRecords parts, r.removed ≠ some 0) (hw : C69_weightsOk parts n types) :
    ∃ lss : List (List (List Nbr)), (∀ D, (∀ i, (D i).Ok) → ∀ count default out s,
        (∃ off, g.nodeMap n = some off) →
        g.weightedSampleAt1 D types count default (n, t) out s = absEntries D count default (lss.map (·.map GW)) out 0 s) ∧
      lss.flatten.flatten = Spec.neighborsAt parts n t types ∧ (∀ ls ∈ lss, GroupsOk ls) ∧
      (g.nodeMap n = none → lss = []) ∧ (g.nodeMap n ≠ none → lss ≠ []) ∧
      lss.length = (parts.flatMap fun calls => (blockIds none calls.flatten).filter (fun i => i = n)).length := by
  obtain ⟨hn, hle⟩ := hw
  have hle : nsum (Spec.neighbors parts n types) ≤ 2 ^ 23 := hle
  have hord := h.ordered hg n hc hr ho
  have hrem := h.removals hg n hc hr hrem
  obtain ⟨hfound, hsub⟩ := read_weights hg n types hgap ⟨hn, hle⟩
  have hlive : (items.flatMap fun it => (it.blks.filter (fun b => b.id = n)).map fun b =>
      blkRuns t b.edges (sortUnique types)).flatten.flatten.flatten = Spec.neighborsAt parts n t types := by
    have h2 : Spec.neighborsAt parts n t (sortUnique types) = Spec.neighborsAt parts n t types := by
      simp only [Spec.neighborsAt, sortUnique_mem]
    rw [← h2, ← inputEdges_neighborsAt parts n t _ h.acc hc hr, ← hfound, foundEdges]
    clear hgap hn hle hfound h2 hg hrem hsub
    induction items with
    | nil => rfl
    | cons it items ih =>
      rw [List.flatMap_cons, List.flatMap_cons, List.flatten_append, List.flatten_append, List.flatten_append, List.filter_append,
        List.map_append, ih fun it hit => hord it (by simp [hit])]
      congr 1
      have hb : ∀ b ∈ it.blks.filter (fun b => b.id = n), EdgesTimesSorted b.edges := by
        intro b hb
        obtain ⟨h1, h2⟩ := List.mem_filter.1 hb
        exact hord it (by simp) b h1 (by simpa using h2)
      generalize it.blks.filter (fun b => b.id = n) = bs at hb
      induction bs with
      | nil => rfl
      | cons b bs ihb =>
        rw [List.map_cons, List.flatten_cons, List.flatten_append, List.flatten_append, List.flatMap_cons, List.filter_append,
          List.map_append, ihb fun b hb' => hb b (by simp [hb']), blkRuns_flatten (hb b (by simp)) t hts]
  obtain ⟨es, h1, h2⟩ := hg.mapEntries n (readRunsAt t (sortUnique types))
    (fun b => blkWRuns t b.edges (sortUnique types)) (by
      intro it hit x hx hxn
      obtain ⟨xs, ht⟩ := (hg.ok it hit).tables hx
      have hmem : x.1 ∈ it.blks := (List.mem_zipIdx_iff_getElem?.1 hx) |> List.mem_of_getElem?
      exact ht.weightRuns hwm (hord it hit x.1 hmem hxn) t hts (hrem it hit x.1 hmem hxn) _ fun l hl =>
        ⟨(hsub it hit x.1 hmem hxn l hl).1, by have := (hsub it hit x.1 hmem hxn l hl).2; omega⟩)
  have hok : All2 (All2 (All2 RunOk)) (items.flatMap fun it => (it.blks.filter (fun b => b.id = n)).map fun b =>
      blkWRuns t b.edges (sortUnique types)) (items.flatMap fun it => (it.blks.filter (fun b => b.id = n)).map fun b =>
      blkRuns t b.edges (sortUnique types)) := by
    apply All2.flatMap_of
    intro it hit
    apply All2.of_map
    intro b hb
    obtain ⟨hb1, hb2⟩ := List.mem_filter.1 hb
    exact blkRuns_ok (hord it hit b hb1 (by simpa using hb2)) t hts _ (hsub it hit b hb1 (by simpa using hb2))
  have hlle := neighborsAt_le h hc hr n t types ⟨hn, hle⟩
  generalize hX : (items.flatMap fun it => (it.blks.filter (fun b => b.id = n)).map fun b =>
      blkWRuns t b.edges (sortUnique types)) = X at h2 hok
  have hL0 : ∀ (F : Blk → List (List (List Nbr))), (items.flatMap fun it => (it.blks.filter (fun b => b.id = n)).map F).length =
        (items.flatMap fun it => (it.blks.map (·.id)).filter (fun i => i = n)).length := by
    intro F
    clear hlive hsub hn hle h1 h2 hg hord hrem hok hX hfound
    induction items with
    | nil => rfl
    | cons it items ih =>
      rw [List.flatMap_cons, List.flatMap_cons, List.length_append, List.length_append, ih, List.length_map, List.filter_map,
        List.length_map]
      rfl
  have hlen := hL0 fun b => blkRuns t b.edges (sortUnique types)
  have hnone : g.nodeMap n = none → (items.flatMap fun it => (it.blks.filter (fun b => b.id = n)).map fun b =>
      blkRuns t b.edges (sortUnique types)) = [] := by
    intro h0
    have := (entries_items hg.parts_eq hg.inv n).2.1 h0
    rw [List.flatMap_eq_nil_iff]
    intro it hit
    rw [List.map_eq_nil_iff, List.filter_eq_nil_iff]
    intro b hb
    simpa using this it hit b hb
  have hsome : g.nodeMap n ≠ none → (items.flatMap fun it => (it.blks.filter (fun b => b.id = n)).map fun b =>
      blkRuns t b.edges (sortUnique types)) ≠ [] := by
    intro h0 hnil
    apply h0
    rw [(entries_items hg.parts_eq hg.inv n).2]
    intro it hit b hb hbn
    rw [List.flatMap_eq_nil_iff] at hnil
    have := hnil it hit
    rw [List.map_eq_nil_iff, List.filter_eq_nil_iff] at this
    exact this b hb (by simpa using hbn)
  generalize (items.flatMap fun it => (it.blks.filter (fun b => b.id = n)).map fun b =>
      blkRuns t b.edges (sortUnique types)) = L at hlive hok hlen hnone hsome
  refine ⟨L.map fun lss => nonEmpty lss.flatten, ?_, ?_, ?_, ?_, ?_, ?_⟩
  · intro D hD count default out s hoff
    obtain ⟨off, hoff⟩ := hoff
    simp only [Graph.weightedSampleAt1, hoff, h1, Option.bind_some]
    rw [weightedEntriesAt_abs D hD t _ count default es X h2 L hok out 0 s (by omega) (by rw [hlive]; omega), List.map_map]
    rfl
  · rw [← hlive]
    clear hok hlen hnone hsome hlive
    induction L with
    | nil => rfl
    | cons a L ih =>
      rw [List.map_cons, List.flatten_cons, List.flatten_append, ih, nonEmpty_flatten]
      simp only [List.flatten_cons, List.flatten_append]
  · intro ls hls
    obtain ⟨lss, hl, rfl⟩ := List.mem_map.1 hls
    clear hlen hnone hsome hlive h2 hX
    induction hok with
    | nil => simp at hl
    | cons a _ ih =>
      rcases List.mem_cons.1 hl with rfl | hl
      · exact nonEmpty_ok (All2.flat a)
      · exact ih hl (List.mem_map_of_mem hl)
  · intro h0; rw [hnone h0]; rfl
  · intro h0 hnil; exact hsome h0 (List.map_eq_nil_iff.1 hnil)
  · rw [List.length_map, hlen]
    congr 1
    symm
    apply hg.src.flatMap_eq
    intro a b _ _ hab
    rw [hab.ids]

/-- For all draws: every pair of a node and a time gets `count` of the neighbours that exist then, over the requested types and with
their weights, or `count` defaults if their total weight is 0; a neighbour of weight 0 is returned only if a draw is exactly 0.
Missing for the full property: draws that are exactly 0 (`C19_zero_refuted`), gaps in the types (`C15_gap_refuted`), other orders of the
edges (`C69_order_refuted`), large removal times (`C69_removed_refuted`), graphs without times (`C69_timeless_refuted`). -/
theorem C69_sampled_partial (h : Built C wm m parts g) (hwm : 0 ≤ m.watermark) (D : Nat → WDraws) (hD : ∀ i, (D i).Ok)
    (types : List Int) (count : Nat) (default : Nbr) (reqs : List ((Int × Int) × List Nbr)) (hout : ∀ q ∈ reqs, q.2.length = count)
    (hgap : ∀ q ∈ reqs, Spec.NoGap parts q.1.1 types) (hts : ∀ q ∈ reqs, -(2 ^ 31) ≤ q.1.2 ∧ q.1.2 < 2 ^ 31)
    (ho : ∀ q ∈ reqs, Spec.OrderedLifetimes parts q.1.1) (hrem : ∀ q ∈ reqs, C69_removals parts q.1.1)
    (hw : ∀ q ∈ reqs, C69_weightsOk parts q.1.1 types)
    (hc : ∀ r ∈ Spec.allRecords parts, ∀ c, r.created = some c → 0 ≤ c)
    (hr : ∀ r ∈ Spec.allRecords parts, r.removed ≠ some 0) (s : Nat) :
    ∃ outs s', g.weightedSampleAt D types count default reqs s = some (outs, s') ∧ outs.length = reqs.length ∧
      ∀ y ∈ reqs.zip outs, y.2.length = count ∧
        (0 < ((Spec.neighborsAt parts y.1.1.1 y.1.1.2 types).map (·.weight)).sum → ∀ x ∈ y.2,
          x ∈ Spec.neighborsAt parts y.1.1.1 y.1.1.2 types ∧ ((∀ i j, 0 < ((D i).real j).1) → 0 < x.weight)) ∧
        (((Spec.neighborsAt parts y.1.1.1 y.1.1.2 types).map (·.weight)).sum = 0 → y.2 = List.replicate count default) := by
  obtain ⟨items, hg, -⟩ := h.graphOk
  apply sampleNodes_spec (fun n out s => g.weightedSampleAt1 D types count default n out s) (fun n _ o =>
      o.length = count ∧
        (0 < ((Spec.neighborsAt parts n.1 n.2 types).map (·.weight)).sum → ∀ x ∈ o,
          x ∈ Spec.neighborsAt parts n.1 n.2 types ∧ ((∀ i j, 0 < ((D i).real j).1) → 0 < x.weight)) ∧
        (((Spec.neighborsAt parts n.1 n.2 types).map (·.weight)).sum = 0 → o = List.replicate count default))
  intro q hq s
  obtain ⟨lss, h1, h3, h4, h5, h6, -⟩ := readRuns_spec h hg hwm q.1.1 q.1.2 types (hgap q hq) (hts q hq) (ho q hq) (hrem q hq) hc hr
    (hw q hq)
  cases hnm : g.nodeMap q.1.1 with
  | none =>
    refine ⟨List.replicate count default, s, by simp only [Graph.weightedSampleAt1, hnm], by simp, ?_, fun _ => rfl⟩
    rw [h5 hnm] at h3
    rw [← h3]
    intro h; exact absurd h (by simp)
  | some off =>
    have hle := neighborsAt_le h hc hr q.1.1 q.1.2 types (hw q hq)
    obtain ⟨out', e1, e2, e3, e4⟩ := absEntries_spec D hD count default lss h4 [] q.2 (by intro y hy; simp at hy)
      (by rw [h3, nsum_nil, Int.zero_add]; omega) (hout q hq) (by simp)
      (fun _ => Or.inl (h6 (by rw [hnm]; simp))) s
    have := h1 D hD count default q.2 s ⟨off, hnm⟩
    refine ⟨out', _, this.trans e1, e2, ?_, ?_⟩
    · intro hp x hx
      have := e3 (by rw [nsum_nil, Int.zero_add, h3]; exact hp) x hx
      rwa [List.nil_append, h3] at this
    · intro hz
      exact e4 (by rw [nsum_nil, Int.zero_add, h3]; exact hz)

/-- One sampled neighbour: over all draws (see `C19_share`), every neighbour `y` that exists at time `t` is the result in a share of the
draws equal to its weight divided by the total weight of those neighbours. -/
theorem C69_share_partial (h : Built C wm m parts g) (hwm : 0 ≤ m.watermark) (n t : Int) (types : List Int) (default o : Nbr)
    (hgap : Spec.NoGap parts n types) (hts : -(2 ^ 31) ≤ t ∧ t < 2 ^ 31) (ho : Spec.OrderedLifetimes parts n)
    (hrem : C69_removals parts n) (hw : C69_weightsOk parts n types)
    (hc : ∀ r ∈ Spec.allRecords parts, ∀ c, r.created = some c → 0 ≤ c)
    (hr : ∀ r ∈ Spec.allRecords parts, r.removed ≠ some 0)
    (hpos : 0 < ((Spec.neighborsAt parts n t types).map (·.weight)).sum) (M Q K : Nat)
    (hM : ∀ d : Nat, 0 < d → d ≤ ((Spec.neighborsAt parts n t types).map (·.weight)).sum → d ∣ M)
    (hQ : ∀ d : Nat, 0 < d → d ≤ ((Spec.neighborsAt parts n t types).map (·.weight)).sum → d ∣ Q)
    (hK : (Spec.neighborsAt parts n t types).length ≤ K) :
    ∃ E, ∀ y, ((Spec.neighborsAt parts n t types).map (·.weight)).sum *
        ((callLists M K Q E).filter fun ds => decide ((g.weightedSampleAt1 (drawsOf ds) types 1 default (n, t) [o] 0).map (·.1) =
          some [y])).length =
      (callLists M K Q E).length * nbrWeight (Spec.neighborsAt parts n t types) y := by
  obtain ⟨items, hg, -⟩ := h.graphOk
  obtain ⟨lss, h1, h3, h4, h5, h6, -⟩ := readRuns_spec h hg hwm n t types hgap hts ho hrem hc hr hw
  have hle := neighborsAt_le h hc hr n t types hw
  refine ⟨lss.length, fun y => ?_⟩
  have hlen : ∀ ls ∈ lss, ls.length ≤ K := by
    intro ls hls
    have e1 := (h4 ls hls).length_le
    have e2 := (List.sublist_flatten_of_mem (List.mem_map_of_mem (f := List.flatten) hls)).length_le
    rw [← List.flatten_flatten, h3] at e2
    omega
  have := entryCounts_eq M K Q lss h4 default o 0 (by rw [h3]; simpa [nsum] using hpos) (by rw [h3]; simp only [Int.natCast_zero]; omega)
    (by rw [h3]; simpa [nsum] using hM) (by rw [h3]; simpa [nsum] using hQ) hlen y
  rw [h3] at this
  have e0 : ((0 : Nat) : Int) = 0 := rfl
  rw [e0, Int.zero_add, Int.zero_mul, Int.add_zero] at this
  rw [← this]
  congr 1
  cases hnm : g.nodeMap n with
  | none =>
    rw [h5 hnm] at h3
    rw [← h3] at hpos
    exact absurd hpos (by simp)
  | some off =>
    have hr : ∀ ds ∈ callLists M K Q lss.length, g.weightedSampleAt1 (drawsOf ds) types 1 default (n, t) [o] 0 =
        absEntries (drawsOf ds) 1 default (lss.map (·.map GW)) [o] 0 0 := fun ds hds =>
      h1 (drawsOf ds) (callLists_ok hds) 1 default [o] 0 ⟨off, hnm⟩
    simp only [entryCounts]
    generalize callLists M K Q lss.length = L at hr
    induction L with
    | nil => rfl
    | cons ds L ih =>
      rw [List.filter_cons, List.map_cons, List.sum_cons, ← ih fun d hd => hr d (by simp [hd]), hr ds (by simp)]
      by_cases hc : ((absEntries (drawsOf ds) 1 default (lss.map (·.map GW)) [o] 0 0).map (·.1)) = some [y]
      · rw [if_pos (by simpa using hc), if_pos hc, List.length_cons]; omega
      · rw [if_neg (by simpa using hc), if_neg hc]; omega

/-- Any number of samples for a node whose records follow each other in one partition are independent: over all draws (see
`C62_joint_partial`), the result is some order of `ys` as often as for `count` of the neighbours that exist at time `t` drawn one after
another by weight. -/
theorem C69_joint_partial (h : Built C wm m parts g) (hwm : 0 ≤ m.watermark) (n t : Int) (types : List Int) (count : Nat) (default : Nbr)
    (out : List Nbr) (hout : out.length = count)
    (hgap : Spec.NoGap parts n types) (hts : -(2 ^ 31) ≤ t ∧ t < 2 ^ 31) (ho : Spec.OrderedLifetimes parts n)
    (hrem : C69_removals parts n) (hw : C69_weightsOk parts n types) (hone : OneRun parts n)
    (hc : ∀ r ∈ Spec.allRecords parts, ∀ c, r.created = some c → 0 ≤ c)
    (hr : ∀ r ∈ Spec.allRecords parts, r.removed ≠ some 0)
    (hpos : 0 < ((Spec.neighborsAt parts n t types).map (·.weight)).sum) (M Q K R : Nat) (hM0 : 0 < M) (hQ0 : 0 < Q)
    (hM : ∀ d : Nat, 0 < d → d ≤ ((Spec.neighborsAt parts n t types).map (·.weight)).sum → d ∣ M)
    (hQ : ∀ d : Nat, 0 < d → d ≤ ((Spec.neighborsAt parts n t types).map (·.weight)).sum → d ∣ Q)
    (hK : (Spec.neighborsAt parts n t types).length * count ≤ K) (hR : count ≤ R) (ys : List Nbr) :
    ((Spec.neighborsAt parts n t types).map (·.weight)).sum ^ count *
        ((gridCalls M K Q R).filter fun D => (g.weightedSampleAt1 (fun _ => D) types count default (n, t) out 0).any (·.1.isPerm ys)).length =
      (gridCalls M K Q R).length *
        (((listsOf (Spec.neighborsAt parts n t types) count).filter (·.isPerm ys)).map weightProduct).sum := by
  obtain ⟨items, hg, -⟩ := h.graphOk
  obtain ⟨lss, h1, h3, h4, h5, h6, h7⟩ := readRuns_spec h hg hwm n t types hgap hts ho hrem hc hr hw
  have hle := neighborsAt_le h hc hr n t types hw
  rw [oneRun_blocks hone] at h7
  obtain ⟨ls, rfl⟩ : ∃ ls, lss = [ls] := List.length_eq_one_iff.1 h7
  have h3' : ls.flatten = neighborsAt parts n t types := by simpa using h3
  have hok := h4 ls (by simp)
  have hlen := hok.length_le
  rw [h3'] at hlen
  have hKl : ls.length * count ≤ K := Nat.le_trans (Nat.mul_le_mul_right count hlen) hK
  refine joint_of_mean (nbrs := Spec.neighborsAt parts n t types) hpos hM0 hQ0 count _ (fun F hF => ?_) ys
  have hm := mean_part_joint hM0 hQ0 ls hok (by rw [h3']; exact hpos) (by rw [h3']; omega) (by rw [h3']; exact hM)
    (by rw [h3']; exact hQ) count default out hout K R hKl hR F hF
  rw [h3'] at hm
  cases hnm : g.nodeMap n with
  | none => exact absurd (h5 hnm) (by simp)
  | some off =>
    rw [← hm]
    apply avg_congr
    intro D hD
    rw [h1 (fun _ => D) (fun _ => gridCalls_ok hQ0 hD) count default out 0 ⟨off, hnm⟩]
    simp only [List.map_cons, List.map_nil, absEntries]
    cases absPart D count default (ls.map GW) out 0 <;> rfl

/-! Examples. -/

/-- Node 1: of type 0 an edge that is removed at 5, one created at 2 and one created at 6; of type 1 one between 4 and 8.  More of its
edges are in a second partition. -/
def C69_example : List (List (List Rec)) :=
  [[[⟨1, -1, 0, 1, some 1, none, []⟩, ⟨1, 3, 0, 9, none, some 5, []⟩, ⟨1, 2, 0, 1, some 2, none, []⟩, ⟨1, 6, 0, 7, some 6, none, []⟩,
     ⟨1, 4, 1, 2, some 4, some 8, []⟩]],
   [[⟨1, -1, 0, 1, some 1, none, []⟩, ⟨1, 5, 0, 3, some 3, none, []⟩]]]

instance (parts : List (List (List Rec))) (n : Int) (types : List Int) : Decidable (C69_weightsOk parts n types) := by
  unfold C69_weightsOk; infer_instance

theorem C69_removals_of {parts : List (List (List Rec))} {n : Int}
    (h : ∀ e ∈ Spec.allTimedEdges parts, e.removed.getD 0 < 2 ^ 31) : C69_removals parts n := by
  intro e he _ x hx
  simpa [hx] using h e he

theorem C69_created_of {parts : List (List (List Rec))} (h : ∀ r ∈ Spec.allRecords parts, 0 ≤ r.created.getD 0) :
    ∀ r ∈ Spec.allRecords parts, ∀ c, r.created = some c → 0 ≤ c := by
  intro r hr c hc
  simpa [hc] using h r hr

/-- Non-vacuity: at time 5 the neighbours 2, 4 and 5 exist. -/
example (D : Nat → WDraws) (hD : ∀ i, (D i).Ok) (hD0 : ∀ i j, 0 < ((D i).real j).1) :
    ∃ g, Built intCodec (some 9) ⟨0, 0, 9⟩ C69_example g ∧
    ∃ o s', g.weightedSampleAt D [0, 1] 2 ⟨0, -1, 0⟩ [((1, 5), [⟨9, 9, 9⟩, ⟨9, 9, 9⟩])] 0 = some ([o], s') ∧ o.length = 2 ∧
      ∀ x ∈ o, x = ⟨2, 0, 1⟩ ∨ x = ⟨4, 1, 2⟩ ∨ x = ⟨5, 0, 3⟩ := by
  obtain ⟨g, -, hb⟩ := built_of_check (wm := some 9) (m := ⟨0, 0, 9⟩) (parts := C69_example) (by decide +kernel)
  obtain ⟨outs, s', h1, h2, h3⟩ := C69_sampled_partial hb (by decide) D hD [0, 1] 2 ⟨0, -1, 0⟩ [((1, 5), [⟨9, 9, 9⟩, ⟨9, 9, 9⟩])]
    (by decide) (by decide +kernel) (by decide) (by decide +kernel) (by
      intro q _
      exact C69_removals_of (parts := C69_example) (by decide +kernel)) (by decide +kernel)
    (C69_created_of (parts := C69_example) (by decide +kernel)) (by decide +kernel) 0
  match outs, h2, h3 with
  | [o], _, h3 =>
    refine ⟨g, hb, o, s', h1, ?_⟩
    obtain ⟨e1, e2, -⟩ := h3 (((1, 5), [⟨9, 9, 9⟩, ⟨9, 9, 9⟩]), o) (by simp)
    refine ⟨e1, fun x hx => ?_⟩
    have := (e2 (show 0 < ((Spec.neighborsAt C69_example 1 5 [0, 1]).map (·.weight)).sum by decide +kernel) x hx).1
    simp only [] at this
    rw [show Spec.neighborsAt C69_example 1 5 [0, 1] = [⟨2, 0, 1⟩, ⟨4, 1, 2⟩, ⟨5, 0, 3⟩] by decide +kernel] at this
    simpa using this

/-- Non-vacuity: 60 is fine enough for weights up to 6, and neighbour 5 is returned in half of the draws. -/
example : ∃ g, Built intCodec (some 9) ⟨0, 0, 9⟩ C69_example g ∧ ∃ E, (6 : Int) *
      ((callLists 60 3 60 E).filter fun ds => decide ((g.weightedSampleAt1 (drawsOf ds) [0, 1] 1 ⟨0, -1, 0⟩ (1, 5) [⟨9, 9, 9⟩] 0).map (·.1) =
        some [⟨5, 0, 3⟩])).length = (callLists 60 3 60 E).length * 3 := by
  obtain ⟨g, -, hb⟩ := built_of_check (wm := some 9) (m := ⟨0, 0, 9⟩) (parts := C69_example) (by decide +kernel)
  have h6 : ((Spec.neighborsAt C69_example 1 5 [0, 1]).map (·.weight)).sum = 6 := by decide +kernel
  have h60 : ∀ d : Nat, 0 < d → (d : Int) ≤ ((Spec.neighborsAt C69_example 1 5 [0, 1]).map (·.weight)).sum → d ∣ 60 := by
    rw [h6]
    intro d h1 h2
    have : ∀ d < 7, 0 < d → d ∣ 60 := by decide
    exact this d (by omega) h1
  obtain ⟨E, hE⟩ := C69_share_partial hb (by decide) 1 5 [0, 1] ⟨0, -1, 0⟩ ⟨9, 9, 9⟩ (by decide +kernel) (by decide) (by decide +kernel)
    (C69_removals_of (parts := C69_example) (by decide +kernel)) (by decide +kernel)
    (C69_created_of (parts := C69_example) (by decide +kernel)) (by decide +kernel) (by decide +kernel) 60 60 3 h60 h60 (by decide +kernel)
  refine ⟨g, hb, E, ?_⟩
  have := hE ⟨5, 0, 3⟩
  rw [h6, show nbrWeight (Spec.neighborsAt C69_example 1 5 [0, 1]) ⟨5, 0, 3⟩ = 3 by decide +kernel] at this
  exact this

/-- `C69_joint_partial` applies to node 1 of the first partition. -/
example : OneRun (C69_example.take 1) 1 ∧ ((Spec.neighborsAt (C69_example.take 1) 1 5 [0, 1]).map (·.weight)).sum = 3 := by
  refine ⟨⟨[], [], _, [], _, _, [], rfl, (List.append_nil _).symm, rfl, ?_⟩, by decide +kernel⟩
  decide +kernel

/-- With the order of the edges that the JSON decoder produces, weighted sampling at time 5 returns a neighbour that was removed at 3. -/
theorem C69_order_refuted : ∃ g D, Built intCodec (some 9) ⟨0, 0, 9⟩ C06_order g ∧ (∀ i, WDraws.Ok (D i)) ∧
    (∀ y ∈ Spec.neighborsAt C06_order 1 5 [0], y.dst ≠ 3) ∧
    (g.weightedSampleAt D [0] 1 ⟨0, -1, 0⟩ [((1, 5), [⟨0, -1, 0⟩])] 0).map (·.1) = some [[⟨3, 0, 1⟩]] := by
  obtain ⟨g, hg, hb⟩ := built_of_check (wm := some 9) (m := ⟨0, 0, 9⟩) (parts := C06_order) (by decide +kernel)
  refine ⟨g, fun _ => ⟨fun _ => 0, fun _ => (1, 2)⟩, hb, ?_, by decide +kernel, ?_⟩
  · intro i j; exact Nat.lt_succ_self 1
  · have this : (graphOf intCodec (some 9) ⟨0, 0, 9⟩ C06_order).bind (fun g => (g.weightedSampleAt (fun _ => ⟨fun _ => 0, fun _ => (1, 2)⟩)
      [0] 1 ⟨0, -1, 0⟩ [((1, 5), [⟨0, -1, 0⟩])] 0).map (·.1)) = some [[⟨3, 0, 1⟩]] := by decide +kernel
    rw [hg] at this
    exact this

/-- One edge, created at 5 and removed at 2^31. -/
def C69_late : List (List (List Rec)) := [[[⟨1, -1, 0, 1, some 1, none, []⟩, ⟨1, 3, 0, 9, some 5, some (2 ^ 31), []⟩]]]

/-- An edge whose removal time does not fit in 32 bits is returned at a time before its creation. -/
theorem C69_removed_refuted : ∃ g D, Built intCodec (some 9) ⟨0, 0, 9⟩ C69_late g ∧ (∀ i, WDraws.Ok (D i)) ∧
    Spec.neighborsAt C69_late 1 2 [0] = [] ∧
    (g.weightedSampleAt D [0] 1 ⟨0, -1, 0⟩ [((1, 2), [⟨0, -1, 0⟩])] 0).map (·.1) = some [[⟨3, 0, 9⟩]] := by
  obtain ⟨g, hg, hb⟩ := built_of_check (wm := some 9) (m := ⟨0, 0, 9⟩) (parts := C69_late) (by decide +kernel)
  refine ⟨g, fun _ => ⟨fun _ => 0, fun _ => (1, 2)⟩, hb, ?_, by decide +kernel, ?_⟩
  · intro i j; exact Nat.lt_succ_self 1
  · have this : (graphOf intCodec (some 9) ⟨0, 0, 9⟩ C69_late).bind (fun g => (g.weightedSampleAt (fun _ => ⟨fun _ => 0, fun _ => (1, 2)⟩)
      [0] 1 ⟨0, -1, 0⟩ [((1, 2), [⟨0, -1, 0⟩])] 0).map (·.1)) = some [[⟨3, 0, 9⟩]] := by decide +kernel
    rw [hg] at this
    exact this

/-- In a graph without times, weighted sampling with a timestamp reads outside the table of times; uniform sampling ignores the
timestamp. -/
theorem C69_timeless_refuted : ∃ g, Built intCodec none ⟨0, 0, -1⟩ (C19_example.take 1) g ∧
    g.weightedSampleAt (fun _ => ⟨fun _ => 0, fun _ => (1, 2)⟩) [0] 1 ⟨0, -1, 0⟩ [((1, 2), [⟨0, -1, 0⟩])] 0 = none ∧
    g.uniformSample (fun _ => 0) false [0] 1 (0, -1) [((1, some 2), [(0, -1)])] 0 ≠ none := by
  obtain ⟨g, hg, hb⟩ := built_of_check (wm := none) (m := ⟨0, 0, -1⟩) (parts := C19_example.take 1) (by decide +kernel)
  refine ⟨g, hb, ?_, ?_⟩
  · have this : ((graphOf intCodec none ⟨0, 0, -1⟩ (C19_example.take 1)).bind (fun g => g.weightedSampleAt
      (fun _ => ⟨fun _ => 0, fun _ => (1, 2)⟩) [0] 1 ⟨0, -1, 0⟩ [((1, 2), [⟨0, -1, 0⟩])] 0)) = none := by decide +kernel
    rw [hg] at this
    exact this
  · have this : (graphOf intCodec none ⟨0, 0, -1⟩ (C19_example.take 1)).bind (fun g => g.uniformSample (fun _ => 0) false
      [0] 1 (0, -1) [((1, some 2), [(0, -1)])] 0) ≠ none := by decide +kernel
    rw [hg] at this
    exact this

end DeepGNN
