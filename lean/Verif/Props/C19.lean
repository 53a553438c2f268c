import Verif.Proofs.WeightedShare
import Verif.Props.C15

/-
C19 Weighted neighbour sampling follows the weights.
Every call on a partition has its own random draws (`WDraws`): coins for the number of neighbours of each type
and numbers in `[0, 1)` for the choice among them.
-/

namespace DeepGNN

open Spec

variable {C : WeightCodec} {wm : Option Nat} {m : Meta} {parts : List (List (List Rec))} {g : Graph}
  {items : List Item} {p : Partition} {k : Nat} {edges : List GEdge} {xs : List ((Int × List PEdge) × Nat)}

theorem exactSums_of_small {l : List Nbr} (hn : NonNeg l) (h : nsum l ≤ 2 ^ 24) : ExactSums (l.map (·.weight)) := by
  have hs := hn.sum
  constructor
  · intro w hw
    obtain ⟨y, hy, rfl⟩ := List.mem_map.1 hw
    have h1 := hn y hy
    obtain ⟨a, b, rfl⟩ := List.append_of_mem hy
    have h2 : NonNeg a := fun z hz => hn z (by simp [hz])
    have h3 : NonNeg b := fun z hz => hn z (by simp [hz])
    have := h2.sum; have := h3.sum
    rw [nsum_append, nsum_cons] at h
    exact f32_small (by omega)
  · intro i
    rw [← List.map_take]
    have h1 : NonNeg (l.take i) := fun z hz => hn z (List.mem_of_mem_take hz)
    have h2 := h1.sum
    have h3 := hn.take_le i
    exact f32_small (by simp only [nsum] at *; omega)

/-- The neighbours of the visited types, one list per type. -/
def blkGroups (edges : List GEdge) (types : List Int) : List (List Nbr) :=
  (walk (·.1) (runs GEdge.typ edges) types).map fun g => g.2.map gnbr

theorem blkGroups_flatten (edges : List GEdge) (types : List Int) :
    (blkGroups edges types).flatten = (walkEdges edges types).map gnbr := by
  simp [blkGroups, walkEdges, List.flatMap_def, List.map_flatten, Function.comp_def]

theorem NodeTables.weightGroups (h : NodeTables m p k edges xs) (types : List Int)
    (hx : ∀ l ∈ blkGroups edges types, NonNeg l ∧ nsum l ≤ 2 ^ 24) :
    readGroups types (p, k) = some ((blkGroups edges types).map GW) := by
  have hv : (visited xs types).map (fun x => (x.1.1, x.1.2.map (·.1))) = walk (·.1) (runs GEdge.typ edges) types := by
    obtain ⟨o, ho⟩ := h.xruns
    have h1 : (visited xs types).map (·.1) = walk (·.1) (xs.map (·.1)) types := by
      rw [walk_map]; rfl
    have h2 : runs GEdge.typ edges = (runs ptyp (withOffs nfeats o edges)).map
        (fun g => (g.1, g.2.map (·.1))) := by
      conv => lhs; rw [← map_fst_withOffs nfeats o edges]
      rw [runs_map]; rfl
    rw [h2, walk_map, ← ho]
    have h3 : walk (fun a : Int × List PEdge => a.1) (xs.map (·.1)) types = (visited xs types).map (·.1) :=
      h1.symm
    rw [h3, List.map_map]; rfl
  simp only [readGroups, h.groups, Option.bind_some, walk_toGroup]
  have hb : (blkGroups edges types).map GW = (visited xs types).map fun x => GW ((x.1.2.map (·.1)).map gnbr) := by
    rw [blkGroups, ← hv, List.map_map, List.map_map]; rfl
  rw [hb, List.mapM_map]
  apply mapM_some_map
  intro x hxv
  have hxm := mem_visited hxv
  have hmem : (x.1.2.map (·.1)).map gnbr ∈ blkGroups edges types := by
    rw [blkGroups, ← hv, List.map_map]
    exact List.mem_map.2 ⟨x, hxv, rfl⟩
  obtain ⟨hn, hle⟩ := hx _ hmem
  have hex := exactSums_of_small hn hle
  have hws : ((x.1.2.map (·.1)).map gnbr).map (·.weight) = x.1.2.map (·.1.weight) := by
    simp [gnbr, Function.comp_def]
  rw [hws] at hex
  have hnb := h.groupNbrs hxm
  rw [seenRun_exact (by rw [List.map_map]; exact hex)] at hnb
  simp only [Function.comp, Partition.weightGroup, hnb, Option.map_some]
  have hc : (List.range' (toGroup x).start ((toGroup x).last - (toGroup x).start)).mapM
      (fun j => p.edgeWeights[j]?) = some (GW ((x.1.2.map (·.1)).map gnbr)).cums := by
    simp only [toGroup, Nat.add_sub_cancel_left]
    have hl : x.1.2.length = (List.range x.1.2.length).length := by simp
    conv => lhs; rw [hl]
    rw [mapM_range' (fun j => p.edgeWeights[j]?)
      (fun i => nsum (((x.1.2.map (·.1)).map gnbr).take (i + 1))) (List.range x.1.2.length) x.2]
    · simp [GW]
    · intro i hi
      rw [List.getElem_range]
      have hi' : i < x.1.2.length := by simpa using hi
      rw [h.cum x hxm i hi', fsum_exact hex, ← hws, ← List.map_take]
      rfl
  rw [hc]
  rfl

theorem GroupsOk.length_le {ls : List (List Nbr)} (h : GroupsOk ls) : ls.length ≤ ls.flatten.length := by
  induction ls with
  | nil => simp
  | cons l ls ih =>
    have h1 := List.length_pos_iff.2 (h l (by simp)).1
    have h2 := ih fun x hx => h x (by simp [hx])
    rw [List.flatten_cons, List.length_append, List.length_cons]
    omega

/-- What the calls for node `n` read. -/
theorem GraphOk.readGroups (hg : GraphOk C m g items parts) (n : Int) (types : List Int)
    (hgap : Spec.NoGap parts n types) (hn : NonNeg (Spec.neighbors parts n types))
    (hle : nsum (Spec.neighbors parts n types) ≤ 2 ^ 24) :
    ∃ (lss : List (List (List Nbr))) (es : _), g.entries n = some es ∧
      es.mapM (DeepGNN.readGroups (sortUnique types)) = some (lss.map (·.map GW)) ∧
      lss.flatten.flatten = Spec.neighbors parts n types ∧ (∀ ls ∈ lss, GroupsOk ls) ∧
      (g.nodeMap n = none → lss = []) ∧ (g.nodeMap n ≠ none → lss ≠ []) ∧
      lss.length = (parts.flatMap fun calls => (blockIds none calls.flatten).filter (fun i => i = n)).length := by
  have hflat : (items.flatMap fun it => (it.blks.filter (fun b => b.id = n)).map fun b =>
      blkGroups b.edges (sortUnique types)).flatten.flatten = Spec.neighbors parts n types := by
    have h1 : foundEdges items n (sortUnique types) = inputEdges parts n (sortUnique types) := by
      apply hg.found_eq n _ (sortUnique_sorted types)
      intro x hx hxn y hy hyn hyt hex
      obtain ⟨r, hr, h1, h2⟩ := mem_input_record hx
      obtain ⟨r', hr', h1', h2'⟩ := mem_input_record hy
      simp only [sortUnique_mem] at hyt hex ⊢
      rw [← h2]
      exact hgap r hr r' hr' (by rw [h1, hxn]) (by rw [h1', hyn]) (by rw [h2']; exact hyt)
        (by rw [h2, h2']; exact hex)
    have h2 : Spec.neighbors parts n (sortUnique types) = Spec.neighbors parts n types := by
      simp only [Spec.neighbors, sortUnique_mem]
    rw [← h2, ← inputEdges_neighbors, ← h1, foundEdges]
    clear hgap hn hle h1 h2 hg
    induction items with
    | nil => rfl
    | cons it items ih =>
      rw [List.flatMap_cons, List.flatMap_cons, List.flatten_append, List.flatten_append, List.map_append, ih]
      congr 1
      induction it.blks.filter (fun b => b.id = n) with
      | nil => rfl
      | cons b bs ihb =>
        rw [List.map_cons, List.flatten_cons, List.flatten_append, List.flatMap_cons, List.map_append, ihb,
          blkGroups_flatten]
  have hsub : ∀ it ∈ items, ∀ b ∈ it.blks, b.id = n → ∀ l ∈ blkGroups b.edges (sortUnique types),
      l ≠ [] ∧ NonNeg l ∧ nsum l ≤ 2 ^ 24 := by
    intro it hit b hb hbn l hl
    have hmem : l ∈ (items.flatMap fun it => (it.blks.filter (fun b => b.id = n)).map fun b =>
      blkGroups b.edges (sortUnique types)).flatten :=
      List.mem_flatten.2 ⟨_, List.mem_flatMap.2 ⟨it, hit, List.mem_map.2 ⟨b, List.mem_filter.2 ⟨hb, by simpa using hbn⟩,
        rfl⟩⟩, hl⟩
    refine ⟨?_, ?_, ?_⟩
    · obtain ⟨r, hr, rfl⟩ := List.mem_map.1 hl
      have := (runs_mem GEdge.typ b.edges r (walk_subset _ _ _ r hr)).1
      simpa using this
    · intro y hy
      apply hn
      rw [← hflat]
      exact List.mem_flatten.2 ⟨l, hmem, hy⟩
    · obtain ⟨a, c, hac⟩ := List.append_of_mem hmem
      rw [hac] at hflat
      rw [List.flatten_append, List.flatten_cons] at hflat
      have h1 : NonNeg a.flatten := fun y hy => hn y (by rw [← hflat]; simp only [List.mem_append]; exact Or.inl hy)
      have h2 : NonNeg c.flatten := fun y hy => hn y (by
        rw [← hflat]; simp only [List.mem_append]; exact Or.inr (Or.inr hy))
      have h3 := h1.sum
      have h4 := h2.sum
      rw [← hflat, nsum_append, nsum_append] at hle
      omega
  obtain ⟨es, h1, h2⟩ := hg.mapEntries n (DeepGNN.readGroups (sortUnique types))
    (fun b => (blkGroups b.edges (sortUnique types)).map GW) (by
      intro it hit x hx hxn
      obtain ⟨xs, ht⟩ := (hg.ok it hit).tables hx
      have hmem : x.1 ∈ it.blks := (List.mem_zipIdx_iff_getElem?.1 hx) |> List.mem_of_getElem?
      exact ht.weightGroups _ fun l hl => (hsub it hit x.1 hmem hxn l hl).2)
  refine ⟨_, es, h1, ?_, hflat, ?_, ?_, ?_, ?_⟩
  · rw [h2, List.map_flatMap]
    simp only [List.map_map]
    rfl
  · intro ls hls l hl
    obtain ⟨it, hit, hls⟩ := List.mem_flatMap.1 hls
    obtain ⟨b, hb, rfl⟩ := List.mem_map.1 hls
    obtain ⟨hb1, hb2⟩ := List.mem_filter.1 hb
    have := hsub it hit b hb1 (by simpa using hb2) l hl
    exact ⟨this.1, this.2.1⟩
  · intro h0
    have := (entries_items hg.parts_eq hg.inv n).2.1 h0
    rw [List.flatMap_eq_nil_iff]
    intro it hit
    rw [List.map_eq_nil_iff, List.filter_eq_nil_iff]
    intro b hb
    simpa using this it hit b hb
  · intro h0 hnil
    apply h0
    rw [(entries_items hg.parts_eq hg.inv n).2]
    intro it hit b hb hbn
    rw [List.flatMap_eq_nil_iff] at hnil
    have := hnil it hit
    rw [List.map_eq_nil_iff, List.filter_eq_nil_iff] at this
    exact this b hb (by simpa using hbn)
  · have hlen : (items.flatMap fun it => (it.blks.filter (fun b => b.id = n)).map fun b => blkGroups b.edges (sortUnique types)).length =
        (items.flatMap fun it => (it.blks.map (·.id)).filter (fun i => i = n)).length := by
      clear hflat hsub hn hle h1 h2 hg
      induction items with
      | nil => rfl
      | cons it items ih =>
        rw [List.flatMap_cons, List.flatMap_cons, List.length_append, List.length_append, ih, List.length_map, List.filter_map,
          List.length_map]
        rfl
    rw [hlen]
    congr 1
    symm
    apply hg.src.flatMap_eq
    intro a b _ _ hab
    rw [hab.ids]

/-- Requirements on the weights of the neighbours of a node: not negative, exact sums. -/
def C19_weightsOk (parts : List (List (List Rec))) (n : Int) (types : List Int) : Prop :=
  (∀ y ∈ Spec.neighbors parts n types, 0 ≤ y.weight) ∧
    ((Spec.neighbors parts n types).map (·.weight)).sum ≤ 2 ^ 24

/-- For all draws: every node gets `count` neighbours over the requested types, with their weights, or `count`
defaults if the total weight of its neighbours is 0; a neighbour of weight 0 is returned only if a draw is exactly 0.
Missing for the full property: draws that are exactly 0, see `C19_zero_refuted`; gaps in the types, see
`C15_gap_refuted`. -/
theorem C19_sampled_partial (h : Built C wm m parts g) (D : Nat → WDraws) (hD : ∀ i, (D i).Ok) (types : List Int)
    (count : Nat) (default : Nbr) (reqs : List (Int × List Nbr)) (hout : ∀ q ∈ reqs, q.2.length = count)
    (hgap : ∀ q ∈ reqs, Spec.NoGap parts q.1 types) (hw : ∀ q ∈ reqs, C19_weightsOk parts q.1 types) (s : Nat) :
    ∃ outs s', g.weightedSample D types count default reqs s = some (outs, s') ∧ outs.length = reqs.length ∧
      ∀ y ∈ reqs.zip outs, y.2.length = count ∧
        (0 < ((Spec.neighbors parts y.1.1 types).map (·.weight)).sum → ∀ x ∈ y.2,
          x ∈ Spec.neighbors parts y.1.1 types ∧ ((∀ i j, 0 < ((D i).real j).1) → 0 < x.weight)) ∧
        (((Spec.neighbors parts y.1.1 types).map (·.weight)).sum = 0 → y.2 = List.replicate count default) := by
  obtain ⟨items, hg, -⟩ := h.graphOk
  apply sampleNodes_spec (fun n out s => g.weightedSample1 D types count default n out s) (fun n _ o =>
      o.length = count ∧
        (0 < ((Spec.neighbors parts n types).map (·.weight)).sum → ∀ x ∈ o,
          x ∈ Spec.neighbors parts n types ∧ ((∀ i j, 0 < ((D i).real j).1) → 0 < x.weight)) ∧
        (((Spec.neighbors parts n types).map (·.weight)).sum = 0 → o = List.replicate count default))
  intro q hq s
  obtain ⟨lss, es, h1, h2, h3, h4, h5, h6, -⟩ := hg.readGroups q.1 types (hgap q hq) (hw q hq).1 (hw q hq).2
  simp only [Graph.weightedSample1]
  cases hnm : g.nodeMap q.1 with
  | none =>
    refine ⟨_, s, rfl, by simp, ?_, fun _ => rfl⟩
    rw [h5 hnm] at h3
    rw [← h3]
    intro h; exact absurd h (by simp)
  | some off =>
    obtain ⟨out', e1, e2, e3, e4⟩ := absEntries_spec D hD count default lss h4 [] q.2 (by intro y hy; simp at hy)
      (by rw [h3, nsum_nil, Int.zero_add]; exact (hw q hq).2) (hout q hq) (by simp)
      (fun _ => Or.inl (h6 (by rw [hnm]; simp))) s
    simp only [h1, Option.bind_some]
    rw [weightedEntries_abs D _ count default es _ h2]
    refine ⟨out', _, e1, e2, ?_, ?_⟩
    · intro hp x hx
      have := e3 (by rw [nsum_nil, Int.zero_add, h3]; exact hp) x hx
      rwa [List.nil_append, h3] at this
    · intro hz
      exact e4 (by rw [nsum_nil, Int.zero_add, h3]; exact hz)

/-- One sampled neighbour: over all draws (`Spec.callLists`: coins below `M`, numbers in the middle of `Q` equal
intervals of `[0, 1)`, both fine enough for the weights), every neighbour `y` is the result in a share of the draws equal to
its weight divided by the total weight of the neighbours, whatever the previous contents `o` of the output.
`E`: number of calls made for the node. -/
theorem C19_share (h : Built C wm m parts g) (n : Int) (types : List Int) (default o : Nbr)
    (hgap : Spec.NoGap parts n types) (hw : C19_weightsOk parts n types)
    (hpos : 0 < ((Spec.neighbors parts n types).map (·.weight)).sum) (M Q K : Nat)
    (hM : ∀ d : Nat, 0 < d → d ≤ ((Spec.neighbors parts n types).map (·.weight)).sum → d ∣ M)
    (hQ : ∀ d : Nat, 0 < d → d ≤ ((Spec.neighbors parts n types).map (·.weight)).sum → d ∣ Q)
    (hK : (Spec.neighbors parts n types).length ≤ K) :
    ∃ E, ∀ y, ((Spec.neighbors parts n types).map (·.weight)).sum *
        ((callLists M K Q E).filter fun ds => decide ((g.weightedSample1 (drawsOf ds) types 1 default n [o] 0).map (·.1) =
          some [y])).length =
      (callLists M K Q E).length * nbrWeight (Spec.neighbors parts n types) y := by
  obtain ⟨items, hg, -⟩ := h.graphOk
  obtain ⟨lss, es, h1, h2, h3, h4, h5, h6, -⟩ := hg.readGroups n types hgap hw.1 hw.2
  refine ⟨lss.length, fun y => ?_⟩
  have hlen : ∀ ls ∈ lss, ls.length ≤ K := by
    intro ls hls
    have e1 := (h4 ls hls).length_le
    have e2 := (List.sublist_flatten_of_mem (List.mem_map_of_mem (f := List.flatten) hls)).length_le
    rw [← List.flatten_flatten, h3] at e2
    omega
  have := entryCounts_eq M K Q lss h4 default o 0 (by rw [h3]; simpa [nsum] using hpos) (by rw [h3]; simpa [nsum] using hw.2)
    (by rw [h3]; simpa [nsum] using hM) (by rw [h3]; simpa [nsum] using hQ) hlen y
  rw [h3] at this
  have e0 : ((0 : Nat) : Int) = 0 := rfl
  rw [e0, Int.zero_add, Int.zero_mul, Int.add_zero] at this
  rw [← this]
  congr 1
  cases hnm : g.nodeMap n with
  | none =>
    rw [h5 hnm] at h3
    rw [← h3] at hpos
    exact absurd hpos (by simp)
  | some off =>
    have hr : ∀ ds, g.weightedSample1 (drawsOf ds) types 1 default n [o] 0 =
        absEntries (drawsOf ds) 1 default (lss.map (·.map GW)) [o] 0 0 := by
      intro ds
      simp only [Graph.weightedSample1, hnm, h1, Option.bind_some]
      exact weightedEntries_abs _ _ _ _ _ _ h2 _ _ _
    simp only [hr, entryCounts]
    generalize callLists M K Q lss.length = L
    induction L with
    | nil => rfl
    | cons ds L ih =>
      rw [List.filter_cons, List.map_cons, List.sum_cons, ← ih]
      by_cases hc : ((absEntries (drawsOf ds) 1 default (lss.map (·.map GW)) [o] 0 0).map (·.1)) = some [y]
      · rw [if_pos (by simpa using hc), if_pos hc, List.length_cons]; omega
      · rw [if_neg (by simpa using hc), if_neg hc]; omega

/-! Examples. -/

/-- Two partitions; node 1 has neighbours of two types, one of weight 0. -/
def C19_example : List (List (List Rec)) :=
  [[[⟨1, -1, 0, 1, none, none, []⟩, ⟨1, 2, 0, 0, none, none, []⟩, ⟨1, 3, 0, 1, none, none, []⟩,
      ⟨1, 4, 1, 2, none, none, []⟩]],
   [[⟨1, -1, 0, 1, none, none, []⟩, ⟨1, 5, 0, 3, none, none, []⟩]]]

/-- Requested types 0 and 1: neighbours with their weights. -/
example : (Spec.neighbors C19_example 1 [0, 1]).map (fun y => (y.dst, y.weight)) = [(2, 0), (3, 1), (4, 2), (5, 3)] := by
  decide +kernel

example : C19_weightsOk C19_example 1 [0, 1] := by unfold C19_weightsOk; decide +kernel

example : ∃ g, Built intCodec (some 9) ⟨0, 0, 9⟩ C19_example g := by
  obtain ⟨g, -, hb⟩ := built_of_check (wm := some 9) (m := ⟨0,0,9⟩) (parts := C19_example) (by decide +kernel)
  exact ⟨g, hb⟩

/-- 60 is fine enough for weights up to 6. -/
example : ∀ d < 7, 0 < d → d ∣ 60 := by decide

/-- A draw of exactly 0 returns a neighbour of weight 0 although others have positive weights. -/
theorem C19_zero_refuted : ∃ (parts : List (List (List Rec))) (m : Meta) (g : Graph) (D : Nat → WDraws) (y : Nbr),
    Built intCodec (some 9) m parts g ∧ (∀ i, (D i).Ok) ∧ y.weight = 0 ∧ C19_weightsOk parts 1 [0] ∧
    (∃ z ∈ Spec.neighbors parts 1 [0], 0 < z.weight) ∧
    (g.weightedSample D [0] 1 ⟨0, -1, 0⟩ [(1, [⟨0, -1, 0⟩])] 0).map (·.1) = some [[y]] := by
  obtain ⟨g, hg, hb⟩ := built_of_check (wm := some 9) (m := ⟨0,0,9⟩) (parts := C19_example.take 1) (by decide +kernel)
  refine ⟨C19_example.take 1, ⟨0, 0, 9⟩, g, fun _ => ⟨fun _ => 0, fun _ => (0, 1)⟩, ⟨2, 0, 0⟩, hb, ?_, rfl, ?_, ?_, ?_⟩
  · intro i j; exact Nat.zero_lt_one
  · unfold C19_weightsOk; decide +kernel
  · decide +kernel
  · have this : (graphOf intCodec (some 9) ⟨0, 0, 9⟩ (C19_example.take 1)).bind (fun g => (g.weightedSample (fun _ => ⟨fun _ => 0, fun _ => (0, 1)⟩)
      [0] 1 ⟨0, -1, 0⟩ [(1, [⟨0, -1, 0⟩])] 0).map (·.1)) = some [[⟨2, 0, 0⟩]] := by decide +kernel
    rw [hg] at this
    exact this

/-- Two types, whose weights 2^24 and 3 are exact but whose sum is not. -/
def C19_inexact : List (List (List Rec)) :=
  [[[⟨1, -1, 0, 1, none, none, []⟩, ⟨1, 2, 0, 2 ^ 24, none, none, []⟩, ⟨1, 3, 1, 3, none, none, []⟩]]]

/-- With sums that are rounded, a node with neighbours of positive weights gets no samples for some draws, however many are requested: what was in
the output before is returned, in the Python client the default. -/
theorem C19_unfilled_refuted : ∃ (g : Graph) (D : Nat → WDraws), Built intCodec (some 9) ⟨0, 0, 9⟩ C19_inexact g ∧ (∀ i, (D i).Ok) ∧
    (Spec.neighbors C19_inexact 1 [0, 1]).map (fun y => (y.dst, y.weight)) = [(2, 2 ^ 24), (3, 3)] ∧
    ∀ (default : Nbr) (out : List Nbr) (s : Nat), g.weightedSample1 D [0, 1] out.length default 1 out s = some (out, s + 1) := by
  obtain ⟨g, hg, hb⟩ := built_of_check (wm := some 9) (m := ⟨0,0,9⟩) (parts := C19_inexact) (by decide +kernel)
  refine ⟨g, fun _ => ⟨fun _ => 2 ^ 24 + 3, fun _ => (0, 1)⟩, hb, fun i j => Nat.zero_lt_one, by decide +kernel, ?_⟩
  intro default out s
  have h1 : (graphOf intCodec (some 9) ⟨0, 0, 9⟩ C19_inexact).bind (fun g => (g.entries 1).bind fun es => (es.mapM fun e => (e.1.groups e.2).bind fun gs =>
      (walk Group.typ gs [0, 1]).mapM fun x => (e.1.weightGroup x).map fun w => (w.cums, w.nbrs))) =
      some [[([2 ^ 24], [⟨2, 0, 2 ^ 24⟩]), ([3], [⟨3, 1, 3⟩])]] := by decide +kernel
  have h0 : (graphOf intCodec (some 9) ⟨0, 0, 9⟩ C19_inexact).bind (fun g => g.nodeMap 1) ≠ none := by decide +kernel
  rw [hg, Option.bind_some] at h1 h0
  obtain ⟨es, h2, h3⟩ := Option.bind_eq_some_iff.1 h1
  obtain ⟨i, hi⟩ := Option.ne_none_iff_exists'.1 h0
  match es, h3 with
  | [e], h3 =>
    simp only [List.mapM_cons, List.mapM_nil, Option.bind_eq_bind, Option.pure_def] at h3
    obtain ⟨l, h4, h5⟩ := Option.bind_eq_some_iff.1 h3
    obtain ⟨gs, h6, h7⟩ := Option.bind_eq_some_iff.1 h4
    simp only [Option.bind_some, Option.some.injEq, List.cons.injEq, and_true] at h5
    subst h5
    have h8 : (walk Group.typ gs [0, 1]).mapM e.1.weightGroup = some [⟨[2 ^ 24], [⟨2, 0, 2 ^ 24⟩]⟩, ⟨[3], [⟨3, 1, 3⟩]⟩] := by
      have hm : ∀ l : List Group, (l.mapM fun x => (e.1.weightGroup x).map fun w => (w.cums, w.nbrs)) =
          (l.mapM e.1.weightGroup).map (List.map fun w => (w.cums, w.nbrs)) := by
        intro l
        induction l with
        | nil => rfl
        | cons x l ih =>
          rw [List.mapM_cons, List.mapM_cons, ih]
          cases e.1.weightGroup x <;> cases l.mapM e.1.weightGroup <;> rfl
      rw [hm, Option.map_eq_some_iff] at h7
      obtain ⟨ws, h9, h10⟩ := h7
      rw [h9]
      match ws, h10 with
      | [⟨a, b⟩, ⟨c, d⟩], h10 =>
        simp only [List.map_cons, List.map_nil, List.cons.injEq, Prod.mk.injEq, and_true] at h10
        obtain ⟨⟨rfl, rfl⟩, rfl, rfl⟩ := h10
        rfl
    have hbin : ∀ (c n : Nat) (a b : Int), a ≤ (2 ^ 24 + 3 : Int) % b → WDraws.binomial ⟨fun _ => 2 ^ 24 + 3, fun _ => (0, 1)⟩ c n a b = 0 := by
      intro c n a b h
      unfold WDraws.binomial
      rw [List.length_eq_zero_iff, List.filter_eq_nil_iff]
      intro i _
      simp only [decide_eq_true_eq, Int.not_lt]
      exact h
    have hs : sortUnique [0, 1] = [0, 1] := by decide
    simp only [Graph.weightedSample1, hi, h2, Option.bind_some, weightedEntries, Partition.weightedSample, hs, h6, h8]
    have hf : fsum 0 [(2 : Int) ^ 24, 3] = 2 ^ 24 + 4 := by decide +kernel
    simp only [List.mapM_cons, List.mapM_nil, List.getLast?_singleton, Option.bind_eq_bind, Option.bind_some, Option.pure_def, hf]
    have hf2 : f32 (0 + (2 ^ 24 + 4)) = 2 ^ 24 + 4 := by decide +kernel
    rw [hf2, if_neg (by decide)]
    have hw : weightedGroups ⟨fun _ => 2 ^ 24 + 3, fun _ => (0, 1)⟩ (2 ^ 24 + 4, 2 ^ 24 + 4)
        [⟨[2 ^ 24], [⟨2, 0, 2 ^ 24⟩]⟩, ⟨[3], [⟨3, 1, 3⟩]⟩] (2 ^ 24 + 4) out.length 0 0 = some [] := by
      by_cases ho : out.length = 0
      · simp [weightedGroups, ho]
      · have hf3 : f32 (2 ^ 24 + 4 - 2 ^ 24) = 4 := by decide +kernel
        simp only [weightedGroups, List.getLast?_singleton, Option.bind_some]
        rw [if_neg (by omega), if_neg (by decide), hbin _ _ _ _ (by decide)]
        simp only [weightedTake, Option.bind_some, hf3, Nat.sub_zero]
        rw [if_neg (by omega), if_neg (by decide), hbin _ _ _ _ (by decide)]
        rfl
    rw [hw]
    simp
  | [], h3 => simp at h3
  | e :: f :: l, h3 =>
    simp only [List.mapM_cons, Option.bind_eq_bind, Option.pure_def] at h3
    obtain ⟨a, -, h4⟩ := Option.bind_eq_some_iff.1 h3
    obtain ⟨b, h5, h6⟩ := Option.bind_eq_some_iff.1 h4
    obtain ⟨c, -, h7⟩ := Option.bind_eq_some_iff.1 h5
    obtain ⟨d, -, h8⟩ := Option.bind_eq_some_iff.1 h7
    cases h8
    cases h6

end DeepGNN
