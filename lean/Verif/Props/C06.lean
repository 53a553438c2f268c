import Verif.Proofs.CountAt
import Verif.Props.C05

/-
C06 Temporal neighbor_count agrees with temporal neighbors.
-/

namespace DeepGNN

variable {C : WeightCodec} {m : Meta} {g : Graph} {items : List Item} {parts : List (List (List Rec))}

theorem GraphOk.neighborCountAt1 (h : GraphOk C m g items parts) (hwm : 0 ≤ m.watermark) (n ts : Int)
    (hts : -(2 ^ 31) ≤ ts ∧ ts < 2 ^ 31) (types : List Int)
    (hs : ∀ it ∈ items, ∀ b ∈ it.blks, b.id = n → EdgesTimesSorted b.edges) :
    g.neighborCountAt1 types n ts = some ((foundEdges items n types).filter (liveB ts)).length := by
  obtain ⟨es, h1, h2⟩ := h.mapEntries n (fun x => x.1.neighborCountAt x.2 ts types)
    (fun b => ((walkEdges b.edges types).filter (liveB ts)).length) (by
      intro it hit x hx hxn
      obtain ⟨xs, ht⟩ := (h.ok it hit).tables hx
      refine ht.neighborCountAt hwm (hs it hit x.1 ?_ hxn) ts hts types
      exact (List.mem_zipIdx_iff_getElem?.1 hx) |> List.mem_of_getElem?)
  simp only [Graph.neighborCountAt1, h1, Option.bind_eq_bind, Option.bind_some]
  have h2' : es.mapM (fun (x : Partition × Nat) =>
      match x with | (p, id) => p.neighborCountAt id ts types) = _ := h2
  rw [h2']
  simp only [Option.bind_some, pure, Option.some.injEq, foundEdges, List.filter_flatMap]
  exact (concat_results items (fun it => it.blks.filter (fun b => b.id = n))
    (fun b => (walkEdges b.edges types).filter (liveB ts))).2.2

theorem removalLe_remLe (x y : Int × GEdge) :
    Spec.removalLe (toTimed x).removed (toTimed y).removed ↔ remLe x.2.removed y.2.removed := by
  simp only [toTimed, remLe]
  by_cases hx : x.2.removed = -1 <;> by_cases hy : y.2.removed = -1 <;>
    simp [hx, hy, Spec.removalLe]

theorem Built.ordered {wm : Option Nat} (h : Built C wm m parts g) (hg : GraphOk C m g items parts)
    (n : Int) (hc : ∀ r ∈ Spec.allRecords parts, ∀ c, r.created = some c → 0 ≤ c)
    (hr : ∀ r ∈ Spec.allRecords parts, r.removed ≠ some 0) (ho : Spec.OrderedLifetimes parts n) :
    ∀ it ∈ items, ∀ b ∈ it.blks, b.id = n → EdgesTimesSorted b.edges := by
  intro it hit b hb hid
  obtain ⟨part, hp, hsrc⟩ := item_of_src hg.src hit
  have hin : ∀ c ∈ part, c ∈ parts.flatten := fun c hcm => List.mem_flatten.2 ⟨part, hp, hcm⟩
  have hrec : ∀ r ∈ part.flatten, r ∈ Spec.allRecords parts := by
    intro r hrm
    obtain ⟨c, hcm, hrc⟩ := List.mem_flatten.1 hrm
    exact List.mem_flatten.2 ⟨c, hin c hcm, hrc⟩
  have hk := timed_calls part (fun c hcm => h.acc c (hin c hcm)) (fun r hrm => hc r (hrec r hrm))
    (fun r hrm => hr r (hrec r hrm))
  have h1 := ho part hp
  rw [hk, List.filter_map, List.pairwise_map, ← hsrc.edges] at h1
  have h2 : (b.edges.map (fun e => (b.id, e))).Sublist
      ((it.blks.flatMap fun b => b.edges.map fun e => (b.id, e)).filter
        ((fun e : Spec.TimedEdge => decide (e.src = n)) ∘ toTimed)) := by
    have h3 := (infix_flatMap (fun b : Blk => b.edges.map fun e => (b.id, e)) hb).sublist.filter
      ((fun e : Spec.TimedEdge => decide (e.src = n)) ∘ toTimed)
    rw [List.filter_eq_self.2] at h3
    · exact h3
    · intro x hx
      obtain ⟨e, -, rfl⟩ := List.mem_map.1 hx
      simp [toTimed, hid]
  have h4 := h1.sublist h2
  rw [List.pairwise_map] at h4
  refine h4.imp ?_
  intro x y hxy ht
  obtain ⟨h5, h6⟩ := hxy ht
  exact ⟨h5, (removalLe_remLe (b.id, x) (b.id, y)).1 h6⟩

/-- If, partition by partition, the edges of a node and type are given with non-decreasing creation
and removal times, the count at a 32-bit timestamp is the number of neighbours returned.  Missing for
the full property: other orders of the edges (`C06_order_refuted`: the converter's own sort order is
not enough) and larger timestamps (`C06_timestamp_refuted`). -/
theorem C06_count_partial {C : WeightCodec} {wm : Option Nat} {m : Meta}
    {parts : List (List (List Rec))} {g : Graph} (h : Built C wm m parts g) (hwm : 0 ≤ m.watermark)
    (reqs : List (Int × Int)) (types : List Int)
    (hts : ∀ q ∈ reqs, -(2 ^ 31) ≤ q.2 ∧ q.2 < 2 ^ 31)
    (ho : ∀ q ∈ reqs, Spec.OrderedLifetimes parts q.1)
    (hc : ∀ r ∈ Spec.allRecords parts, ∀ c, r.created = some c → 0 ≤ c)
    (hr : ∀ r ∈ Spec.allRecords parts, r.removed ≠ some 0) :
    ∃ nbrs counts, g.fullNeighbor (reqs.map (·.1)) (some (reqs.map (·.2))) types = some (nbrs, counts) ∧
      g.neighborCountAt (reqs.map (·.1)) (reqs.map (·.2)) types = some counts := by
  obtain ⟨items, hg, -⟩ := h.graphOk
  have hz : (reqs.map (·.1)).zip (reqs.map (·.2)) = reqs := by
    clear hts ho
    induction reqs with
    | nil => rfl
    | cons a l ih => simp [ih]
  refine ⟨reqs.flatMap fun q => ((foundSeen items q.1 types).filter (liveB q.2)).map gnbr,
    reqs.map fun q => ((foundSeen items q.1 types).filter (liveB q.2)).length, ?_, ?_⟩
  · simp only [Graph.fullNeighbor, hz]
    rw [mapM_some_map _ (fun q : Int × Int => (((foundSeen items q.1 types).filter (liveB q.2)).map gnbr,
      ((foundSeen items q.1 types).filter (liveB q.2)).length)) reqs
      (fun q _ => hg.fullNeighborAt1 hwm q.1 q.2 types)]
    simp [List.flatMap_def, Function.comp_def]
  · simp only [Graph.neighborCountAt, hz]
    rw [mapM_some_map _ (fun q : Int × Int => ((foundEdges items q.1 types).filter (liveB q.2)).length) reqs
      (fun q hq => hg.neighborCountAt1 hwm q.1 q.2 (hts q hq) types
        (h.ordered hg q.1 hc hr (ho q hq)))]
    congr 1
    apply List.map_congr_left
    intro q _
    have := congrArg List.length (filter_noWeight _ _ q.2 (foundSeen_noWeight items q.1 types))
    simpa using this.symm

instance (a b : Option Int) : Decidable (Spec.removalLe a b) := by
  cases a <;> cases b <;> simp only [Spec.removalLe] <;> infer_instance

/-- Edges of node 1: of type 0 with lifetimes [1, 5) and [2, ∞), of type 1 with [4, 8). -/
def C06_example : List (List (List Rec)) :=
  [[[⟨1, -1, 0, 1, some 1, none, []⟩, ⟨1, 3, 0, 9, none, some 5, []⟩, ⟨1, 2, 0, 7, some 2, none, []⟩,
     ⟨1, 4, 1, 5, some 4, some 8, []⟩]]]

instance (parts : List (List (List Rec))) (n : Int) : Decidable (Spec.OrderedLifetimes parts n) := by
  unfold Spec.OrderedLifetimes; infer_instance

/-- Non-vacuity. -/
example : ∃ g, Built intCodec (some 9) ⟨0, 0, 9⟩ C06_example g ∧
    ∃ nbrs counts, g.fullNeighbor [1, 1] (some [5, 4]) [0, 1] = some (nbrs, counts) ∧
      g.neighborCountAt [1, 1] [5, 4] [0, 1] = some counts ∧ counts = [2, 3] := by
  obtain ⟨g, hg, hb⟩ := built_of_check (wm := some 9) (m := ⟨0, 0, 9⟩) (parts := C06_example)
    (by decide +kernel)
  obtain ⟨nbrs, counts, h1, h2⟩ := C06_count_partial hb (by decide) [(1, 5), (1, 4)] [0, 1]
    (by decide) (by decide +kernel) (by
      intro r hr c hc
      have : ∀ r ∈ Spec.allRecords C06_example, 0 ≤ r.created.getD 0 := by decide +kernel
      simpa [hc] using this r hr) (by decide +kernel)
  refine ⟨g, hb, nbrs, counts, h1, h2, ?_⟩
  have : (graphOf intCodec (some 9) ⟨0, 0, 9⟩ C06_example).bind
      (fun g => g.neighborCountAt [1, 1] [5, 4] [0, 1]) = some [2, 3] := by decide +kernel
  rw [hg] at this
  simp only [List.map_cons, List.map_nil] at h2
  exact Option.some.inj (h2.symm.trans this)

/-- Three edges of node 1 in the order the JSON decoder sorts them (type, creation time, removal
time): created at 0, 1, 2 and removed at 10, 3, never. -/
def C06_order : List (List (List Rec)) :=
  [[[⟨1, -1, 0, 1, none, none, []⟩, ⟨1, 2, 0, 1, some 0, some 10, []⟩, ⟨1, 3, 0, 1, some 1, some 3, []⟩,
     ⟨1, 4, 0, 1, some 2, none, []⟩]]]

/-- At time 5 two neighbours are returned but three are counted. -/
theorem C06_order_refuted : ∃ g, Built intCodec (some 9) ⟨0, 0, 9⟩ C06_order g ∧
    g.fullNeighbor [1] (some [5]) [0] = some ([⟨2, 0, 1⟩, ⟨4, 0, 1⟩], [2]) ∧
    g.neighborCountAt [1] [5] [0] = some [3] := by
  obtain ⟨g, hg, hb⟩ := built_of_check (wm := some 9) (m := ⟨0, 0, 9⟩) (parts := C06_order)
    (by decide +kernel)
  refine ⟨g, hb, ?_⟩
  have : (graphOf intCodec (some 9) ⟨0, 0, 9⟩ C06_order).map
      (fun g => (g.fullNeighbor [1] (some [5]) [0], g.neighborCountAt [1] [5] [0])) =
      some (some ([⟨2, 0, 1⟩, ⟨4, 0, 1⟩], [2]), some [3]) := by decide +kernel
  rw [hg] at this
  exact Prod.mk.inj (Option.some.inj this)

/-- One edge of node 1, with lifetime [0, 1). -/
def C06_late : List (List (List Rec)) :=
  [[[⟨1, -1, 0, 1, none, none, []⟩, ⟨1, 2, 0, 1, some 0, some 1, []⟩]]]

/-- At time 3000000000, which does not fit an `int`, the edge is not returned but counted. -/
theorem C06_timestamp_refuted : ∃ g, Built intCodec (some 9) ⟨0, 0, 9⟩ C06_late g ∧
    Spec.OrderedLifetimes C06_late 1 ∧
    g.fullNeighbor [1] (some [3000000000]) [0] = some ([], [0]) ∧
    g.neighborCountAt [1] [3000000000] [0] = some [1] := by
  obtain ⟨g, hg, hb⟩ := built_of_check (wm := some 9) (m := ⟨0, 0, 9⟩) (parts := C06_late)
    (by decide +kernel)
  refine ⟨g, hb, by decide +kernel, ?_⟩
  have : (graphOf intCodec (some 9) ⟨0, 0, 9⟩ C06_late).map
      (fun g => (g.fullNeighbor [1] (some [3000000000]) [0], g.neighborCountAt [1] [3000000000] [0])) =
      some (some ([], [0]), some [1]) := by decide +kernel
  rw [hg] at this
  exact Prod.mk.inj (Option.some.inj this)

end DeepGNN
