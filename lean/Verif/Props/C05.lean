import Verif.Proofs.Temporal
import Verif.Props.C04

/-
C05 Temporal neighbours are the snapshot at the timestamp.
-/

namespace DeepGNN

theorem filter_noWeight (l k : List GEdge) (t : Int) (h : l.map noWeight = k.map noWeight) :
    (l.filter (liveB t)).map noWeight = (k.filter (liveB t)).map noWeight := by
  have key : ∀ l : List GEdge, (l.filter (liveB t)).map noWeight = (l.map noWeight).filter (liveB t) := by
    intro l; rw [List.filter_map]; rfl
  rw [key, key, h]

/-- The edges returned for a node at time `t` are exactly its edges of the requested types that
exist at `t`, in input order.  Assumptions on the input: creation times are not negative and no
removal time is 0.  Missing for the full property: requests with a gap in the types (as in C03),
weights with inexact sums (as in C02), and removal at time 0, see `C05_removed_at_zero_refuted`. -/
theorem C05_snapshot_partial {C : WeightCodec} {wm : Option Nat} {m : Meta}
    {parts : List (List (List Rec))} {g : Graph} (h : Built C wm m parts g) (hwm : 0 ≤ m.watermark)
    (n t : Int) (types : List Int) (ht : types.Pairwise (· < ·))
    (hgap : ∀ x ∈ Spec.edgeRecords parts, ∀ y ∈ Spec.edgeRecords parts, x.src = n → y.src = n →
      y.typ ∈ types → (∃ t ∈ types, x.typ < t ∧ t < y.typ) → x.typ ∈ types)
    (hc : ∀ r ∈ Spec.allRecords parts, ∀ c, r.created = some c → 0 ≤ c)
    (hr : ∀ r ∈ Spec.allRecords parts, r.removed ≠ some 0) :
    ∃ nbrs, g.fullNeighbor [n] (some [t]) types =
        some (nbrs, [(Spec.neighborsAt parts n t types).length]) ∧
      nbrs.map (fun x => (x.dst, x.typ)) =
        (Spec.neighborsAt parts n t types).map (fun x => (x.dst, x.typ)) ∧
      (Spec.ExactWeights parts → nbrs = Spec.neighborsAt parts n t types) := by
  obtain ⟨items, hg, -⟩ := h.graphOk
  have h1 : foundEdges items n types = inputEdges parts n types := by
    apply hg.found_eq n types ht
    intro x hx hxn y hy hyn hyt hex
    obtain ⟨r, hr, h1, h2⟩ := mem_input_record hx
    obtain ⟨r', hr', h1', h2'⟩ := mem_input_record hy
    rw [← h2]
    exact hgap r hr r' hr' (by rw [h1, hxn]) (by rw [h1', hyn]) (by rw [h2']; exact hyt)
      (by rw [h2, h2']; exact hex)
  have h2 := filter_noWeight _ _ t (foundSeen_noWeight items n types)
  rw [h1] at h2
  have h3 := inputEdges_neighborsAt parts n t types h.acc hc hr
  refine ⟨((foundSeen items n types).filter (liveB t)).map gnbr, ?_, ?_, ?_⟩
  · have := congrArg List.length h2
    simp only [List.length_map] at this
    simp [Graph.fullNeighbor, hg.fullNeighborAt1 hwm, this, ← h3]
  · rw [← h3]
    have := congrArg (List.map fun e : GEdge => (e.dst, e.typ)) h2
    simpa [Function.comp_def, noWeight, gnbr] using this
  · intro hw
    rw [hg.seen_exact hw, h1, h3]

/-- Several nodes with one timestamp each: the answers are concatenated in request order. -/
theorem C05_batch {C : WeightCodec} {wm : Option Nat} {m : Meta}
    {parts : List (List (List Rec))} {g : Graph} (h : Built C wm m parts g) (hwm : 0 ≤ m.watermark)
    (reqs : List (Int × Int)) (types : List Int) :
    ∃ answers : Int × Int → List Nbr,
      (∀ q, g.fullNeighbor [q.1] (some [q.2]) types = some (answers q, [(answers q).length])) ∧
      g.fullNeighbor (reqs.map (·.1)) (some (reqs.map (·.2))) types =
        some (reqs.flatMap answers, reqs.map fun q => (answers q).length) := by
  obtain ⟨items, hg, -⟩ := h.graphOk
  refine ⟨fun q => ((foundSeen items q.1 types).filter (liveB q.2)).map gnbr, ?_, ?_⟩
  · intro q; simp [Graph.fullNeighbor, hg.fullNeighborAt1 hwm]
  · have hz : (reqs.map (·.1)).zip (reqs.map (·.2)) = reqs := by
      induction reqs with
      | nil => rfl
      | cons a l ih => simp [ih]
    simp only [Graph.fullNeighbor, hz]
    rw [mapM_some_map _ (fun q : Int × Int => (((foundSeen items q.1 types).filter (liveB q.2)).map gnbr,
      ((foundSeen items q.1 types).filter (liveB q.2)).length)) reqs
      (fun q _ => hg.fullNeighborAt1 hwm q.1 q.2 types)]
    simp [List.flatMap_def, Function.comp_def]

/-- A temporal graph: node 1 exists from 1 on; its edges to 2 (from 1, forever), to 3 (from 2 until 5)
and to 4 (from 4 until 8). -/
def C05_example : List (List (List Rec)) :=
  [[[⟨1, -1, 0, 1, some 1, none, []⟩, ⟨1, 2, 0, 7, none, none, []⟩, ⟨1, 3, 0, 9, some 2, some 5, []⟩,
     ⟨1, 4, 1, 5, some 4, some 8, []⟩]]]

example : ∃ g, Built intCodec (some 9) ⟨0, 0, 9⟩ C05_example g ∧
    ∃ nbrs, g.fullNeighbor [1] (some [5]) [0, 1] = some (nbrs, [2]) ∧
      nbrs.map (fun x => (x.dst, x.typ)) = [(2, 0), (4, 1)] := by
  obtain ⟨g, -, hg⟩ := built_of_check (wm := some 9) (m := ⟨0, 0, 9⟩) (parts := C05_example)
    (by decide +kernel)
  obtain ⟨nbrs, h1, h2, -⟩ := C05_snapshot_partial hg (by decide) 1 5 [0, 1] (by decide)
    (by decide +kernel) (by
      intro r hr c hc
      have : ∀ r ∈ Spec.allRecords C05_example, 0 ≤ r.created.getD 0 := by decide +kernel
      simpa [hc] using this r hr) (by decide +kernel)
  exact ⟨g, hg, nbrs,
    by rw [h1, show (Spec.neighborsAt C05_example 1 5 [0, 1]).length = 2 by decide +kernel],
    by rw [h2]; decide +kernel⟩

/-- An edge created and removed at time 0. -/
def C05_zero : List (List (List Rec)) :=
  [[[⟨1, -1, 0, 1, none, none, []⟩, ⟨1, 2, 0, 7, some 0, some 0, []⟩]]]

/-- An edge removed at time 0 is taken as never removed: it is still returned at time 5. -/
theorem C05_removed_at_zero_refuted : ∃ g, Built intCodec (some 9) ⟨0, 0, 9⟩ C05_zero g ∧
    Spec.neighborsAt C05_zero 1 5 [0] = [] ∧
    g.fullNeighbor [1] (some [5]) [0] = some ([⟨2, 0, 7⟩], [1]) := by
  obtain ⟨g, hg, hb⟩ := built_of_check (wm := some 9) (m := ⟨0, 0, 9⟩) (parts := C05_zero)
    (by decide +kernel)
  refine ⟨g, hb, by decide +kernel, ?_⟩
  have : (graphOf intCodec (some 9) ⟨0, 0, 9⟩ C05_zero).bind (fun g => g.fullNeighbor [1] (some [5]) [0]) =
      some ([⟨2, 0, 7⟩], [1]) := by decide +kernel
  rw [hg] at this; exact this

end DeepGNN
