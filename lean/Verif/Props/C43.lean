import Verif.Proofs.Ppr
import Verif.Proofs.Distribute
import Verif.Props.C42

/-
C43: approximate PPR scores are bounded and complete.
-/

namespace DeepGNN

open Ppr

variable {C : WeightCodec} {wm : Option Nat} {m : Meta} {parts : List (List (List Rec))} {g : Graph}

theorem C43_bestRow {count : Nat} {default : Int × Rat} {p p' row : List (Int × Rat)} (h : p'.Perm p)
    (hb : Spec.BestRow count default p' row) : Spec.BestRow count default p row := by
  obtain ⟨chosen, rest, h1, h2, h3, h4, h5⟩ := hb
  rw [h.length_eq] at h2 h5
  exact ⟨chosen, rest, h1.trans h, h2, h3, h4, h5⟩

/-- C43, result (partial: scores are exact, no timestamps, at least one result is asked for, and the types have no gap, C03): whenever
`ppr_neighbors` returns, there is a row of `count` entries for every input node. Its scores come from a vector that is not negative, sums
up to at most 1 and satisfies the equation of personalized PageRank with an error below `alpha * eps` per outgoing edge; the row lists
the `count` best entries of that vector. The order in which maps list their entries does not matter. -/
theorem C43_scores_partial (h : Built C wm m parts g) {types : List Int} (hgap : ∀ n, Spec.NoGap parts n types) {alpha eps : Rat}
    (ha : 0 < alpha) (ha1 : alpha ≤ 1) (he : 0 < eps) {count : Nat} (hc : 0 < count) {default : Int × Rat}
    {order : Nat → List (Int × Rat) → List (Int × Rat)} (ho : ∀ i l, (order i l).Perm l) {nodes : List Int} {fuel : Nat}
    {rows : List (List (Int × Rat))} (hr : ppr g nodes types count alpha eps default order fuel = some rows) :
    rows.length = nodes.length ∧ ∀ (i : Nat) (n : Int) (row : List (Int × Rat)), nodes[i]? = some n → rows[i]? = some row →
      row.length = count ∧ ∃ p, Spec.ApproxPageRank (fun n => (Spec.neighbors parts n types).map (·.dst)) n alpha eps p ∧
        Spec.mass p ≤ 1 ∧ Spec.BestRow count default p row := by
  have hans := answers h types hgap
  generalize hN : (fun n => (Spec.neighbors parts n types).map (·.dst)) = N at hans
  rw [ppr, Option.bind_eq_some_iff] at hr
  obtain ⟨ss, h1, h2⟩ := hr
  obtain ⟨⟨j, hj⟩, h3⟩ := loop_sound hans ⟨by simp, by simp, by simp⟩ h1
  have h4 := mapM_eq_map h2
  have hlen : ss.length = nodes.length := by rw [hj]; simp
  refine ⟨by rw [h4.2]; simp [hlen], ?_⟩
  intro i n row hn hrow
  rw [h4.2, List.getElem?_map, Option.map_eq_some_iff] at hrow
  obtain ⟨⟨x, i'⟩, hx, hrow⟩ := hrow
  have h5 := h4.1 _ (List.mem_of_getElem? hx)
  rw [hrow] at h5
  rw [List.getElem?_zipIdx, Option.map_eq_some_iff] at hx
  obtain ⟨x', hx, e⟩ := hx
  simp only [Prod.mk.injEq, Nat.zero_add] at e
  obtain ⟨rfl, rfl⟩ := e
  have hq := h3 _ (List.mem_of_getElem? hx)
  rw [hj, List.map_map, List.getElem?_map, hn, Option.map_some, Option.some.injEq, Function.comp] at hx
  obtain ⟨least, h0, h6, h7⟩ : ∃ least : Rat, 0 < least ∧ least ≤ alpha ∧ least ≤ alpha * eps := by
    have hm : 0 < alpha * eps := Rat.mul_pos ha he
    by_cases h : alpha ≤ alpha * eps
    · exact ⟨alpha, ha, Rat.le_refl, h⟩
    · exact ⟨alpha * eps, hm, by grind, Rat.le_refl⟩
  have hinv : Inv N n alpha eps least x' := by
    rw [← hx]
    exact inv_iterN (Rat.le_of_lt ha) ha1 (Rat.le_of_lt he) h7 j (inv_init (Rat.le_of_lt ha) h6)
  obtain ⟨l, h8, h9⟩ := row_spec hc default (order i x'.p)
  simp only at h5
  rw [h8, Option.some.injEq] at h5
  subst h5
  have hbest := C43_bestRow (ho i x'.p) h9
  refine ⟨?_, x'.p, ⟨hinv.keys, hinv.pos, fun u => value x'.r u, fun u => ⟨?_, ?_⟩⟩, ?_, hbest⟩
  · obtain ⟨chosen, rest, -, h10, -, -, rfl⟩ := hbest
    rw [List.length_append, List.length_replicate]
    omega
  · have h10 := (value_le_mass (l := x'.r) u hinv.rest).1
    rcases hinv.small u (by rw [hq]; simp) with h11 | h11
    · exact Or.inl h11
    · by_cases h12 : value x'.r u = 0
      · exact Or.inl h12
      · exact Or.inr ⟨by grind, h11⟩
  · rw [score_value u hinv.keys]
    exact hinv.rank u
  · have h10 := hinv.total
    have h11 := mass_nonneg hinv.rest
    apply Rat.not_lt.1
    intro h12
    have h13 := Rat.mul_lt_mul_of_pos_left h12 ha
    grind

/-- C43, termination: `ppr_neighbors` returns for `0 < alpha ≤ 1` and `0 < eps`, on all graphs. -/
theorem C43_terminates (h : Built C wm m parts g) {types : List Int} (hgap : ∀ n, Spec.NoGap parts n types) {alpha eps : Rat}
    (ha : 0 < alpha) (ha1 : alpha ≤ 1) (he : 0 < eps) {count : Nat} (hc : 0 < count) (default : Int × Rat)
    (order : Nat → List (Int × Rat) → List (Int × Rat)) (nodes : List Int) :
    ∃ fuel rows, ppr g nodes types count alpha eps default order fuel = some rows := by
  have hans := answers h types hgap
  obtain ⟨fuel, hf⟩ := iterN_all (N := fun n => (Spec.neighbors parts n types).map (·.dst)) ha ha1 he nodes
  obtain ⟨ss, hss⟩ := loop_complete hans fuel (c := ⟨[], []⟩) (ss := nodes.map fun n => ⟨[], [(n, alpha)], [n]⟩)
    ⟨by simp, by simp, by simp⟩ (by
      intro x hx
      obtain ⟨n, hn, rfl⟩ := List.mem_map.1 hx
      exact hf n hn)
  refine ⟨fuel, ?_⟩
  rw [ppr, hss, Option.bind_some]
  generalize ss.zipIdx = l
  induction l with
  | nil => exact ⟨[], rfl⟩
  | cons x l ih =>
    obtain ⟨rows, hrows⟩ := ih
    obtain ⟨r, hr, -⟩ := row_spec hc default (order x.2 x.1.p)
    exact ⟨r :: rows, by rw [List.mapM_cons, hr, hrows]; rfl⟩

/-- On a graph with a cycle: node 1 is best, node 2 comes before it; node 9 has no edges and the default fills its row. -/
example : ∃ g, Built intCodec none ⟨0, 0, -1⟩ C41_example g ∧ (∀ n, Spec.NoGap C41_example n [0]) ∧
    ppr g [1, 9] [0] 2 (1 / 2) (1 / 4) (-1, 0) (fun _ l => l) 20 =
      some [[(2, 1 / 8), (1, 1 / 2)], [(9, 1 / 2), (-1, 0)]] := by
  obtain ⟨g, hg, hb⟩ := built_of_check (wm := none) (m := ⟨0, 0, -1⟩) (parts := C41_example) (by decide +kernel)
  have h1 : (graphOf intCodec none ⟨0, 0, -1⟩ C41_example).bind (fun g => ppr g [1, 9] [0] 2 (1 / 2) (1 / 4) (-1, 0)
      (fun _ l => l) 20) = some [[(2, 1 / 8), (1, 1 / 2)], [(9, 1 / 2), (-1, 0)]] := by decide +kernel
  rw [hg] at h1
  exact ⟨g, hb, fun n => C41_example_gap [0] n (by decide), h1⟩

/-- No result asked for: the code looks at the top of an empty queue. -/
theorem C43_zero_refuted : ∃ g, Built intCodec none ⟨0, 0, -1⟩ C41_example g ∧
    ∀ fuel, ppr g [9] [0] 0 (1 / 2) (1 / 4) (-1, 0) (fun _ l => l) fuel = none := by
  obtain ⟨g, hg, hb⟩ := built_of_check (wm := none) (m := ⟨0, 0, -1⟩) (parts := C41_example) (by decide +kernel)
  have h1 : (graphOf intCodec none ⟨0, 0, -1⟩ C41_example).bind (fun g => lookupLists g [0] ⟨[], []⟩ [9]) =
    some ⟨[(9, 0)], [(9, [])]⟩ := by decide +kernel
  rw [hg, Option.bind_some] at h1
  refine ⟨g, hb, ?_⟩
  intro fuel
  rw [ppr, List.map_cons, List.map_nil]
  cases fuel with
  | zero => rfl
  | succ k =>
    have h2 : unique (List.flatMap (·.q) [(⟨[], [(9, 1 / 2)], [9]⟩ : Push)]) = [9] := rfl
    have h3 : step (1 / 2) (1 / 4) ⟨[(9, 0)], [(9, [])]⟩ ⟨[], [(9, 1 / 2)], [9]⟩ = ⟨[(9, 1 / 2)], [(9, 0)], []⟩ := rfl
    rw [loop, if_neg (by decide +kernel), h2, h1, Option.bind_some, List.map_cons, List.map_nil, h3]
    cases k with
    | zero => rfl
    | succ k => rfl

/-- Node 1 has two edges with lifetimes. -/
def C43_temporal : List (List (List Rec)) :=
  [[[⟨1, -1, 0, 1, none, none, []⟩, ⟨1, 2, 0, 1, some 0, none, []⟩, ⟨1, 3, 0, 1, some 0, none, []⟩]]]

/-- With timestamps the first query already reads behind the end of the timestamps: node 1 has one timestamp and two neighbours. -/
theorem C43_timestamps_refuted : ∃ g, Built intCodec (some 9) ⟨0, 0, 9⟩ C43_temporal g ∧
    firstLookupAt g [1] [5] [0] = none := by
  obtain ⟨g, hg, hb⟩ := built_of_check (wm := some 9) (m := ⟨0, 0, 9⟩) (parts := C43_temporal) (by decide +kernel)
  have h1 : (graphOf intCodec (some 9) ⟨0, 0, 9⟩ C43_temporal).bind (fun g => firstLookupAt g [1] [5] [0]) = none := by decide +kernel
  have h2 : (graphOf intCodec (some 9) ⟨0, 0, 9⟩ C43_temporal).bind (fun g => g.fullNeighbor [1] (some [5]) [0]) =
    some ([⟨2, 0, 1⟩, ⟨3, 0, 1⟩], [2]) := by decide +kernel
  rw [hg] at h1
  exact ⟨g, hb, h1⟩

end DeepGNN
