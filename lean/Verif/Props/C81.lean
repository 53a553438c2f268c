import Verif.Proofs.Gat
import Verif.Props.C40
import Verif.Props.C79

/-
C81: the embedding that the GAT and GCN models compute for a node.
-/

namespace DeepGNN

open Sage Gat Arith Analysis SubGraph

variable {C : WeightCodec} {wm : Option Nat} {m : Meta} {parts : List (List (List Rec))} {g : Graph}

namespace Gat

theorem subGraph_hood (h : Built C wm m parts g) (src types : List Int) (hgap : ∀ n, Spec.NoGap parts n types)
    (hsym : Spec.Symmetric parts types) {hood : Int → List Int} (hhood : ∀ a, Spec.IsHood parts types a (hood a)) (k : Nat) :
    ∃ (nodes : List Int) (edges : List (Nat × Nat)) (idx : List Nat),
      subGraphEdges g src types (k + 1) true true = some (nodes, edges, idx) ∧ nodes.Pairwise (· < ·) ∧
      (∀ n, n ∈ nodes ↔ Spec.Within parts types src (k + 1) n) ∧
      idx.map (fun i => nodes[i]?) = src.map some ∧
      (∀ e ∈ edges, e.1 < nodes.length ∧ e.2 < nodes.length) ∧
      (∀ i < nodes.length, Spec.Within parts types src k (nodes.getD i 0) →
        (cols edges i).map (fun j => nodes.getD j 0) = hood (nodes.getD i 0)) := by
  obtain ⟨nodes, edges, idx, h1, h2, h3, h4, h5, _⟩ := C40_edges_partial h src types hgap k true true
  have hrange : ∀ e ∈ edges, e.1 < nodes.length ∧ e.2 < nodes.length := by
    intro e he
    obtain ⟨a, b, ha, hb, _⟩ := (h5 e.1 e.2).1 he
    exact ⟨(List.getElem?_eq_some_iff.1 ha).1, (List.getElem?_eq_some_iff.1 hb).1⟩
  refine ⟨nodes, edges, idx, h1, h2, h3, h4, hrange, ?_⟩
  have hsorted : edges.Pairwise (fun a b => rowLt a b = true) := by
    unfold subGraphEdges at h1
    obtain ⟨r, _, hr2⟩ := Option.map_eq_some_iff.1 h1
    have he : edges = edgeList r.1.length true true r.2.1 := by
      have := (Prod.mk.inj (Prod.mk.inj hr2).2).1
      exact this.symm
    rw [he]
    exact sorted_uniqueRows _
  intro i hi hw
  have hget : ∀ j < nodes.length, nodes[j]? = some (nodes.getD j 0) := by
    intro j hj
    rw [List.getD_eq_getElem?_getD, List.getElem?_eq_getElem hj]; rfl
  apply sorted_unique _ (hhood _).1
  · intro b
    rw [(hhood _).2, List.mem_map]
    constructor
    · rintro ⟨j, hj, rfl⟩
      have hjn := cols_lt hrange hj
      obtain ⟨a, b, ha, hb, hab⟩ := (h5 i j).1 (mem_cols.1 hj)
      rw [hget i hi] at ha
      rw [hget j hjn] at hb
      obtain rfl := Option.some.inj ha
      obtain rfl := Option.some.inj hb
      rcases hab with hab | ⟨_, hab⟩ | ⟨_, hab⟩
      · exact .inr hab.2
      · exact .inr (hsym _ _ hab.2)
      · exact .inl hab.symm
    · rintro (rfl | hb)
      · exact ⟨i, mem_cols.2 ((h5 i i).2 ⟨_, _, hget i hi, hget i hi, .inr (.inr ⟨rfl, rfl⟩)⟩), rfl⟩
      · have hmem : b ∈ nodes := (h3 b).2 (within_edge ⟨hw, hb⟩)
        obtain ⟨j, hj⟩ := List.getElem?_of_mem hmem
        have hjn := (List.getElem?_eq_some_iff.1 hj).1
        have hjb : nodes.getD j 0 = b := by rw [hget j hjn] at hj; exact Option.some.inj hj
        exact ⟨j, mem_cols.2 ((h5 i j).2 ⟨_, b, hget i hi, hj, .inl ⟨hw, hb⟩⟩), hjb⟩
  · rw [List.pairwise_map]
    refine (cols_sorted i hsorted).imp_of_mem ?_
    intro a b ha hb hab
    have ha' := cols_lt hrange ha
    have hb' := cols_lt hrange hb
    have := List.pairwise_iff_getElem.1 h2 a b ha' hb' hab
    rw [List.getD_eq_getElem?_getD, List.getD_eq_getElem?_getD, List.getElem?_eq_getElem ha', List.getElem?_eq_getElem hb']
    exact this

theorem mask_fold (n : Nat) : ∀ (idx : List Nat) (m : List Bool), m.length = n → (idx.foldl (fun m i => m.set i true) m).length = n ∧
    ∀ i < n, (idx.foldl (fun m i => m.set i true) m).getD i false = (m.getD i false || decide (i ∈ idx))
  | [], m, hm => by simp [hm]
  | x :: xs, m, hm => by
    obtain ⟨h1, h2⟩ := mask_fold n xs (m.set x true) (by rw [List.length_set, hm])
    refine ⟨h1, fun i hi => ?_⟩
    rw [List.foldl_cons, h2 i hi]
    by_cases hx : x = i
    · subst hx
      simp [List.getD_eq_getElem?_getD, hm, hi]
    · have hx' : i ≠ x := fun e => hx e.symm
      simp [List.getD_eq_getElem?_getD, hx, hx']

theorem booleanMask_map {β : Type} (f : Nat → β) {n : Nat} {mask : List Bool} (h : mask.length = n) :
    booleanMask ((List.range n).map f) mask = ((List.range n).filter fun i => mask.getD i false).map f := by
  have hm : mask = (List.range n).map fun i => mask.getD i false := by
    apply List.ext_getElem
    · simp [h]
    · intro i h1 h2
      simp [List.getD_eq_getElem?_getD, List.getElem?_eq_getElem h1]
  unfold booleanMask
  conv => lhs; rw [hm]
  rw [List.zip_map', List.filterMap_map]
  generalize List.range n = l
  induction l with
  | nil => rfl
  | cons a l ih =>
    rw [List.filterMap_cons, List.filter_cons]
    cases hb : mask.getD a false
    · rw [if_neg (by simp), ← ih]
      simp only [Function.comp_apply, hb]; rfl
    · rw [if_pos rfl, List.map_cons, ← ih]
      simp only [Function.comp_apply, hb]; rfl

/-- The rows kept by the mask. -/
theorem masked {β : Type} {nodes src : List Int} {idx : List Nat} (hs : nodes.Pairwise (· < ·)) (hidx : idx.map (fun i => nodes[i]?) = src.map some)
    (row : Nat → β) (E : Int → β) (hrow : ∀ i < nodes.length, nodes.getD i 0 ∈ src → row i = E (nodes.getD i 0)) :
    let mask := idx.foldl (fun m i => m.set i true) (List.replicate nodes.length false)
    booleanMask ((List.range nodes.length).map row) mask = (booleanMask nodes mask).map E ∧
      (booleanMask nodes mask).Pairwise (· < ·) ∧ ∀ n, n ∈ booleanMask nodes mask ↔ n ∈ src := by
  intro mask
  obtain ⟨hl, hg⟩ := mask_fold nodes.length idx (List.replicate nodes.length false) (by simp)
  have hnodes : nodes = (List.range nodes.length).map fun i => nodes.getD i 0 := by
    apply List.ext_getElem
    · simp
    · intro i h1 h2
      simp [List.getD_eq_getElem?_getD, List.getElem?_eq_getElem h1]
  have hget : ∀ j < nodes.length, nodes[j]? = some (nodes.getD j 0) := by
    intro j hj
    rw [List.getD_eq_getElem?_getD, List.getElem?_eq_getElem hj]; rfl
  have hin : ∀ i < nodes.length, (mask.getD i false = true ↔ nodes.getD i 0 ∈ src) := by
    intro i hi
    show (idx.foldl (fun m i => m.set i true) (List.replicate nodes.length false)).getD i false = true ↔ _
    rw [hg i hi]
    have : (List.replicate nodes.length false).getD i false = false := by
      simp [List.getD_eq_getElem?_getD, hi]
    rw [this, Bool.false_or, decide_eq_true_iff]
    constructor
    · intro h
      have : nodes[i]? ∈ src.map some := hidx ▸ List.mem_map_of_mem h
      rw [hget i hi] at this
      obtain ⟨x, hx, hxe⟩ := List.mem_map.1 this
      rw [← Option.some.inj hxe]; exact hx
    · intro h
      have : some (nodes.getD i 0) ∈ idx.map (fun i => nodes[i]?) := hidx ▸ List.mem_map_of_mem h
      obtain ⟨j, hj, hje⟩ := List.mem_map.1 this
      have h1 := idxOf_unique hs hje
      have h2 := idxOf_unique hs (hget i hi)
      rw [← h2, h1]; exact hj
  have hids : booleanMask nodes mask = ((List.range nodes.length).filter fun i => mask.getD i false).map fun i => nodes.getD i 0 := by
    conv => lhs; rw [hnodes]
    exact booleanMask_map _ hl
  refine ⟨?_, ?_, ?_⟩
  · rw [booleanMask_map _ hl, hids, List.map_map]
    apply List.map_congr_left
    intro i hi
    obtain ⟨h1, h2⟩ := List.mem_filter.1 hi
    have h1' : i < nodes.length := by simpa using h1
    exact hrow i h1' ((hin i h1').1 h2)
  · have : ((List.range nodes.length).map fun i => nodes.getD i 0).Pairwise (· < ·) := by rw [← hnodes]; exact hs
    rw [hids, List.pairwise_map]
    exact (List.pairwise_map.1 this).filter _
  · intro n
    rw [hids, List.mem_map]
    constructor
    · rintro ⟨i, hi, rfl⟩
      obtain ⟨h1, h2⟩ := List.mem_filter.1 hi
      exact (hin i (by simpa using h1)).1 h2
    · intro hn
      have : some n ∈ idx.map (fun i => nodes[i]?) := hidx ▸ List.mem_map_of_mem hn
      obtain ⟨j, _, hj⟩ := List.mem_map.1 this
      have hjn := (List.getElem?_eq_some_iff.1 hj).1
      have hjb : nodes.getD j 0 = n := by rw [hget j hjn] at hj; exact Option.some.inj hj
      exact ⟨j, List.mem_filter.2 ⟨by simpa using hjn, by rw [hin j hjn, hjb]; exact hn⟩, hjb⟩

end Gat

variable {α : Type} [Analysis α]

theorem Gat.within_le {types seeds : List Int} {k l : Nat} (hkl : k ≤ l) {n : Int} (h : Spec.Within parts types seeds k n) :
    Spec.Within parts types seeds l n := by
  obtain ⟨s, hs, j, hj, hp⟩ := h
  exact ⟨s, hs, j, by omega, hp⟩

theorem Gat.within_hood {types seeds : List Int} {hood : Int → List Int} (hhood : ∀ a, Spec.IsHood parts types a (hood a)) {k : Nat} {a b : Int}
    (h : Spec.Within parts types seeds k a) (hb : b ∈ hood a) : Spec.Within parts types seeds (k + 1) b := by
  rcases ((hhood a).2 b).1 hb with rfl | hb
  · exact Gat.within_le (by omega) h
  · exact within_edge ⟨h, hb⟩

theorem Gat.within_seed {types seeds : List Int} {a : Int} (h : a ∈ seeds) : Spec.Within parts types seeds 0 a :=
  ⟨a, h, 0, Nat.le_refl _, .nil a⟩

/-- **C81_gat_partial.** Where every edge has a reverse and two hops or more are asked for, GAT returns every input once, in increasing
order, with the embedding of that node on the whole graph.  The rest of the batch, the order of the inputs and the number of hops do
not matter.  (Missing: graphs in which some edge has no reverse, for which the claim is false, and lists of edge types with a gap.) -/
theorem C81_gat_partial (h : Built C wm m parts g) (inputs types : List Int) (hgap : ∀ n, Spec.NoGap parts n types)
    (hsym : Spec.Symmetric parts types) {hood : Int → List Int} (hhood : ∀ a, Spec.IsHood parts types a (hood a))
    {feat : Int → Vec α} {w d c : Nat} (hfeat : ∀ a, (feat a).length = w)
    {input output : List (Head α)} (hi : input ≠ []) (hin : ∀ x ∈ input, Spec.HeadFits w d x)
    (ho : output ≠ []) (hout : ∀ x ∈ output, Spec.HeadFits (input.length * d) c x) (k : Nat) :
    ∃ ids, gatModel input output g feat types inputs (k + 2) = some (ids, ids.map (Spec.gatEmbedding input output hood feat)) ∧
      ids.Pairwise (· < ·) ∧ ∀ n, n ∈ ids ↔ n ∈ inputs := by
  obtain ⟨nodes, edges, idx, h1, h2, h3, h4, h5, h6⟩ := subGraph_hood h inputs types hgap hsym hhood (k + 1)
  unfold gatModel query
  rw [h1]
  simp only [Option.map_some, Option.bind_some]
  have hfM : ∀ r ∈ nodes.map feat, r.length = w := by
    intro r hr
    obtain ⟨a, _, rfl⟩ := List.mem_map.1 hr
    exact hfeat a
  rw [concat_eq hi hin (by simp) hfM h5]
  simp only [Option.bind_some]
  have hlen : ∀ x xs, (Spec.sideBySide input x xs).length = input.length * d := by
    intro x xs
    unfold Spec.sideBySide
    rw [List.length_flatten, List.map_map, List.map_congr_left (f := List.length ∘ fun h => Spec.attend h x xs) (g := fun _ => d)
      (fun y hy => attend_length (hin y hy) x xs), List.map_const', List.sum_replicate_nat]
  rw [average_eq ho hout (by simp) (by
    intro r hr
    obtain ⟨i, _, rfl⟩ := List.mem_map.1 hr
    exact hlen _ _) h5]
  simp only [Option.map_some]
  have hf : ∀ j < nodes.length, (nodes.map feat).getD j [] = feat (nodes.getD j 0) := fun j hj => getD_map' _ _ hj _ _
  have hone : ∀ i < nodes.length, Spec.Within parts types inputs (k + 1) (nodes.getD i 0) →
      Spec.sideBySide input ((nodes.map feat).getD i []) ((cols edges i).map fun j => (nodes.map feat).getD j []) =
      Spec.sideBySide input (feat (nodes.getD i 0)) ((hood (nodes.getD i 0)).map feat) := by
    intro i hi hw
    rw [hf i hi, ← h6 i hi hw, List.map_map]
    congr 1
    apply List.map_congr_left
    intro j hj
    exact hf j (cols_lt h5 hj)
  obtain ⟨m1, m2, m3⟩ := masked h2 h4 (fun i => Spec.meanOfHeads output
      (((List.range nodes.length).map fun i => Spec.sideBySide input ((nodes.map feat).getD i [])
        ((cols edges i).map fun j => (nodes.map feat).getD j [])).getD i [])
      ((cols edges i).map fun j => ((List.range nodes.length).map fun i => Spec.sideBySide input ((nodes.map feat).getD i [])
        ((cols edges i).map fun j => (nodes.map feat).getD j [])).getD j []))
    (Spec.gatEmbedding input output hood feat) (by
      intro i hi hsrc
      have hw0 : Spec.Within parts types inputs 0 (nodes.getD i 0) := within_seed hsrc
      have hw1 := within_le (Nat.zero_le (k + 1)) hw0
      unfold Spec.gatEmbedding
      simp only
      rw [getD_range _ hi, hone i hi hw1, ← h6 i hi hw1]
      refine congrArg _ ?_
      rw [List.map_map]
      apply List.map_congr_left
      intro j hj
      have hjn := cols_lt h5 hj
      have hjw : Spec.Within parts types inputs (k + 1) (nodes.getD j 0) := by
        refine within_le (by omega) (within_hood hhood hw0 (?_ : nodes.getD j 0 ∈ hood (nodes.getD i 0)))
        rw [← h6 i hi hw1]
        exact List.mem_map_of_mem (f := fun j => nodes.getD j 0) hj
      rw [getD_range _ hjn, hone j hjn hjw]
      rfl)
  refine ⟨_, ?_, m2, m3⟩
  rw [← m1]

/-- **C81_gcn_partial.** Where every edge has a reverse and three hops or more are asked for, GCN returns every input once, in increasing
order, with the embedding of that node on the whole graph.  (Missing: the default of two hops, for which the claim is false, graphs in
which some edge has no reverse, and lists of edge types with a gap.) -/
theorem C81_gcn_partial (h : Built C wm m parts g) (inputs types : List Int) (hgap : ∀ n, Spec.NoGap parts n types)
    (hsym : Spec.Symmetric parts types) {hood : Int → List Int} (hhood : ∀ a, Spec.IsHood parts types a (hood a))
    {feat : Int → Vec α} {w : Nat} (hfeat : ∀ a, (feat a).length = w)
    {w1 w2 : Mat α} (hw1 : ∀ col ∈ w1, col.length = w) (hw2 : ∀ col ∈ w2, col.length = w1.length) (k : Nat) :
    ∃ ids, gcnModel w1 w2 g feat types inputs (k + 3) = some (ids, ids.map (Spec.gcnEmbedding w1 w2 hood feat)) ∧
      ids.Pairwise (· < ·) ∧ ∀ n, n ∈ ids ↔ n ∈ inputs := by
  obtain ⟨nodes, edges, idx, h1, h2, h3, h4, h5, h6⟩ := subGraph_hood h inputs types hgap hsym hhood (k + 2)
  unfold gcnModel query
  rw [h1]
  simp only [Option.map_some, Option.bind_some]
  have hfM : ∀ r ∈ nodes.map feat, r.length = w := by
    intro r hr
    obtain ⟨a, _, rfl⟩ := List.mem_map.1 hr
    exact hfeat a
  rw [gcnNormAdj_eq h5]
  simp only [Option.bind_some]
  rw [gcnConv_eq (c := fun e => mul (rowFactor edges e.1) (rowFactor edges e.2)) hw1 (by simp) hfM h5]
  simp only [Option.bind_some]
  rw [gcnConv_eq (c := fun e => mul (rowFactor edges e.1) (rowFactor edges e.2)) hw2 (by simp) (by
    intro r hr
    obtain ⟨i, _, rfl⟩ := List.mem_map.1 hr
    simp [Spec.weightedSum]) h5]
  simp only [Option.map_some]
  have hf : ∀ j < nodes.length, (nodes.map feat).getD j [] = feat (nodes.getD j 0) := fun j hj => getD_map' _ _ hj _ _
  have hfac : ∀ i < nodes.length, Spec.Within parts types inputs (k + 2) (nodes.getD i 0) →
      (rowFactor edges i : α) = Spec.nodeFactor hood (nodes.getD i 0) := by
    intro i hi hw
    unfold rowFactor Spec.nodeFactor
    rw [← h6 i hi hw, List.map_map]
    rfl
  have hnext : ∀ {l i j : Nat}, l ≤ k + 1 → i < nodes.length → Spec.Within parts types inputs l (nodes.getD i 0) → j ∈ cols edges i →
      Spec.Within parts types inputs (l + 1) (nodes.getD j 0) := by
    intro l i j hl hi hw hj
    refine within_hood hhood hw (?_ : nodes.getD j 0 ∈ hood (nodes.getD i 0))
    rw [← h6 i hi (within_le (by omega) hw)]
    exact List.mem_map_of_mem (f := fun j => nodes.getD j 0) hj
  have hone : ∀ i < nodes.length, Spec.Within parts types inputs (k + 1) (nodes.getD i 0) →
      Spec.weightedSum w1.length ((cols edges i).map fun j => mul (rowFactor edges i) (rowFactor edges j))
        ((cols edges i).map fun j => Spec.linear w1 ((nodes.map feat).getD j [])) =
      Spec.gcnRow w1 hood feat (nodes.getD i 0) := by
    intro i hi hw
    unfold Spec.gcnRow
    rw [← h6 i hi (within_le (by omega) hw), List.map_map, List.map_map]
    congr 1
    · apply List.map_congr_left
      intro j hj
      rw [hfac i hi (within_le (by omega) hw), hfac j (cols_lt h5 hj) (hnext (Nat.le_refl _) hi hw hj)]
      rfl
    · apply List.map_congr_left
      intro j hj
      rw [hf j (cols_lt h5 hj)]
      rfl
  obtain ⟨m1, m2, m3⟩ := masked h2 h4 (fun i => Spec.weightedSum w2.length
      ((cols edges i).map fun j => mul (rowFactor edges i) (rowFactor edges j))
      ((cols edges i).map fun j => Spec.linear w2 (((List.range nodes.length).map fun i =>
        Spec.weightedSum w1.length ((cols edges i).map fun j => mul (rowFactor edges i) (rowFactor edges j))
          ((cols edges i).map fun j => Spec.linear w1 ((nodes.map feat).getD j []))).getD j [])))
    (Spec.gcnEmbedding w1 w2 hood feat) (by
      intro i hi hsrc
      have hw0 : Spec.Within parts types inputs 0 (nodes.getD i 0) := within_seed hsrc
      unfold Spec.gcnEmbedding
      rw [Spec.gcnRow, ← h6 i hi (within_le (by omega) hw0), List.map_map, List.map_map]
      congr 1
      · apply List.map_congr_left
        intro j hj
        rw [hfac i hi (within_le (by omega) hw0), hfac j (cols_lt h5 hj) (within_le (by omega) (hnext (by omega) hi hw0 hj))]
        rfl
      · apply List.map_congr_left
        intro j hj
        have hjn := cols_lt h5 hj
        rw [getD_range _ hjn, hone j hjn (within_le (by omega) (hnext (by omega) hi hw0 hj))]
        rfl)
  refine ⟨_, ?_, m2, m3⟩
  rw [← m1]

/-- Every graph has neighbourhoods. -/
theorem Gat.hood_exists (parts : List (List (List Rec))) (types : List Int) : ∃ hood : Int → List Int, ∀ a, Spec.IsHood parts types a (hood a) := by
  refine ⟨fun a => sortUnique (a :: (Spec.neighbors parts a types).map (·.dst)), fun a => ⟨sortUnique_sorted _, fun b => ?_⟩⟩
  rw [sortUnique_mem, List.mem_cons, mem_dst]

theorem Gat.noGap_one (parts : List (List (List Rec))) (t : Int) (n : Int) : Spec.NoGap parts n [t] := by
  intro x _ y _ _ _ hy ⟨u, hu, h1, h2⟩
  simp only [List.mem_singleton] at hy hu
  omega

/-- Integers for numbers: inverse square roots in thousandths, quotients in thousandths, powers of 2 in units of 1/1024. -/
instance Gat.intAnalysis : Analysis Int where
  toArith := Sage.intArith
  one := 1
  sub := (· - ·)
  div a b := 1000 * a / b
  exp x := 1024 / 2 ^ (-x).toNat
  leaky x := if 0 ≤ x then x else x / 5
  elu x := if 0 ≤ x then x else -1
  rsqrt d := if d = 1 then 1000 else if d = 2 then 707 else if d = 3 then 577 else if d = 4 then 500 else 0
  isInf _ := false

/-- The path 0 - 1 - 2 - 3 with edges in both directions. -/
def C81_path : List (List (List Rec)) :=
  [[[⟨0, -1, 0, 1, none, none, []⟩, ⟨0, 1, 0, 1, none, none, []⟩],
    [⟨1, -1, 0, 1, none, none, []⟩, ⟨1, 0, 0, 1, none, none, []⟩, ⟨1, 2, 0, 1, none, none, []⟩],
    [⟨2, -1, 0, 1, none, none, []⟩, ⟨2, 1, 0, 1, none, none, []⟩, ⟨2, 3, 0, 1, none, none, []⟩],
    [⟨3, -1, 0, 1, none, none, []⟩, ⟨3, 2, 0, 1, none, none, []⟩]]]

/-- Two edges to node 1 and none from it. -/
def C81_directed : List (List (List Rec)) :=
  [[[⟨0, -1, 0, 1, none, none, []⟩, ⟨0, 1, 0, 1, none, none, []⟩],
    [⟨1, -1, 0, 1, none, none, []⟩],
    [⟨2, -1, 0, 1, none, none, []⟩, ⟨2, 1, 0, 1, none, none, []⟩]]]

/-- A head from one number to one. -/
def C81_head : Head Int := ⟨[[1]], [1], 0, [1], 0, [0]⟩

def C81_feat : Int → Vec Int := fun a => [a + 1]

theorem C81_path_symmetric : Spec.Symmetric C81_path [0] := by
  have h : ∀ r ∈ Spec.edgeRecords C81_path, r.typ ∈ [(0 : Int)] →
      ∃ r' ∈ Spec.edgeRecords C81_path, r'.src = r.dst ∧ r'.dst = r.src ∧ r'.typ ∈ [(0 : Int)] := by decide +kernel
  rintro a b ⟨r, hr, rfl, rfl, ht⟩
  exact h r hr ht

/-- The hypotheses of C81_gat_partial and C81_gcn_partial, met; and the embeddings computed. -/
example : ∃ (g : Graph) (hood : Int → List Int), Built intCodec none ⟨0, 0, -1⟩ C81_path g ∧ (∀ n, Spec.NoGap C81_path n [0]) ∧ Spec.Symmetric C81_path [0] ∧
    (∀ a, Spec.IsHood C81_path [0] a (hood a)) ∧ Spec.HeadFits 1 1 C81_head ∧ Spec.HeadFits ([C81_head].length * 1) 1 C81_head ∧
    gatModel [C81_head] [C81_head] g C81_feat [0] [2, 0, 2] 2 = some ([0, 2], [[2425000], [3663000]]) ∧
    gatModel [C81_head] [C81_head] g C81_feat [0] [0] 2 = some ([0], [[2425000]]) ∧
    gcnModel [[1]] [[1]] g C81_feat [0] [0] 3 = some ([0], [[1503152669599]]) ∧
    gcnModel [[1]] [[1]] g C81_feat [0] [2, 0] 3 = some ([0, 2], [[1503152669599], [3102365095072]]) := by
  obtain ⟨g, hg, hb⟩ := built_of_check (wm := none) (m := ⟨0, 0, -1⟩) (parts := C81_path) (by decide +kernel)
  obtain ⟨hood, hh⟩ := hood_exists C81_path [0]
  have h1 : (graphOf intCodec none ⟨0, 0, -1⟩ C81_path).bind (fun g => gatModel [C81_head] [C81_head] g C81_feat [0] [2, 0, 2] 2) =
      some ([0, 2], [[2425000], [3663000]]) := by decide +kernel
  have h2 : (graphOf intCodec none ⟨0, 0, -1⟩ C81_path).bind (fun g => gatModel [C81_head] [C81_head] g C81_feat [0] [0] 2) =
      some ([0], [[2425000]]) := by decide +kernel
  have h3 : (graphOf intCodec none ⟨0, 0, -1⟩ C81_path).bind (fun g => gcnModel [[1]] [[1]] g C81_feat [0] [0] 3) =
      some ([0], [[1503152669599]]) := by decide +kernel
  have h4 : (graphOf intCodec none ⟨0, 0, -1⟩ C81_path).bind (fun g => gcnModel [[1]] [[1]] g C81_feat [0] [2, 0] 3) =
      some ([0, 2], [[1503152669599], [3102365095072]]) := by decide +kernel
  rw [hg] at h1 h2 h3 h4
  exact ⟨g, hood, hb, noGap_one _ 0, C81_path_symmetric, hh, by simp [Spec.HeadFits, C81_head], by simp [Spec.HeadFits, C81_head],
    h1, h2, h3, h4⟩

/-- **C81_gcn_hops_refuted.** With the default of two hops the embedding GCN computes for a node depends on the other inputs: degrees
are those of the subgraph. -/
theorem C81_gcn_hops_refuted : ∃ g, Built intCodec none ⟨0, 0, -1⟩ C81_path g ∧ Spec.Symmetric C81_path [0] ∧
    gcnModel [[1]] [[1]] g C81_feat [0] [0] 2 = some ([0], [[1594951182769]]) ∧
    gcnModel [[1]] [[1]] g C81_feat [0] [0, 2] 2 = some ([0, 2], [[1503152669599], [3102365095072]]) := by
  obtain ⟨g, hg, hb⟩ := built_of_check (wm := none) (m := ⟨0, 0, -1⟩) (parts := C81_path) (by decide +kernel)
  have h1 : (graphOf intCodec none ⟨0, 0, -1⟩ C81_path).bind (fun g => gcnModel [[1]] [[1]] g C81_feat [0] [0] 2) =
      some ([0], [[1594951182769]]) := by decide +kernel
  have h2 : (graphOf intCodec none ⟨0, 0, -1⟩ C81_path).bind (fun g => gcnModel [[1]] [[1]] g C81_feat [0] [0, 2] 2) =
      some ([0, 2], [[1503152669599], [3102365095072]]) := by decide +kernel
  rw [hg] at h1 h2
  exact ⟨g, hb, C81_path_symmetric, h1, h2⟩

/-- **C81_gat_hops_refuted.** With one hop the embedding GAT computes for a node depends on the other inputs. -/
theorem C81_gat_hops_refuted : ∃ g, Built intCodec none ⟨0, 0, -1⟩ C81_path g ∧ Spec.Symmetric C81_path [0] ∧
    gatModel [C81_head] [C81_head] g C81_feat [0] [0] 1 = some ([0], [[1665000]]) ∧
    gatModel [C81_head] [C81_head] g C81_feat [0] [0, 1] 1 = some ([0, 1], [[2425000], [2664000]]) := by
  obtain ⟨g, hg, hb⟩ := built_of_check (wm := none) (m := ⟨0, 0, -1⟩) (parts := C81_path) (by decide +kernel)
  have h1 : (graphOf intCodec none ⟨0, 0, -1⟩ C81_path).bind (fun g => gatModel [C81_head] [C81_head] g C81_feat [0] [0] 1) =
      some ([0], [[1665000]]) := by decide +kernel
  have h2 : (graphOf intCodec none ⟨0, 0, -1⟩ C81_path).bind (fun g => gatModel [C81_head] [C81_head] g C81_feat [0] [0, 1] 1) =
      some ([0, 1], [[2425000], [2664000]]) := by decide +kernel
  rw [hg] at h1 h2
  exact ⟨g, hb, C81_path_symmetric, h1, h2⟩

/-- **C81_directed_refuted.** Where an edge has no reverse, two hops do not suffice for GAT: an edge towards a neighbour is only known
if its source is in the batch. -/
theorem C81_directed_refuted : ∃ g, Built intCodec none ⟨0, 0, -1⟩ C81_directed g ∧
    gatModel [C81_head] [C81_head] g C81_feat [0] [0] 2 = some ([0], [[1665000]]) ∧
    gatModel [C81_head] [C81_head] g C81_feat [0] [0, 2] 2 = some ([0, 2], [[2425000], [2664000]]) := by
  obtain ⟨g, hg, hb⟩ := built_of_check (wm := none) (m := ⟨0, 0, -1⟩) (parts := C81_directed) (by decide +kernel)
  have h1 : (graphOf intCodec none ⟨0, 0, -1⟩ C81_directed).bind (fun g => gatModel [C81_head] [C81_head] g C81_feat [0] [0] 2) =
      some ([0], [[1665000]]) := by decide +kernel
  have h2 : (graphOf intCodec none ⟨0, 0, -1⟩ C81_directed).bind (fun g => gatModel [C81_head] [C81_head] g C81_feat [0] [0, 2] 2) =
      some ([0, 2], [[2425000], [2664000]]) := by decide +kernel
  rw [hg] at h1 h2
  exact ⟨g, hb, h1, h2⟩

end DeepGNN
