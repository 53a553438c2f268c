import Verif.Proofs.SagePairs

/-
C95: the unsupervised GraphSAGE model compares every source with its own positive and with all negatives.
-/

namespace DeepGNN

open Sage SagePairs

/-- The trees of sources, positives and negatives, in the order in which they were put together. -/
theorem SagePairs.split_trees {trees : List Spec.Tree} {seeds pos neg : List Int} (h : trees.map Spec.Tree.id = seeds ++ pos ++ neg) :
    ∃ ts tp tn, trees = ts ++ tp ++ tn ∧ ts.map Spec.Tree.id = seeds ∧ tp.map Spec.Tree.id = pos ∧ tn.map Spec.Tree.id = neg := by
  obtain ⟨ab, tn, rfl, hab, htn⟩ := List.map_eq_append_iff.1 h
  obtain ⟨ts, tp, rfl, hts, htp⟩ := List.map_eq_append_iff.1 hab
  exact ⟨ts, tp, tn, rfl, hts, htp, htn⟩

/-- **C95_objective_partial.** For any sources, one positive for each and any negatives, whatever the graph answers: the model gives the
sources with the vectors of their own trees of sampled neighbours; the loss is the sum over sources of the cross entropy for label 1 of
the product with their own positive plus the weighted sum over all sources and negatives of that for label 0, divided by the number
of sources; and the metric is the mean over sources of 1 / (1 + number of negatives as close as the positive).  (Dropout 0; a source
without neighbours is not left out: see below.) -/
theorem C95_objective_partial {α : Type} [Arith α] {kind : Kind} {concat : Bool} {ws : List (Weights α)} {counts dims : List Nat}
    {features : List Int → Option (Mat α)} {feat : Int → Vec α} {sample : Nat → List Int → Nat → List (List Int)} (seeds pos neg : List Int)
    (norm : Vec α → Vec α) (key : α → Int) (one zero' : α → α) (weight : α)
    (hm : Spec.ModelFits kind concat ws counts dims) (hs : Spec.SamplerOk sample)
    (hfeat : ∀ ids, features ids = some (ids.map feat)) (hwid : ∀ i, (feat i).length = dims.getD 0 0) (hl : pos.length = seeds.length) :
    ∃ ts tp tn : List Spec.Tree,
      Spec.grow (Spec.answers sample 0 counts.reverse (seeds ++ pos ++ neg)) (seeds ++ pos ++ neg) = ts ++ tp ++ tn ∧
      ts.map Spec.Tree.id = seeds ∧ tp.map Spec.Tree.id = pos ∧ tn.map Spec.Tree.id = neg ∧
      unsup (initAggs kind ws concat) counts dims concat features norm key one zero' weight sample seeds pos neg =
        some ⟨seeds, ts.map fun t => norm (Spec.embed kind concat ws dims feat counts.length t),
          Arith.divNat (Arith.add
            (total ((ts.zip tp).map fun p => one (Spec.innerProduct (norm (Spec.embed kind concat ws dims feat counts.length p.1))
              (norm (Spec.embed kind concat ws dims feat counts.length p.2)))))
            (Arith.mul weight (total (ts.flatMap fun t => tn.map fun u => zero' (Spec.innerProduct
              (norm (Spec.embed kind concat ws dims feat counts.length t)) (norm (Spec.embed kind concat ws dims feat counts.length u)))))))
            seeds.length,
          Spec.meanRat ((ts.zip tp).map fun p => Spec.reciprocalRank key
            (Spec.innerProduct (norm (Spec.embed kind concat ws dims feat counts.length p.1)) (norm (Spec.embed kind concat ws dims feat counts.length p.2)))
            (tn.map fun u => Spec.innerProduct (norm (Spec.embed kind concat ws dims feat counts.length p.1))
              (norm (Spec.embed kind concat ws dims feat counts.length u))))⟩ := by
  obtain ⟨ts, tp, tn, e, hts, htp, htn⟩ := split_trees (C79_one_row_each hs counts (seeds ++ pos ++ neg))
  have hf := C79_rows (seeds ++ pos ++ neg) hm hs hfeat hwid
  rw [e] at hf
  exact ⟨ts, tp, tn, e, hts, htp, htn, unsup_eq norm key one zero' weight hf hts htp htn hl⟩

/-- **C95_identity_partial.** The same when the features are a table of embeddings, for nodes below the size of the table: unknown nodes
have the last row. -/
theorem C95_identity_partial {α : Type} [Arith α] {kind : Kind} {concat : Bool} {ws : List (Weights α)} {counts dims : List Nat}
    {table : Mat α} {feat : Int → Vec α} {sample : Nat → List Int → Nat → List (List Int)} (seeds pos neg : List Int)
    (norm : Vec α → Vec α) (key : α → Int) (one zero' : α → α) (weight : α)
    (hm : Spec.ModelFits kind concat ws counts dims) (hs : Spec.SamplerOk sample) (hne : table ≠ [])
    (hin : ∀ i ∈ seeds ++ pos ++ neg, i < table.length) (hout : ∀ k ids c, ∀ row ∈ sample k ids c, ∀ i ∈ row, i < table.length)
    (hfeat : ∀ i : Int, i < table.length → feat i = Spec.tableRow table i) (hwid : ∀ i, (feat i).length = dims.getD 0 0)
    (hl : pos.length = seeds.length) :
    ∃ (ts tp tn : List Spec.Tree) (out : Unsup α),
      Spec.grow (Spec.answers sample 0 counts.reverse (seeds ++ pos ++ neg)) (seeds ++ pos ++ neg) = ts ++ tp ++ tn ∧
      ts.map Spec.Tree.id = seeds ∧ tp.map Spec.Tree.id = pos ∧ tn.map Spec.Tree.id = neg ∧
      unsup (initAggs kind ws concat) counts dims concat (identityFeatures table) norm key one zero' weight sample seeds pos neg = some out ∧
      out.nodes = seeds ∧ out.emb = (ts.map fun t => norm (Spec.embed kind concat ws dims feat counts.length t)) ∧
      out.mrr = Spec.meanRat ((ts.zip tp).map fun p => Spec.reciprocalRank key
            (Spec.innerProduct (norm (Spec.embed kind concat ws dims feat counts.length p.1)) (norm (Spec.embed kind concat ws dims feat counts.length p.2)))
            (tn.map fun u => Spec.innerProduct (norm (Spec.embed kind concat ws dims feat counts.length p.1))
              (norm (Spec.embed kind concat ws dims feat counts.length u)))) := by
  obtain ⟨ts, tp, tn, e, hts, htp, htn⟩ := split_trees (C79_one_row_each hs counts (seeds ++ pos ++ neg))
  have hf := C79_identity (seeds ++ pos ++ neg) hm hs hne hin hout hfeat hwid
  rw [e] at hf
  exact ⟨ts, tp, tn, _, e, hts, htp, htn, unsup_eq norm key one zero' weight hf hts htp htn hl, rfl, rfl, rfl⟩

theorem SagePairs.calcMrr_eq {α : Type} [Arith α] (key : α → Int) {src pos : Mat α} (neg : Mat α) (h : src.length = pos.length) :
    calcMrr key src pos neg = some (Spec.meanRat ((src.zip pos).map fun p =>
      Spec.reciprocalRank key (Spec.innerProduct p.1 p.2) (neg.map (Spec.innerProduct p.1)))) := by
  unfold calcMrr affinity
  rw [if_pos h]
  simp only [Option.bind_eq_bind, Option.bind_some]
  have : List.zipWith (rankLast key) (negCost src neg) (List.zipWith inner src pos) =
      (src.zip pos).map fun p => ((neg.map (Spec.innerProduct p.1)).filter fun n => decide (key (Spec.innerProduct p.1 p.2) ≤ key n)).length := by
    unfold negCost
    induction src generalizing pos with
    | nil => rfl
    | cons s src ih =>
      cases pos with
      | nil => cases h
      | cons p pos =>
        simp only [List.map_cons, List.zip_cons_cons, List.zipWith_cons_cons]
        rw [ih (by simpa using h), rankLast_eq, List.countP_eq_length_filter]
        rfl
  rw [this, Spec.meanRat, List.map_map, List.length_map, List.length_map]
  rfl

theorem SagePairs.rinv {c : Rat} (h : 1 ≤ c) : 1 / (c+1) ≤ 1/2 := by
  have h0 : c + 1 ≠ 0 := by grind
  have h1 := Rat.mul_inv_cancel _ h0
  have h2 : 0 ≤ (c+1)⁻¹ := Rat.le_of_lt (Rat.inv_pos.2 (by grind))
  have h3 := Rat.mul_le_mul_of_nonneg_right h h2
  rw [Rat.div_def, Rat.one_mul]
  grind

theorem SagePairs.rinv0 {c : Rat} (h : 0 ≤ c) : 1 / (c+1) ≤ 1 := by
  have h0 : c + 1 ≠ 0 := by grind
  have h1 := Rat.mul_inv_cancel _ h0
  have h2 : 0 ≤ (c+1)⁻¹ := Rat.le_of_lt (Rat.inv_pos.2 (by grind))
  have h3 := Rat.mul_le_mul_of_nonneg_right h h2
  rw [Rat.div_def, Rat.one_mul]
  grind

theorem SagePairs.mean_const (l : List Rat) (x : Rat) (hne : l ≠ []) (h : ∀ y ∈ l, y = x) : l.sum / l.length = x := by
  have hs : l.sum = x * l.length := by
    clear hne
    induction l with
    | nil => simp
    | cons a l ih =>
      rw [List.sum_cons, h a List.mem_cons_self, ih (fun y hy => h y (List.mem_cons_of_mem _ hy)), List.length_cons]
      grind
  rw [hs]
  refine Rat.mul_div_cancel ?_
  intro h0
  exact hne (List.length_eq_zero_iff.1 (Rat.natCast_eq_zero_iff.1 h0))

theorem SagePairs.sum_top {l : List Rat} (h : ∀ y ∈ l, y ≤ 1) : l.sum ≤ l.length ∧ (l.sum = l.length → ∀ y ∈ l, y = 1) := by
  induction l with
  | nil => simp
  | cons a l ih =>
    have ih := ih (fun y hy => h y (List.mem_cons_of_mem _ hy))
    have ha := h a List.mem_cons_self
    rw [List.sum_cons, List.length_cons]
    have e : ((l.length + 1 : Nat) : Rat) = (l.length : Rat) + 1 := by grind
    rw [e]
    refine ⟨by grind, fun hs y hy => ?_⟩
    have : l.sum = l.length := by grind
    rcases List.mem_cons.1 hy with hy | hy
    · grind
    · exact ih.2 this y hy

theorem SagePairs.rr_le {α : Type} (key : α → Int) (p : α) (neg : List α) : Spec.reciprocalRank key p neg ≤ 1 := by
  unfold Spec.reciprocalRank
  exact rinv0 (by grind)

theorem SagePairs.rr_one {α : Type} (key : α → Int) (p : α) (neg : List α) :
    Spec.reciprocalRank key p neg = 1 ↔ ∀ n ∈ neg, key n < key p := by
  unfold Spec.reciprocalRank
  generalize hf : neg.filter (fun n => decide (key p ≤ key n)) = f
  constructor
  · intro h n hn
    refine Int.not_le.1 fun hle => ?_
    have hm : n ∈ f := by rw [← hf]; exact List.mem_filter.2 ⟨hn, by simpa using hle⟩
    have hpos : 1 ≤ f.length := List.length_pos_iff.2 (List.ne_nil_of_mem hm)
    have := rinv (c := (f.length : Rat)) (by exact_mod_cast hpos)
    grind
  · intro h
    have : f = [] := by
      rw [← hf, List.filter_eq_nil_iff]
      intro n hn
      have := h n hn
      simp; omega
    rw [this]
    show 1 / ((0 : Rat) + 1) = 1
    decide +kernel

/-- **C95_perfect.** The metric of a batch is 1 exactly when every positive is strictly closer to its source than all negatives. -/
theorem C95_perfect {α : Type} [Arith α] (key : α → Int) {src pos neg : Mat α} (h : src.length = pos.length) (hne : src ≠ []) :
    calcMrr key src pos neg = some 1 ↔
      ∀ p ∈ src.zip pos, ∀ n ∈ neg, key (Spec.innerProduct p.1 n) < key (Spec.innerProduct p.1 p.2) := by
  rw [calcMrr_eq key neg h]
  have hz : src.zip pos ≠ [] := by
    intro h0
    have := congrArg List.length h0
    rw [List.length_zip, ← h, Nat.min_self] at this
    exact hne (List.length_eq_zero_iff.1 this)
  constructor
  · intro he p hp n hn
    have he := Option.some.inj he
    unfold Spec.meanRat at he
    generalize hL : ((src.zip pos).map fun p => Spec.reciprocalRank key (Spec.innerProduct p.1 p.2) (neg.map (Spec.innerProduct p.1))) = L at he
    have hL1 : ∀ y ∈ L, y ≤ 1 := by
      intro y hy
      rw [← hL] at hy
      obtain ⟨p, -, rfl⟩ := List.mem_map.1 hy
      exact rr_le _ _ _
    have hl0 : (L.length : Rat) ≠ 0 := by
      intro h0
      have := Rat.natCast_eq_zero_iff.1 h0
      rw [← hL, List.length_map] at this
      exact hz (List.length_eq_zero_iff.1 this)
    have hsum : L.sum = L.length := by
      have := congrArg (· * (L.length : Rat)) he
      rw [Rat.div_mul_cancel hl0, Rat.one_mul] at this
      exact this
    have h1 := (sum_top hL1).2 hsum _ (by rw [← hL]; exact List.mem_map.2 ⟨p, hp, rfl⟩)
    exact (rr_one _ _ _).1 h1 _ (List.mem_map.2 ⟨n, hn, rfl⟩)
  · intro hb
    congr 1
    refine mean_const _ 1 (by simpa using hz) fun y hy => ?_
    obtain ⟨p, hp, rfl⟩ := List.mem_map.1 hy
    rw [rr_one]
    intro m hm
    obtain ⟨n, hn, rfl⟩ := List.mem_map.1 hm
    exact hb p hp n hn

/-- **C95_collapsed.** If no negative is farther than the positive, for example because all vectors are equal, the metric is
1 / (1 + number of negatives): equal vectors are not counted as a success. -/
theorem C95_collapsed {α : Type} [Arith α] (key : α → Int) {src pos neg : Mat α} (h : src.length = pos.length) (hne : src ≠ [])
    (hb : ∀ p ∈ src.zip pos, ∀ n ∈ neg, key (Spec.innerProduct p.1 p.2) ≤ key (Spec.innerProduct p.1 n)) :
    calcMrr key src pos neg = some (1 / ((neg.length : Rat) + 1)) := by
  rw [calcMrr_eq key neg h]
  congr 1
  refine mean_const _ _ ?_ fun y hy => ?_
  · intro h0
    have := congrArg List.length h0
    rw [List.length_map, List.length_zip, ← h, Nat.min_self] at this
    exact hne (List.length_eq_zero_iff.1 this)
  · obtain ⟨p, hp, rfl⟩ := List.mem_map.1 hy
    unfold Spec.reciprocalRank
    rw [List.filter_eq_self.2, List.length_map]
    intro m hm
    obtain ⟨n, hn, rfl⟩ := List.mem_map.1 hm
    simpa using hb p hp n hn

/-- **C95_positive_drawn_refuted.** A negative with the vector of the positive, such as the positive itself drawn as a negative: the source
counts for at most one half, however good the vectors are. -/
theorem C95_positive_drawn_refuted {α : Type} [Arith α] (key : α → Int) (s : Vec α) {p : Vec α} {neg : Mat α} (hp : p ∈ neg) :
    ∃ r, calcMrr key [s] [p] neg = some r ∧ r ≤ 1 / 2 := by
  refine ⟨_, calcMrr_eq key neg rfl, ?_⟩
  have : Spec.meanRat (([s].zip [p]).map fun q => Spec.reciprocalRank key (Spec.innerProduct q.1 q.2) (neg.map (Spec.innerProduct q.1))) =
      Spec.reciprocalRank key (Spec.innerProduct s p) (neg.map (Spec.innerProduct s)) :=
    mean_const _ _ (by simp) (by intro y hy; simpa using hy)
  rw [this]
  unfold Spec.reciprocalRank
  refine rinv ?_
  have hm : Spec.innerProduct s p ∈ (neg.map (Spec.innerProduct s)).filter (fun n => decide (key (Spec.innerProduct s p) ≤ key n)) :=
    List.mem_filter.2 ⟨List.mem_map.2 ⟨p, hp, rfl⟩, by simp⟩
  exact_mod_cast (List.length_pos_iff.2 (List.ne_nil_of_mem hm) : 0 < _)

/-- Integers with the values of Sage.exSample; node -1 has feature 0. -/
def SagePairs.exUnsup (seeds pos neg : List Int) : Option (Unsup Int) :=
  unsup (initAggs .mean [{ neigh := [[1]], self := [[1]] }] false) [1] [1, 1] false
    (fun ids => some (ids.map fun i => [if 0 ≤ i then i else 0])) id id (fun x => -x) (fun x => x) 1
    (fun _ ids c => ids.map fun i => List.replicate c (if i = 4 then -1 else i)) seeds pos neg

/-- **C95_unconnected_refuted.** A source without neighbours has the node -1 as its positive, and is counted like any other pair: adding
it to a batch lowers the metric and changes the loss. -/
theorem C95_unconnected_refuted :
    exUnsup [2, 3] [3, 2] [1] = some ⟨[2, 3], [[4], [6]], (-48 + 20) / 2, 1⟩ ∧
    exUnsup [2, 3, 4] [3, 2, -1] [1] = some ⟨[2, 3, 4], [[4], [6], [4]], (-48 + 28) / 3, (1 + 1 + 1 / 2) / 3⟩ := by decide +kernel

/-- **C95_default_refuted.** The model cannot be created with its default `identity_embed_shape=[]`. -/
theorem C95_default_refuted : initMaxId (some []) = none ∧ initMaxId none = some none := ⟨rfl, rfl⟩

/-! ### Examples -/

/-- The hypotheses of C95_objective_partial are met by a model of two layers, and the code gives what it says. -/
example : (∃ ts tp tn : List Spec.Tree, ts.map Spec.Tree.id = [5, 1] ∧ tp.map Spec.Tree.id = [1, 5] ∧ tn.map Spec.Tree.id = [0, 7, 2] ∧
    (unsup (initAggs .mean exWeights true) [2, 1] [1, 1, 1] true (fun ids => some (ids.map fun i => [i])) id id id id 1 exSample
      [5, 1] [1, 5] [0, 7, 2]).map (·.emb) = some (ts.map fun t => Spec.embed .mean true exWeights [1, 1, 1] (fun i => [i]) 2 t)) ∧
    (unsup (initAggs .mean exWeights true) [2, 1] [1, 1, 1] true (fun ids => some (ids.map fun i => [i])) id id id id 1 exSample
      [5, 1] [1, 5] [0, 7, 2]).map (fun o => (o.nodes, o.mrr)) = some ([5, 1], (1 / 3 + 1 / 2) / 2) := by
  refine ⟨?_, by decide +kernel⟩
  obtain ⟨ts, tp, tn, -, h1, h2, h3, h4⟩ := C95_objective_partial (feat := fun i : Int => [i]) [5, 1] [1, 5] [0, 7, 2] id id id id (1 : Int) (exWeights_fit .mean rfl)
    exSample_ok (fun _ => rfl) (fun _ => rfl) rfl
  exact ⟨ts, tp, tn, h1, h2, h3, by rw [h4]; rfl⟩

/-- A perfect batch, a collapsed one and one with equal numbers: the second of two equal scores is the positive. -/
example : calcMrr id [[2], [3]] [[4], [5]] [[1], [-1]] = some (1 : Rat) ∧ calcMrr id [[0], [0]] [[4], [5]] [[1], [-1]] = some (1 / 3 : Rat) ∧
    calcMrr id [[1, 0]] [[4, 9]] [[1, 0], [4, 7], [6, 6]] = some (1 / 3 : Rat) := by decide +kernel

/-- The table of embeddings: the hypotheses of C95_identity_partial hold, and node -1 has the last row. -/
example : ∃ out : Unsup Int, unsup (α := Int) (initAggs .mean [{ neigh := [[1]], self := [[1]] }] false) [1] [1, 1] false (identityFeatures [[(1 : Int)], [2], [5]])
    id id id id 1 (fun _ ids c => ids.map fun _ => List.replicate c (-1)) [0, 1] [1, -1] [0] = some out ∧ out.nodes = [0, 1] ∧
    out.emb = [[6], [7]] := by
  obtain ⟨ts, tp, tn, out, -, -, -, -, ho, hn, -, -⟩ := C95_identity_partial (α := Int) (kind := .mean) (concat := false)
    (ws := [{ neigh := [[1]], self := [[1]] }]) (counts := [1]) (dims := [1, 1]) (table := [[1], [2], [5]])
    (feat := fun i => if i < 3 then Spec.tableRow [[1], [2], [5]] i else [0])
    (sample := fun _ ids c => ids.map fun _ => List.replicate c (-1)) [0, 1] [1, -1] [0] id id id id 1
    ⟨rfl, rfl, by decide, by decide, fun l hl w hw => by
      match l, hl with
      | 0, _ => rw [← Option.some.inj hw]; exact ⟨rfl, rfl, by decide, by decide⟩⟩
    (fun k ids c => ⟨List.length_map _, fun row hr => by obtain ⟨i, -, rfl⟩ := List.mem_map.mp hr; simp⟩)
    (by decide) (by decide)
    (fun k ids c row hr i hi => by
      obtain ⟨_, -, rfl⟩ := List.mem_map.mp hr
      rw [List.eq_of_mem_replicate hi]; decide)
    (fun i hi => if_pos hi)
    (fun i => by
      by_cases h : i < 3
      · rw [if_pos h]
        unfold Spec.tableRow
        split
        · have : i = 0 ∨ i = 1 ∨ i = 2 := by omega
          rcases this with rfl | rfl | rfl <;> rfl
        · rfl
      · rw [if_neg h]; rfl)
    rfl
  refine ⟨out, ho, hn, ?_⟩
  have : (unsup (α := Int) (initAggs .mean [{ neigh := [[1]], self := [[1]] }] false) [1] [1, 1] false (identityFeatures [[(1 : Int)], [2], [5]])
    id id id id 1 (fun _ ids c => ids.map fun _ => List.replicate c (-1)) [0, 1] [1, -1] [0]).map (·.emb) = some [[6], [7]] := by decide +kernel
  rw [ho] at this
  exact Option.some.inj this

end DeepGNN
