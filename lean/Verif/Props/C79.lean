import Verif.Proofs.Sage

/-
C79 GraphSAGE gives every node of a batch the vector of its own tree of sampled neighbours.
-/

namespace DeepGNN

open Sage

theorem forward_eq {α : Type} [Arith α] {kind : Kind} {concat : Bool} {ws : List (Weights α)} {counts dims : List Nat}
    {features : List Int → Option (Mat α)} {feat : Int → Vec α} {sample : Nat → List Int → Nat → List (List Int)} (inputs : List Int)
    (hm : Spec.ModelFits kind concat ws counts dims) (hs : Spec.SamplerOk sample)
    (hfeat : features (sortUnique (levelIds (Spec.answers sample 0 counts.reverse inputs) inputs).flatten) =
      some ((sortUnique (levelIds (Spec.answers sample 0 counts.reverse inputs) inputs).flatten).map feat))
    (hwid : ∀ i, (feat i).length = dims.getD 0 0) :
    forward (initAggs kind ws concat) counts dims concat features sample inputs =
      some ((Spec.grow (Spec.answers sample 0 counts.reverse inputs) inputs).map (Spec.embed kind concat ws dims feat counts.length)) := by
  unfold forward queryNeighbor
  simp only
  rw [hopLists_all, hfeat]
  simp only [Option.bind_eq_bind, Option.bind_some]
  rw [hidden_eq]
  simp only [Option.bind_some]
  exact aggregate_eq hm hwid (shaped_answers hs _ _ _)

/-- **C79_rows.** For every number of layers, fanout, kind of aggregator and sampler, the rows of the output are, in order of the
inputs, what the layers make of the tree of each input: the node, the neighbours drawn for it, those drawn for them, and so on. -/
theorem C79_rows {α : Type} [Arith α] {kind : Kind} {concat : Bool} {ws : List (Weights α)} {counts dims : List Nat}
    {features : List Int → Option (Mat α)} {feat : Int → Vec α} {sample : Nat → List Int → Nat → List (List Int)} (inputs : List Int)
    (hm : Spec.ModelFits kind concat ws counts dims) (hs : Spec.SamplerOk sample)
    (hfeat : ∀ ids, features ids = some (ids.map feat)) (hwid : ∀ i, (feat i).length = dims.getD 0 0) :
    forward (initAggs kind ws concat) counts dims concat features sample inputs =
      some ((Spec.grow (Spec.answers sample 0 counts.reverse inputs) inputs).map (Spec.embed kind concat ws dims feat counts.length)) :=
  forward_eq inputs hm hs (hfeat _) hwid

theorem levelIds_all {Q : Int → Prop} {sample : Nat → List Int → Nat → List (List Int)} (hq : ∀ k ids c, ∀ row ∈ sample k ids c, ∀ i ∈ row, Q i) :
    ∀ (cs : List Nat) (k : Nat) (ids : List Int), (∀ i ∈ ids, Q i) → ∀ i ∈ (levelIds (Spec.answers sample k cs ids) ids).flatten, Q i
  | [], k, ids, h, i, hi => by
    rw [Spec.answers, levelIds, List.flatten_cons, List.flatten_nil, List.append_nil] at hi
    exact h i hi
  | c :: cs, k, ids, h, i, hi => by
    rw [Spec.answers, levelIds, List.flatten_cons, List.mem_append] at hi
    rcases hi with hi | hi
    · exact h i hi
    · refine levelIds_all hq cs (k + 1) _ (fun j hj => ?_) i hi
      obtain ⟨row, hr, hj⟩ := List.mem_flatten.mp hj
      exact hq k ids c row hr j hj

/-- **C79_identity.** With a table of embeddings instead of features, every node below the number of rows has its own row, and nodes
that were not found (-1) have the last one. -/
theorem C79_identity {α : Type} [Arith α] {kind : Kind} {concat : Bool} {ws : List (Weights α)} {counts dims : List Nat}
    {table : Mat α} {feat : Int → Vec α} {sample : Nat → List Int → Nat → List (List Int)} (inputs : List Int)
    (hm : Spec.ModelFits kind concat ws counts dims) (hs : Spec.SamplerOk sample) (hne : table ≠ [])
    (hin : ∀ i ∈ inputs, i < table.length) (hout : ∀ k ids c, ∀ row ∈ sample k ids c, ∀ i ∈ row, i < table.length)
    (hfeat : ∀ i : Int, i < table.length → feat i = Spec.tableRow table i) (hwid : ∀ i, (feat i).length = dims.getD 0 0) :
    forward (initAggs kind ws concat) counts dims concat (identityFeatures table) sample inputs =
      some ((Spec.grow (Spec.answers sample 0 counts.reverse inputs) inputs).map (Spec.embed kind concat ws dims feat counts.length)) := by
  refine forward_eq inputs hm hs ?_ hwid
  unfold identityFeatures
  apply Sage.mapM_map
  intro i hi
  rw [sortUnique_mem] at hi
  have hlt := levelIds_all (Q := fun i => i < table.length) hout _ _ _ hin i hi
  have hpos : 0 < table.length := List.length_pos_iff.mpr hne
  rw [hfeat i hlt, Spec.tableRow]
  by_cases h0 : 0 ≤ i
  · rw [if_pos h0, if_pos h0, List.getD_eq_getElem?_getD, List.getElem?_eq_getElem (by omega : i.toNat < table.length)]
    rfl
  · rw [if_neg h0, if_neg h0, List.getD_eq_getElem?_getD, List.getElem?_eq_getElem (by omega : table.length - 1 < table.length)]
    rfl

/-- **C79_one_row_each.** There is one tree per input, and its top is the input. -/
theorem C79_one_row_each {sample : Nat → List Int → Nat → List (List Int)} (hs : Spec.SamplerOk sample) (counts : List Nat) (inputs : List Int) :
    (Spec.grow (Spec.answers sample 0 counts.reverse inputs) inputs).map Spec.Tree.id = inputs :=
  grow_ids (shaped_answers hs _ _ _)

/-- **C79_ids.** The nodes written beside the rows of the output are the inputs, in order. -/
theorem C79_ids (counts : List Nat) (sample : Nat → List Int → Nat → List (List Int)) (inputs : List Int) :
    srcNodes counts sample inputs = some inputs := by
  have e : ∃ rest, hopLists counts sample counts.length 0 inputs = inputs :: rest := by
    cases counts.length with
    | zero => exact ⟨_, rfl⟩
    | succ n => exact ⟨_, rfl⟩
  obtain ⟨rest, e⟩ := e
  unfold srcNodes queryNeighbor
  simp only
  rw [e]
  have h1 : ((inputs :: rest).flatten.map ((sortUnique (inputs :: rest).flatten).idxOf ·)).take inputs.length =
      inputs.map ((sortUnique (inputs :: rest).flatten).idxOf ·) := by
    rw [← List.map_take, List.flatten_cons, List.take_left]
  show lookup _ (((inputs :: rest).flatten.map ((sortUnique (inputs :: rest).flatten).idxOf ·)).take inputs.length) = _
  rw [h1]
  unfold lookup
  rw [List.mapM_map]
  have h2 := Sage.mapM_map (f := fun x => (sortUnique (inputs :: rest).flatten)[(sortUnique (inputs :: rest).flatten).idxOf x]?) (g := fun x => x)
    (l := inputs) fun x hx => by
      have hmem : x ∈ sortUnique (inputs :: rest).flatten := (sortUnique_mem x _).mpr (by rw [List.flatten_cons]; exact List.mem_append_left _ hx)
      have h3 := idxOf_lookup (fun y : Int => y) _ hmem
      rwa [List.map_id'] at h3
  rw [List.map_id'] at h2
  exact h2

/-- **C79_batch.** A node gets the same vector in whatever batch and at whatever place its tree is. -/
theorem C79_batch {α : Type} [Arith α] {kind : Kind} {concat : Bool} {ws : List (Weights α)} {counts dims : List Nat}
    {features : List Int → Option (Mat α)} {feat : Int → Vec α} {sample sample' : Nat → List Int → Nat → List (List Int)} {inputs inputs' : List Int}
    (hm : Spec.ModelFits kind concat ws counts dims) (hs : Spec.SamplerOk sample) (hs' : Spec.SamplerOk sample')
    (hfeat : ∀ ids, features ids = some (ids.map feat)) (hwid : ∀ i, (feat i).length = dims.getD 0 0) {i j : Nat} {out out' : Mat α}
    (h : forward (initAggs kind ws concat) counts dims concat features sample inputs = some out)
    (h' : forward (initAggs kind ws concat) counts dims concat features sample' inputs' = some out')
    (ht : (Spec.grow (Spec.answers sample 0 counts.reverse inputs) inputs)[i]? =
      (Spec.grow (Spec.answers sample' 0 counts.reverse inputs') inputs')[j]?) : out[i]? = out'[j]? := by
  rw [C79_rows inputs hm hs hfeat hwid] at h
  rw [C79_rows inputs' hm hs' hfeat hwid] at h'
  rw [← Option.some.inj h, ← Option.some.inj h', List.getElem?_map, List.getElem?_map, ht]

/-! ### Order of neighbours -/

theorem foldl_perm {β : Type} {f : β → β → β} (hc : ∀ a b, f a b = f b a) (ha : ∀ a b c, f (f a b) c = f a (f b c)) {l m : List β} (h : l.Perm m) :
    ∀ z, l.foldl f z = m.foldl f z := by
  induction h with
  | nil => intro z; rfl
  | cons a _ ih => intro z; exact ih _
  | swap a b l => intro z; simp only [List.foldl_cons]; rw [ha, ha, hc b a]
  | trans _ _ h1 h2 => intro z; rw [h1, h2]

/-- The first element folded with the others. -/
def Sage.foldFirst {β : Type} (f : β → β → β) (z : β) : List β → β
  | [] => z
  | x :: xs => xs.foldl f x

theorem foldFirst_perm {β : Type} {f : β → β → β} (hc : ∀ a b, f a b = f b a) (ha : ∀ a b c, f (f a b) c = f a (f b c)) (z : β) {l m : List β} (h : l.Perm m) :
    foldFirst f z l = foldFirst f z m := by
  induction h with
  | nil => rfl
  | cons a hl _ => exact foldl_perm hc ha hl a
  | swap a b l => simp only [foldFirst, List.foldl_cons]; rw [hc]
  | trans _ _ h1 h2 => exact h1.trans h2

theorem columnMaxima_eq {α : Type} [Arith α] (w : Nat) (rows : Mat α) :
    Spec.columnMaxima w rows = (List.range w).map fun j => foldFirst Arith.max Arith.zero (rows.map (·.getD j Arith.zero)) := by
  unfold Spec.columnMaxima
  apply List.map_congr_left
  intro j _
  cases rows <;> rfl

theorem pool_perm {α : Type} [Arith α] (hc : Spec.Commutes α) {kind : Kind} (hk : kind ≠ .lstm) (w : Nat) (ws : Weights α) {l m : List (Vec α)} (h : l.Perm m) :
    Spec.pool kind w ws l = Spec.pool kind w ws m := by
  cases kind with
  | mean =>
    unfold Spec.pool Spec.columnMeans
    apply List.map_congr_left
    intro j _
    rw [h.length_eq]
    congr 1
    exact foldl_perm hc.1 hc.2.1 (h.map _) _
  | maxpool =>
    unfold Spec.pool
    simp only
    rw [columnMaxima_eq, columnMaxima_eq]
    apply List.map_congr_left
    intro j _
    exact foldFirst_perm hc.2.2.1 hc.2.2.2 _ ((h.map _).map _)
  | lstm => exact absurd rfl hk

theorem reordered_pred : ∀ (d : Nat) {t u : Spec.Tree}, Spec.Reordered (d + 1) t u → Spec.Reordered d t u
  | 0, _, _, h => h.1
  | d + 1, _, _, ⟨hid, cs, hp, hl, h⟩ => ⟨hid, cs, hp, hl, fun p hpm => reordered_pred d (h p hpm)⟩

/-- **C79_order.** If sums and maxima do not depend on the order of their terms, the vector of a node from means or maxima does not
depend on the order in which neighbours were drawn, at any depth. -/
theorem C79_order {α : Type} [Arith α] (hc : Spec.Commutes α) {kind : Kind} (hk : kind ≠ .lstm) (concat : Bool) (ws : List (Weights α)) (dims : List Nat)
    (feat : Int → Vec α) : ∀ (l : Nat) {t u : Spec.Tree}, Spec.Reordered l t u →
    Spec.embed kind concat ws dims feat l t = Spec.embed kind concat ws dims feat l u
  | 0, t, u, h => by
    have h' : t.id = u.id := h
    show feat _ = feat _
    rw [h']
  | l + 1, t, u, h => by
    have hself := C79_order hc hk concat ws dims feat l (reordered_pred l h)
    obtain ⟨hid, cs, hp, hlen, hrec⟩ := h
    have hch : t.children.map (Spec.embed kind concat ws dims feat l) = cs.map (Spec.embed kind concat ws dims feat l) := by
      apply List.ext_getElem (by simp [hlen])
      intro i h1 h2
      rw [List.getElem_map, List.getElem_map]
      have h1' : i < t.children.length := by simpa using h1
      have h2' : i < cs.length := by simpa using h2
      exact C79_order hc hk concat ws dims feat l (hrec (t.children[i], cs[i]) (by
        rw [List.mem_iff_getElem]
        exact ⟨i, by rw [List.length_zip]; exact Nat.lt_min.mpr ⟨h1', h2'⟩, by simp⟩))
    rw [Spec.embed, Spec.embed, hself, hch]
    unfold Spec.sageRow
    rw [pool_perm hc hk _ _ (hp.map _)]

/-! ### The recurrent aggregator and biases -/

/-- **C79_lstm_last_partial.** If every drawn neighbour has a number other than 0, the recurrent aggregator gives the output of its
cell after all of them. -/
theorem C79_lstm_last_partial {α : Type} [Arith α] (w : Nat) (ws : Weights α) {neigh : List (Vec α)} (hne : neigh ≠ [])
    (h : ∀ v ∈ neigh, ∃ x ∈ v, Arith.isZero x = false) : Spec.pool .lstm w ws neigh = (neigh.foldl (fun s x => ws.cell s.1 x) (ws.start, [])).2 := by
  unfold Spec.pool Spec.after
  simp only
  rw [List.filter_eq_self.mpr (by
    intro v hv
    obtain ⟨x, hx, h0⟩ := h v hv
    exact List.any_eq_true.mpr ⟨x, hx, by rw [h0]; rfl⟩)]
  have hpos : 0 < neigh.length := List.length_pos_iff.mpr hne
  rw [List.take_of_length_le (Nat.le_max_left _ _)]

/-- **C79_lstm_skips_refuted.** It is not so that every drawn neighbour counts: after a neighbour whose numbers are all 0, a last
neighbour with other numbers is never looked at, whatever the cell is. -/
theorem C79_lstm_skips_refuted {α : Type} [Arith α] (w : Nat) (ws : Weights α) {z v : α} (hz : Arith.isZero z = true) (hv : Arith.isZero v = false) :
    Spec.pool .lstm w ws [[z], [v]] = (ws.cell ws.start [z]).2 := by
  simp [Spec.pool, Spec.after, hz, hv]

/-- **C79_bias_refuted.** No aggregator can be created with a bias. -/
theorem C79_bias_refuted {α : Type} (kind : Kind) (w : Weights α) (act concat : Bool) : createAgg kind w act true concat = none := rfl

/-- Integers as numbers. -/
instance Sage.intArith : Arith Int := ⟨0, (· + ·), (· * ·), fun a b => if a ≤ b then b else a, fun a n => a / n, (· == 0)⟩

/-- A cell that shifts what it has seen. -/
def Sage.shiftCell : Weights Int where
  neigh := [[1]]
  self := [[1]]
  cell := fun s x => ([2 * s.headD 0 + x.headD 0], [2 * s.headD 0 + x.headD 0])

/-- **C79_lstm_order_refuted.** With the recurrent aggregator, the order in which neighbours were drawn changes the vector. -/
theorem C79_lstm_order_refuted : ∃ t u : Spec.Tree, Spec.Reordered 1 t u ∧
    Spec.embed .lstm false [shiftCell] [1, 1] (fun i => [i]) 1 t ≠ Spec.embed .lstm false [shiftCell] [1, 1] (fun i => [i]) 1 u := by
  refine ⟨.node 0 [.node 1 [], .node 2 []], .node 0 [.node 2 [], .node 1 []], ⟨rfl, [.node 1 [], .node 2 []], .swap _ _ _, rfl, ?_⟩, ?_⟩
  · intro p hp
    rcases List.mem_cons.mp hp with rfl | hp
    · rfl
    · rcases List.mem_cons.mp hp with rfl | hp
      · rfl
      · exact (List.not_mem_nil hp).elim
  · decide +kernel

/-! ### Examples -/

theorem int_commutes : Spec.Commutes Int := by
  refine ⟨Int.add_comm, Int.add_assoc, fun a b => ?_, fun a b c => ?_⟩
  · show (if a ≤ b then b else a) = (if b ≤ a then a else b)
    split <;> split <;> omega
  · show (if (if a ≤ b then b else a) ≤ c then c else if a ≤ b then b else a) =
      (if a ≤ (if b ≤ c then c else b) then (if b ≤ c then c else b) else a)
    repeat' split
    all_goals omega

/-- Two layers with one neighbour of an input and two of a neighbour. -/
def Sage.exWeights : List (Weights Int) := [{ neigh := [[1]], self := [[2]] }, { neigh := [[1, 10]], self := [[100, 1000]] }]

/-- A sampler with an answer for every node. -/
def Sage.exSample : Nat → List Int → Nat → List (List Int) := fun _ ids c => ids.map fun i => (List.range c).map fun j : Nat => 3 * i + (j : Int)

theorem exSample_ok : Spec.SamplerOk exSample := by
  intro k ids c
  refine ⟨List.length_map _, fun row hr => ?_⟩
  obtain ⟨i, -, rfl⟩ := List.mem_map.mp hr
  simp

theorem exWeights_fit (kind : Kind) (hk : kind = .mean) : Spec.ModelFits kind true exWeights [2, 1] [1, 1, 1] := by
  subst hk
  refine ⟨rfl, rfl, by decide, by decide, ?_⟩
  intro l hl w hw
  match l, hl with
  | 0, _ => rw [← Option.some.inj hw]; exact ⟨rfl, rfl, by decide, by decide⟩
  | 1, _ => rw [← Option.some.inj hw]; exact ⟨rfl, rfl, by decide, by decide⟩

/-- The hypotheses of C79_rows hold for a model of two layers, and the code gives each input the vector of its own tree: 5 has drawn 15
and 15 has drawn 45 and 46; input 5 comes twice, input 1 in between. -/
example : forward (initAggs .mean exWeights true) [2, 1] [1, 1, 1] true (fun ids => some (ids.map fun i => [i])) exSample [5, 1, 5] =
    some [[2 * 5 * 100 + 15 * 1000, 2 * 15 + 10 * 45], [2 * 1 * 100 + 3 * 1000, 2 * 3 + 10 * 9], [2 * 5 * 100 + 15 * 1000, 2 * 15 + 10 * 45]] ∧
    forward (initAggs .mean exWeights true) [2, 1] [1, 1, 1] true (fun ids => some (ids.map fun i => [i])) exSample [5, 1, 5] =
      some ((Spec.grow (Spec.answers exSample 0 [1, 2] [5, 1, 5]) [5, 1, 5]).map (Spec.embed .mean true exWeights [1, 1, 1] (fun i => [i]) 2)) :=
  ⟨by decide +kernel, C79_rows [5, 1, 5] (exWeights_fit .mean rfl) exSample_ok (fun _ => rfl) (fun _ => rfl)⟩

/-- A table of three rows: node -1 has the last row. -/
example : identityFeatures [[7], [8], [9]] [-1, 0, 1] = some [[(9 : Int)], [7], [8]] := by decide

/-- The recurrent aggregator fits too, and ignores a last neighbour after one without numbers. -/
example : Spec.ModelFits .lstm false [shiftCell] [2] [1, 1] ∧ Spec.pool .lstm 1 shiftCell [[0], [5]] = Spec.pool .lstm 1 shiftCell [[0], [6]] ∧
    Spec.pool .lstm 1 shiftCell [[1], [5]] ≠ Spec.pool .lstm 1 shiftCell [[1], [6]] := by
  refine ⟨⟨rfl, rfl, by decide, by decide, ?_⟩, by decide +kernel, by decide +kernel⟩
  intro l hl w hw
  match l, hl with
  | 0, _ => rw [← Option.some.inj hw]; exact ⟨rfl, rfl, by decide, 1, fun _ _ => rfl, by decide⟩

/-- Means do not depend on the order: C79_order applies to two actual trees. -/
example : Spec.embed .mean false [shiftCell] [1, 1] (fun i => [i]) 1 (.node 0 [.node 1 [], .node 2 []]) =
    Spec.embed .mean false [shiftCell] [1, 1] (fun i => [i]) 1 (.node 0 [.node 2 [], .node 1 []]) := by
  apply C79_order int_commutes (by decide)
  refine ⟨rfl, [.node 1 [], .node 2 []], .swap _ _ _, rfl, ?_⟩
  intro p hp
  rcases List.mem_cons.mp hp with rfl | hp
  · rfl
  · rcases List.mem_cons.mp hp with rfl | hp
    · rfl
    · exact (List.not_mem_nil hp).elim

end DeepGNN
