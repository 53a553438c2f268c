import Verif.Model.RemoteSparse
import Verif.Proofs.RemoteStrings
import Verif.Proofs.SparseFeatures

/-
Sparse features from several servers.
-/

namespace DeepGNN

open Spec

/-- Steps that are related within each sequence and across sequences are related in every interleaving. -/
theorem interleaved_pairwise {α : Type} {seqs : List (List α)} {steps : List α} (h : Interleaved seqs steps)
    {R : α → α → Prop} (hin : ∀ i, (seqs.getD i []).Pairwise R)
    (hout : ∀ i j, i ≠ j → ∀ x ∈ seqs.getD i [], ∀ y ∈ seqs.getD j [], R x y) : steps.Pairwise R := by
  obtain ⟨T, rfl, hT⟩ := h
  have key : ∀ T : List (Nat × α), (∀ i, ((T.filter fun x => x.1 = i).map (·.2)).Pairwise R) →
      (∀ x ∈ T, x.2 ∈ seqs.getD x.1 []) → (T.map (·.2)).Pairwise R := by
    intro T
    induction T with
    | nil => intros; exact .nil
    | cons x T ih =>
      intro h1 h2
      rw [List.map_cons, List.pairwise_cons]
      constructor
      · intro y hy
        obtain ⟨z, hz, rfl⟩ := List.mem_map.1 hy
        by_cases hxz : z.1 = x.1
        · have := h1 x.1
          rw [List.filter_cons, if_pos (by simp), List.map_cons, List.pairwise_cons] at this
          exact this.1 z.2 (List.mem_map.2 ⟨z, List.mem_filter.2 ⟨hz, by simpa using hxz⟩, rfl⟩)
        · exact hout x.1 z.1 (Ne.symm hxz) _ (h2 x (by simp)) _ (h2 z (by simp [hz]))
      · refine ih (fun i => ?_) fun y hy => h2 y (by simp [hy])
        have := h1 i
        rw [List.filter_cons] at this
        split at this
        · rw [List.map_cons, List.pairwise_cons] at this; exact this.2
        · exact this
  refine key T (fun i => by rw [hT i]; exact hin i) fun x hx => ?_
  rw [← hT x.1]
  exact List.mem_map.2 ⟨x, List.mem_filter.2 ⟨hx, by simp⟩, rfl⟩

theorem copyN_exact {α : Type} (pre v post : List α) : copyN (pre ++ v ++ post) pre.length v.length = some v := by
  rw [copyN, if_pos (by simp)]
  simp

/-- The rows of coordinates of position `i`, with the position. -/
def posRows (v : Option Sparse) (i : Nat) : List (Nat × List Int) :=
  match v with
  | none => []
  | some x => x.coords.map fun row => (i, row)

/-- The bytes of the values. -/
def valBytes (v : Option Sparse) : Bytes :=
  match v with
  | none => []
  | some x => x.values.flatten

/-- The rows of a feature in request order. -/
def allRows (n : Nat) (val : Nat → Option Sparse) : List (Nat × List Int) := (List.range n).flatMap fun i => posRows (val i) i
def allBytes (n : Nat) (val : Nat → Option Sparse) : Bytes := (List.range n).flatMap fun i => valBytes (val i)

/-- The coordinates in a reply. -/
def flatRows (l : List (Nat × List Int)) : List Int := l.flatMap fun x => (x.1 : Int) :: x.2

/-- What the iterations for the rows `l` refer to. -/
def rowPuts (F j width inc : Nat) (l : List (Nat × List Int)) (no vo : Nat) : List SparsePut :=
  l.zipIdx.map fun x => ⟨x.1.1 * F + j, no + x.2 * width, vo + x.2 * inc, 0⟩

theorem rowPuts_cons (F j width inc : Nat) (x : Nat × List Int) (l : List (Nat × List Int)) (no vo : Nat) :
    rowPuts F j width inc (x :: l) no vo = ⟨x.1 * F + j, no, vo, 0⟩ :: rowPuts F j width inc l (no + width) (vo + inc) := by
  simp only [rowPuts, List.zipIdx_cons, List.map_cons, Nat.zero_mul, Nat.add_zero, Nat.zero_add]
  congr 1
  rw [List.zipIdx_succ, List.map_map]
  congr 1
  funext y
  simp only [Function.comp, Nat.succ_mul]
  congr 1 <;> omega

theorem rowPuts_append (F j width inc : Nat) (a b : List (Nat × List Int)) (no vo : Nat) :
    rowPuts F j width inc (a ++ b) no vo =
      rowPuts F j width inc a no vo ++ rowPuts F j width inc b (no + a.length * width) (vo + a.length * inc) := by
  induction a generalizing no vo with
  | nil => simp [rowPuts]
  | cons x a ih =>
    rw [List.cons_append, rowPuts_cons, ih, rowPuts_cons, List.cons_append]
    congr 3 <;> (rw [List.length_cons, Nat.succ_mul]; omega)

theorem flatRows_length {width : Nat} {l : List (Nat × List Int)} (hw : ∀ x ∈ l, x.2.length + 1 = width) :
    (flatRows l).length = l.length * width := by
  induction l with
  | nil => simp [flatRows]
  | cons x l ih =>
    have := ih fun y hy => hw y (by simp [hy])
    have h1 := hw x (by simp)
    simp only [flatRows, List.flatMap_cons, List.length_append, List.length_cons] at this ⊢
    rw [this, Nat.succ_mul]
    omega

theorem flatRows_append (a b : List (Nat × List Int)) : flatRows (a ++ b) = flatRows a ++ flatRows b := by
  simp [flatRows]

/-- The inner loop over the rows `l`, which begin at `no`. -/
theorem sparsePuts_rows (r : SparseReply) (F j width inc stop : Nat) (hwidth : 0 < width) : ∀ (l : List (Nat × List Int)) (k no vo : Nat)
    (pre post : List Int), r.indices = pre ++ flatRows l ++ post → pre.length = no → l.length ≤ k →
    (∀ x ∈ l, x.2.length + 1 = width) → stop = no + l.length * width →
    (∀ x ∈ l, r.stamps[x.1 * F + j]? = some 0) →
    sparsePuts r F j width inc stop k no vo =
      some (rowPuts F j width inc l no vo, no + l.length * width, vo + l.length * inc)
  | [], k, no, vo, pre, post, _, _, _, _, hstop, _ => by
    cases k with
    | zero => simp [sparsePuts, rowPuts]
    | succ k => rw [sparsePuts, if_neg (by simp at hstop; omega)]; simp [rowPuts]
  | x :: l, 0, no, vo, pre, post, _, _, hk, _, _, _ => by simp at hk
  | x :: l, k + 1, no, vo, pre, post, hidx, hpre, hk, hw, hstop, hst => by
    have hx := hw x (by simp)
    have hget : r.indices[no]? = some (x.1 : Int) := by
      rw [hidx, flatRows, List.flatMap_cons, List.append_assoc, List.getElem?_append_right (by omega), hpre, Nat.sub_self]
      rfl
    have hlt : no < stop := by rw [hstop, List.length_cons, Nat.succ_mul]; omega
    have ih := sparsePuts_rows r F j width inc stop hwidth l k (no + width) (vo + inc) (pre ++ ((x.1 : Int) :: x.2)) post
      (by rw [hidx, flatRows, List.flatMap_cons]; simp [flatRows]) (by simp; omega) (by simpa using hk)
      (fun y hy => hw y (by simp [hy])) (by rw [hstop, List.length_cons, Nat.succ_mul]; omega)
      fun y hy => hst y (by simp [hy])
    rw [sparsePuts, if_pos hlt, hget, Option.bind_some, if_neg (by omega), Int.toNat_natCast, hst x (by simp),
      Option.bind_some, ih, Option.map_some, rowPuts_cons, List.length_cons, Nat.succ_mul, Nat.succ_mul]
    simp only [Option.some.injEq, Prod.mk.injEq, true_and]
    constructor <;> omega

/-- A reply that carries the sparse values `val i j` of `n` nodes (edges) `i` and `F` features `j`, all values of feature
`j` with dimension `dim j` and `size j` bytes. -/
structure SparseOk (n F : Nat) (dim size : Nat → Nat) (val : Nat → Nat → Option Sparse) (r : SparseReply) : Prop where
  vals : ∀ i < n, ∀ j < F, ∀ x, val i j = some x → x.Ok ∧ x.dim = dim j ∧ ∀ v ∈ x.values, v.length = size j
  dims : r.dims = (List.range F).map fun j => if ∃ i, i < n ∧ (val i j).isSome then dim j else 0
  indices : r.indices = (List.range F).flatMap fun j => flatRows (allRows n fun i => val i j)
  indexCounts : r.indexCounts = (List.range F).map fun j => (flatRows (allRows n fun i => val i j)).length
  values : r.values = (List.range F).flatMap fun j => allBytes n fun i => val i j
  valueCounts : r.valueCounts = (List.range F).map fun j => (allBytes n fun i => val i j).length
  stamps : ∀ i < n, ∀ j < F, (val i j).isSome → r.stamps[i * F + j]? = some 0

variable {n F : Nat} {dim size : Nat → Nat} {val : Nat → Nat → Option Sparse} {r : SparseReply}

theorem SparseOk.row_width (h : SparseOk n F dim size val r) {j : Nat} (hj : j < F) :
    ∀ x ∈ allRows n fun i => val i j, x.2.length + 1 = dim j + 1 ∧ x.1 < n ∧ (val x.1 j).isSome := by
  intro x hx
  obtain ⟨i, hi, hx⟩ := List.mem_flatMap.1 hx
  rw [List.mem_range] at hi
  unfold posRows at hx
  cases hv : val i j with
  | none => simp [hv] at hx
  | some y =>
    simp only [hv] at hx
    obtain ⟨row, hr, rfl⟩ := List.mem_map.1 hx
    obtain ⟨h1, h2, -⟩ := h.vals i hi j hj y hv
    exact ⟨by simp only [h1.rows row hr, h2], hi, by simp [hv]⟩

theorem flatten_size {s : Nat} {vs : List Bytes} (h : ∀ v ∈ vs, v.length = s) : vs.flatten.length = vs.length * s := by
  induction vs with
  | nil => simp
  | cons v vs ih =>
    rw [List.flatten_cons, List.length_append, ih fun v hv => h v (by simp [hv]), h v (by simp), List.length_cons, Nat.succ_mul]
    omega

/-- Values take as many times `size j` bytes as there are rows. -/
theorem SparseOk.bytes_length (h : SparseOk n F dim size val r) {j : Nat} (hj : j < F) (l : List Nat) (hl : ∀ i ∈ l, i < n) :
    (l.flatMap fun i => valBytes (val i j)).length = (l.flatMap fun i => posRows (val i j) i).length * size j := by
  induction l with
  | nil => simp
  | cons i l ih =>
    rw [List.flatMap_cons, List.flatMap_cons, List.length_append, List.length_append, ih fun i hi => hl i (by simp [hi]),
      Nat.add_mul]
    congr 1
    cases hv : val i j with
    | none => simp [valBytes, posRows]
    | some x =>
      obtain ⟨h1, -, h3⟩ := h.vals i (hl i (by simp)) j hj x hv
      simp only [valBytes, posRows, List.length_map]
      rw [flatten_size h3, h1.count]

theorem flatMap_range_split {β : Type} (f : Nat → List β) {j F : Nat} (hj : j < F) :
    (List.range F).flatMap f = (List.range j).flatMap f ++ f j ++ ((List.range F).drop (j + 1)).flatMap f := by
  have h1 : List.range F = List.range j ++ j :: (List.range F).drop (j + 1) := by
    conv => lhs; rw [← List.take_append_drop j (List.range F), List.take_range, Nat.min_eq_left (by omega),
      List.drop_eq_getElem_cons (by simpa using hj), List.getElem_range]
  conv => lhs; rw [h1]
  rw [List.flatMap_append, List.flatMap_cons, List.append_assoc]

/-- The critical section of server `shard` for feature `j`. -/
def sectionOf (n F : Nat) (dim size : Nat → Nat) (val : Nat → Nat → Option Sparse) (shard j : Nat) : SparseStep :=
  ⟨shard, j, dim j, size j, rowPuts F j (dim j + 1) (size j) (allRows n fun i => val i j)
    ((List.range j).flatMap fun j => flatRows (allRows n fun i => val i j)).length
    ((List.range j).flatMap fun j => allBytes n fun i => val i j).length⟩

theorem rows_nil_iff (h : SparseOk n F dim size val r) {j : Nat} (hj : j < F) :
    allRows n (fun i => val i j) = [] ↔ ¬ ∃ i, i < n ∧ (val i j).isSome := by
  constructor
  · rintro h1 ⟨i, hi, hv⟩
    obtain ⟨x, hx⟩ := Option.isSome_iff_exists.1 hv
    obtain ⟨h2, -, -⟩ := h.vals i hi j hj x hx
    have h3 := List.flatMap_eq_nil_iff.1 h1 i (List.mem_range.2 hi)
    simp only [hx, posRows, List.map_eq_nil_iff] at h3
    have := h2.count
    rw [h3] at this
    exact h2.nonempty (List.eq_nil_of_length_eq_zero this.symm)
  · intro h1
    apply List.flatMap_eq_nil_iff.2
    intro i hi
    cases hv : val i j with
    | none => simp only [hv, posRows]
    | some x => exact absurd ⟨i, List.mem_range.1 hi, by simp [hv]⟩ h1

theorem SparseOk.dim_pos (h : SparseOk n F dim size val r) {j : Nat} (hj : j < F) (he : ∃ i, i < n ∧ (val i j).isSome) :
    0 < dim j := by
  obtain ⟨i, hi, hv⟩ := he
  obtain ⟨x, hx⟩ := Option.isSome_iff_exists.1 hv
  obtain ⟨h1, h2, -⟩ := h.vals i hi j hj x hx
  rw [← h2]
  exact h1.dim_pos

theorem sparseLoop_ok (h : SparseOk n F dim size val r) (shard : Nat) : ∀ (k j : Nat), j + k = F →
    sparseLoop r shard F (r.dims.drop j) j
      ((List.range j).flatMap fun j => flatRows (allRows n fun i => val i j)).length
      ((List.range j).flatMap fun j => allBytes n fun i => val i j).length
      ((List.range j).flatMap fun j => flatRows (allRows n fun i => val i j)).length =
    some (((List.range' j k).filter fun j => !(allRows n fun i => val i j).isEmpty).map (sectionOf n F dim size val shard))
  | 0, j, hk => by
    rw [List.drop_eq_nil_of_le (by rw [h.dims]; simp; omega)]
    rfl
  | k + 1, j, hk => by
    have hj : j < F := by omega
    have ih := sparseLoop_ok h shard k (j + 1) (by omega)
    have hd : r.dims.drop j = (if ∃ i, i < n ∧ (val i j).isSome then dim j else 0) :: r.dims.drop (j + 1) := by
      rw [List.drop_eq_getElem_cons (by rw [h.dims]; simpa using hj)]
      congr 1
      simp [h.dims]
    rw [hd, List.range'_succ, List.filter_cons]
    have hnext : ∀ {β : Type} (f : Nat → List β), ((List.range (j + 1)).flatMap f).length =
        ((List.range j).flatMap f).length + (f j).length := by
      intro β f
      rw [List.range_succ, List.flatMap_append, List.length_append]
      simp
    rw [hnext, hnext] at ih
    by_cases he : ∃ i, i < n ∧ (val i j).isSome
    · have hne : allRows n (fun i => val i j) ≠ [] := fun hn => (rows_nil_iff h hj).1 hn he
      have hpos := h.dim_pos hj he
      have hfl := flatRows_length (width := dim j + 1) fun x hx => (h.row_width hj x hx).1
      have hbl : (allBytes n fun i => val i j).length = (allRows n fun i => val i j).length * size j :=
        h.bytes_length hj (List.range n) (by simp)
      have hrl : 0 < (allRows n fun i => val i j).length := List.length_pos_iff.2 hne
      have hinc : (allBytes n fun i => val i j).length * (dim j + 1) / (flatRows (allRows n fun i => val i j)).length = size j := by
        rw [hfl, hbl, Nat.mul_assoc, Nat.mul_div_mul_left _ _ hrl, Nat.mul_div_cancel _ (by omega)]
      rw [if_pos he, if_pos (by simp [hne]), sparseLoop, if_neg (by omega)]
      have hic : r.indexCounts[j]? = some (flatRows (allRows n fun i => val i j)).length := by
        rw [h.indexCounts, List.getElem?_map, List.getElem?_range hj]; rfl
      have hvc : r.valueCounts[j]? = some (allBytes n fun i => val i j).length := by
        rw [h.valueCounts, List.getElem?_map, List.getElem?_range hj]; rfl
      have hsplit := flatMap_range_split (fun j => flatRows (allRows n fun i => val i j)) hj
      rw [← h.indices] at hsplit
      have hlen : (allRows n fun i => val i j).length ≤ r.indices.length := by
        rw [hsplit, List.length_append, List.length_append, hfl]
        have := Nat.le_mul_of_pos_right (allRows n fun i => val i j).length (by omega : 0 < dim j + 1)
        omega
      have hputs := sparsePuts_rows r F j (dim j + 1) (size j)
        (((List.range j).flatMap fun j => flatRows (allRows n fun i => val i j)).length + (flatRows (allRows n fun i => val i j)).length)
        (by omega) (allRows n fun i => val i j) r.indices.length
        ((List.range j).flatMap fun j => flatRows (allRows n fun i => val i j)).length
        ((List.range j).flatMap fun j => allBytes n fun i => val i j).length _ _ hsplit rfl hlen
        (fun x hx => (h.row_width hj x hx).1) (by rw [hfl])
        (fun x hx => h.stamps x.1 (h.row_width hj x hx).2.1 j hj (h.row_width hj x hx).2.2)
      rw [hic, hvc, Option.bind_some, Option.bind_some, if_neg (by rw [hfl]; exact Nat.ne_of_gt (Nat.mul_pos hrl (by omega))),
        hinc, hputs, Option.bind_some]
      simp only []
      rw [← hfl, ← hbl, ih, Option.map_some, List.map_cons]
      rfl
    · have hnil := (rows_nil_iff h hj).2 he
      have hby : (allBytes n fun i => val i j).length = 0 := by
        have := h.bytes_length hj (List.range n) (by simp)
        have h2 : ((List.range n).flatMap fun i => posRows (val i j) i) = [] := hnil
        rw [h2, List.length_nil, Nat.zero_mul] at this
        exact this
      rw [if_neg he, if_neg (by simp [hnil]), sparseLoop, if_pos rfl]
      rw [hnil, hby] at ih
      simpa [flatRows] using ih

theorem sparseSteps_ok (h : SparseOk n F dim size val r) (shard : Nat) : sparseSteps shard F r =
    some (((List.range F).filter fun j => !(allRows n fun i => val i j).isEmpty).map (sectionOf n F dim size val shard)) := by
  unfold sparseSteps
  split
  · next hz =>
    rw [h.indices, List.flatMap_eq_nil_iff] at hz
    have : (List.range F).filter (fun j => !(allRows n fun i => val i j).isEmpty) = [] := by
      rw [List.filter_eq_nil_iff]
      intro j hj
      have := hz j hj
      cases hr : allRows n fun i => val i j with
      | nil => simp
      | cons x l => rw [hr] at this; simp [flatRows] at this
    rw [this]; rfl
  · have := sparseLoop_ok h shard F 0 (by omega)
    rw [List.range_eq_range']
    simpa using this

/-- An iteration on one item of `response_index`. -/
def putCell (shard width inc : Nat) (p : SparsePut) (c : SparseCell) : SparseCell :=
  if p.ts ≤ -1 ∨ c.shard.any (fun s => decide (s ≠ shard)) = true then c
  else
    let c := if c.indexCount = 0 then { c with shard := some shard, index := p.index, value := p.value } else c
    { c with indexCount := c.indexCount + width, valueCount := c.valueCount + inc }

theorem put_get (shard width inc : Nat) (cells : List SparseCell) (p : SparsePut) (k : Nat) :
    (SparsePut.run shard width inc cells p)[k]? =
      (cells[k]?).map fun c => if p.cell = k then putCell shard width inc p c else c := by
  unfold SparsePut.run
  cases hc : cells[p.cell]? with
  | none =>
    simp only []
    by_cases hk : p.cell = k
    · rw [← hk, hc]; rfl
    · simp [hk]
  | some c =>
    simp only []
    by_cases hk : p.cell = k
    · subst hk
      rw [hc, Option.map_some, if_pos rfl]
      unfold putCell
      split
      · rw [hc]
      · rw [List.getElem?_set_self (List.getElem?_eq_some_iff.1 hc).1]
    · simp only [if_neg hk]
      split
      · simp
      · rw [List.getElem?_set_ne hk]; simp

theorem puts_get (shard width inc : Nat) (ps : List SparsePut) (k : Nat) (cells : List SparseCell) :
    (ps.foldl (SparsePut.run shard width inc) cells)[k]? =
      (cells[k]?).map fun c => ps.foldl (fun c p => if p.cell = k then putCell shard width inc p c else c) c := by
  induction ps generalizing cells with
  | nil => simp
  | cons p ps ih =>
    rw [List.foldl_cons, ih, put_get, Option.map_map]
    rfl

theorem rows_foreign (shard width inc F j k : Nat) (l : List (Nat × List Int)) (no vo : Nat) (c : SparseCell)
    (h : ∀ x ∈ l, x.1 * F + j ≠ k) :
    (rowPuts F j width inc l no vo).foldl (fun c p => if p.cell = k then putCell shard width inc p c else c) c = c := by
  induction l generalizing no vo with
  | nil => rfl
  | cons x l ih =>
    rw [rowPuts_cons, List.foldl_cons, if_neg (h x (by simp))]
    exact ih _ _ fun y hy => h y (by simp [hy])

/-- An item that another server has filled stays as it is. -/
theorem rows_taken (shard width inc F j k : Nat) (l : List (Nat × List Int)) (no vo : Nat) (c : SparseCell) {s : Nat}
    (hc : c.shard = some s) (hs : s ≠ shard) :
    (rowPuts F j width inc l no vo).foldl (fun c p => if p.cell = k then putCell shard width inc p c else c) c = c := by
  induction l generalizing no vo with
  | nil => rfl
  | cons x l ih =>
    rw [rowPuts_cons, List.foldl_cons]
    have : (if x.1 * F + j = k then putCell shard width inc ⟨x.1 * F + j, no, vo, 0⟩ c else c) = c := by
      split
      · simp [putCell, hc, hs]
      · rfl
    simp only [this]
    exact ih _ _

/-- Further rows are counted. -/
theorem rows_more (shard width inc F j k : Nat) (hw : 0 < width) (l : List (Nat × List Int)) (no vo : Nat) (c : SparseCell)
    (h : ∀ x ∈ l, x.1 * F + j = k) (hc : c.shard = some shard) (hi : 0 < c.indexCount) :
    (rowPuts F j width inc l no vo).foldl (fun c p => if p.cell = k then putCell shard width inc p c else c) c =
      { c with indexCount := c.indexCount + l.length * width, valueCount := c.valueCount + l.length * inc } := by
  induction l generalizing no vo c with
  | nil => simp [rowPuts]
  | cons x l ih =>
    rw [rowPuts_cons, List.foldl_cons, if_pos (h x (by simp))]
    have hp : putCell shard width inc ⟨x.1 * F + j, no, vo, 0⟩ c =
        { c with indexCount := c.indexCount + width, valueCount := c.valueCount + inc } := by
      have : ¬ c.indexCount = 0 := by omega
      simp [putCell, hc, this]
    rw [hp, ih _ _ _ (fun y hy => h y (by simp [hy])) (by exact hc) (by simp only []; omega)]
    simp only [List.length_cons, Nat.succ_mul]
    congr 1 <;> omega

/-- The first rows of an item. -/
theorem rows_first (shard width inc F j k : Nat) (hw : 0 < width) (l : List (Nat × List Int)) (no vo : Nat)
    (h : ∀ x ∈ l, x.1 * F + j = k) (hl : l ≠ []) :
    (rowPuts F j width inc l no vo).foldl (fun c p => if p.cell = k then putCell shard width inc p c else c) {} =
      ⟨some shard, no, l.length * width, vo, l.length * inc⟩ := by
  cases l with
  | nil => exact absurd rfl hl
  | cons x l =>
    rw [rowPuts_cons, List.foldl_cons, if_pos (h x (by simp))]
    have hp : putCell shard width inc ⟨x.1 * F + j, no, vo, 0⟩ {} = ⟨some shard, no, width, vo, inc⟩ := by
      simp [putCell]
    rw [hp, rows_more shard width inc F j k hw l _ _ _ (fun y hy => h y (by simp [hy])) rfl hw]
    simp only [List.length_cons, Nat.succ_mul]
    congr 1 <;> omega

/-- The rows before and behind those of position `i`. -/
theorem allRows_split (w : Nat → Option Sparse) {i : Nat} (hi : i < n) : ∃ post : List (Nat × List Int),
    allRows n w = allRows i w ++ posRows (w i) i ++ post ∧
    (∀ x ∈ allRows i w, x.1 ≠ i) ∧ ∀ x ∈ post, x.1 ≠ i := by
  have hpos : ∀ i', ∀ x ∈ posRows (w i') i', x.1 = i' := by
    intro i' x hx
    unfold posRows at hx
    split at hx
    · simp at hx
    · obtain ⟨row, -, rfl⟩ := List.mem_map.1 hx; rfl
  refine ⟨_, flatMap_range_split (fun i => posRows (w i) i) hi, ?_, ?_⟩
  · intro x hx
    obtain ⟨i', hi', hx⟩ := List.mem_flatMap.1 hx
    have := hpos i' x hx
    have := List.mem_range.1 hi'
    omega
  · intro x hx
    obtain ⟨i', hi', hx⟩ := List.mem_flatMap.1 hx
    have := hpos i' x hx
    obtain ⟨k, hk⟩ := List.mem_iff_getElem?.1 hi'
    rw [List.getElem?_drop] at hk
    have := List.getElem?_eq_some_iff.1 hk
    obtain ⟨h1, h2⟩ := this
    rw [List.getElem_range] at h2
    omega

/-- Offsets of feature `j` of position `i` in a reply. -/
def idxOff (n : Nat) (val : Nat → Nat → Option Sparse) (w : Nat) (i j : Nat) : Nat :=
  ((List.range j).flatMap fun j => flatRows (allRows n fun i => val i j)).length + (allRows i fun i => val i j).length * w
def valOff (n : Nat) (val : Nat → Nat → Option Sparse) (s : Nat) (i j : Nat) : Nat :=
  ((List.range j).flatMap fun j => allBytes n fun i => val i j).length + (allRows i fun i => val i j).length * s

/-- The item of `response_index` for the value of server `s`. -/
def cellOf (n : Nat) (dim size : Nat → Nat) (val : Nat → Nat → Option Sparse) (s i j : Nat) : SparseCell :=
  ⟨some s, idxOff n val (dim j + 1) i j, (posRows (val i j) i).length * (dim j + 1), valOff n val (size j) i j,
    (posRows (val i j) i).length * size j⟩

theorem cell_eq_iff {F i j i' j' : Nat} (hj : j < F) (hj' : j' < F) : i * F + j = i' * F + j' ↔ i = i' ∧ j = j' := by
  constructor
  · intro h
    have h1 : (i * F + j) % F = (i' * F + j') % F := by rw [h]
    rw [Nat.mul_comm i, Nat.mul_comm i', Nat.mul_add_mod, Nat.mul_add_mod, Nat.mod_eq_of_lt hj, Nat.mod_eq_of_lt hj'] at h1
    subst h1
    have h2 : i * F = i' * F := by omega
    exact ⟨Nat.eq_of_mul_eq_mul_right (by omega) h2, rfl⟩
  · rintro ⟨rfl, rfl⟩; rfl

/-- A critical section on an item of its feature that is empty. -/
theorem section_first (shard : Nat) {i j : Nat} (hi : i < n) (hj : j < F) (hv : posRows (val i j) i ≠ [])  :
    (sectionOf n F dim size val shard j).puts.foldl
      (fun c p => if p.cell = i * F + j then putCell shard (dim j + 1) (size j) p c else c) {} =
      cellOf n dim size val shard i j := by
  obtain ⟨post, h1, h2, h3⟩ := allRows_split (fun i => val i j) hi
  have hpos : ∀ x ∈ posRows (val i j) i, x.1 = i := by
    intro x hx
    unfold posRows at hx
    split at hx
    · simp at hx
    · obtain ⟨row, -, rfl⟩ := List.mem_map.1 hx; rfl
  simp only [sectionOf]
  rw [h1, rowPuts_append, rowPuts_append, List.foldl_append, List.foldl_append,
    rows_foreign _ _ _ _ _ _ _ _ _ _ (fun x hx h => h2 x hx ((cell_eq_iff hj hj).1 h).1),
    rows_first _ _ _ _ _ _ (by omega) _ _ _ (fun x hx => by rw [hpos x hx]) hv,
    rows_foreign _ _ _ _ _ _ _ _ _ _ (fun x hx h => h3 x hx ((cell_eq_iff hj hj).1 h).1)]
  rfl

theorem section_none (shard : Nat) {i j : Nat} (hi : i < n) (hj : j < F) (hv : posRows (val i j) i = []) (c : SparseCell) :
    (sectionOf n F dim size val shard j).puts.foldl
      (fun c p => if p.cell = i * F + j then putCell shard (dim j + 1) (size j) p c else c) c = c := by
  obtain ⟨post, h1, h2, h3⟩ := allRows_split (fun i => val i j) hi
  simp only [sectionOf]
  rw [h1, hv, List.append_nil, rows_foreign]
  intro x hx h
  rcases List.mem_append.1 hx with hx | hx
  · exact h2 x hx ((cell_eq_iff hj hj).1 h).1
  · exact h3 x hx ((cell_eq_iff hj hj).1 h).1

theorem section_other (shard w inc : Nat) {i j j' : Nat} (hj : j < F) (hj' : j' < F) (hne : j' ≠ j) (c : SparseCell) :
    (sectionOf n F dim size val shard j').puts.foldl
      (fun c p => if p.cell = i * F + j then putCell shard w inc p c else c) c = c := by
  simp only [sectionOf, rowPuts]
  generalize (allRows n fun i => val i j').zipIdx = l
  induction l generalizing c with
  | nil => rfl
  | cons x l ih =>
    rw [List.map_cons, List.foldl_cons, if_neg (fun h => hne ((cell_eq_iff hj' hj).1 h).2)]
    exact ih c

/-- What has been collected after the critical sections `done`. -/
structure SparseInv (n F : Nat) (dim size : Nat → Nat) (vals : Nat → Nat → Nat → Option Sparse) (done : List SparseStep)
    (s : List SparseCell × List Nat) : Prop where
  cells : ∀ i < n, ∀ j < F, ∃ c, s.1[i * F + j]? = some c ∧
    ((c = {} ∧ ∀ w ∈ done, w.feature = j → vals w.shard i j = none) ∨
      ∃ w ∈ done, w.feature = j ∧ (vals w.shard i j).isSome ∧ c = cellOf n dim size (vals w.shard) w.shard i j)
  dims : ∀ j < F, s.2[j]? = some (if ∃ w ∈ done, w.feature = j then dim j else 0)

theorem SparseInv.step {vals : Nat → Nat → Nat → Option Sparse} {done : List SparseStep} {s : List SparseCell × List Nat}
    (hI : SparseInv n F dim size vals done s) {t j : Nat} (hj : j < F) (hnew : ∀ w ∈ done, w.feature = j → w.shard ≠ t)
    (hok : ∀ i < n, ∀ x, vals t i j = some x → x.coords ≠ []) :
    ∃ s', SparseStep.run s (sectionOf n F dim size (vals t) t j) = some s' ∧
      SparseInv n F dim size vals (done ++ [sectionOf n F dim size (vals t) t j]) s' := by
  have hd := hI.dims j hj
  have hemp : ∀ i < n, (posRows (vals t i j) i = [] ↔ vals t i j = none) := by
    intro i hi
    cases hv : vals t i j with
    | none => simp [posRows]
    | some x => simp [posRows, hok i hi x hv]
  unfold SparseStep.run
  have hf : (sectionOf n F dim size (vals t) t j).feature = j := rfl
  have hdm : (sectionOf n F dim size (vals t) t j).dim = dim j := rfl
  rw [hf, hd, Option.bind_some, if_neg (by rw [hdm]; split <;> simp)]
  refine ⟨_, rfl, ⟨fun i hi j' hj' => ?_, fun j' hj' => ?_⟩⟩
  · obtain ⟨c, hc, hcase⟩ := hI.cells i hi j' hj'
    simp only []
    rw [puts_get, hc, Option.map_some]
    refine ⟨_, rfl, ?_⟩
    by_cases hjj : j = j'
    · subst hjj
      rcases hcase with ⟨rfl, hnone⟩ | ⟨w, hw, hwj, hwv, rfl⟩
      · by_cases hv : vals t i j = none
        · left
          refine ⟨section_none t hi hj ((hemp i hi).2 hv) _, fun w hw hwj => ?_⟩
          rcases List.mem_append.1 hw with hw | hw
          · exact hnone w hw hwj
          · rw [List.mem_singleton.1 hw]; exact hv
        · right
          refine ⟨sectionOf n F dim size (vals t) t j, by simp, rfl, ?_, ?_⟩
          · exact Option.isSome_iff_ne_none.2 hv
          · exact section_first t hi hj (fun h => hv ((hemp i hi).1 h))
      · right
        exact ⟨w, by simp [hw], hwj, hwv, rows_taken t _ _ F j _ _ _ _ _ (s := w.shard) rfl (hnew w hw hwj)⟩
    · have : ∀ x : SparseCell, (sectionOf n F dim size (vals t) t j).puts.foldl (fun c p => if p.cell = i * F + j' then
          putCell (sectionOf n F dim size (vals t) t j).shard ((sectionOf n F dim size (vals t) t j).dim + 1)
            (sectionOf n F dim size (vals t) t j).inc p c else c) x = x :=
        fun x => section_other t _ _ hj' hj hjj x
      rw [this]
      rcases hcase with ⟨h1, hnone⟩ | ⟨w, hw, h1⟩
      · refine Or.inl ⟨h1, fun w hw hwj => ?_⟩
        rcases List.mem_append.1 hw with hw | hw
        · exact hnone w hw hwj
        · rw [List.mem_singleton.1 hw] at hwj; exact absurd hwj hjj
      · exact Or.inr ⟨w, by simp [hw], h1⟩
  · simp only []
    by_cases hjj : j = j'
    · subst hjj
      rw [List.getElem?_set_self (List.getElem?_eq_some_iff.1 hd).1, if_pos ⟨sectionOf n F dim size (vals t) t j, by simp, rfl⟩, hdm]
    · rw [List.getElem?_set_ne hjj, hI.dims j' hj']
      congr 2
      apply propext
      constructor
      · rintro ⟨w, hw, h1⟩; exact ⟨w, by simp [hw], h1⟩
      · rintro ⟨w, hw, h1⟩
        rcases List.mem_append.1 hw with hw | hw
        · exact ⟨w, hw, h1⟩
        · rw [List.mem_singleton.1 hw] at h1; exact absurd h1 hjj

theorem SparseInv.run {vals : Nat → Nat → Nat → Option Sparse} : ∀ (steps done : List SparseStep)
    (s : List SparseCell × List Nat), SparseInv n F dim size vals done s →
    (∀ w ∈ steps, w.feature < F ∧ w = sectionOf n F dim size (vals w.shard) w.shard w.feature ∧
      ∀ i < n, ∀ x, vals w.shard i w.feature = some x → x.coords ≠ []) →
    (done ++ steps).Pairwise (fun a b => a.feature = b.feature → a.shard ≠ b.shard) →
    ∃ s', steps.foldlM SparseStep.run s = some s' ∧ SparseInv n F dim size vals (done ++ steps) s'
  | [], done, s, hI, _, _ => ⟨s, rfl, by simpa using hI⟩
  | w :: steps, done, s, hI, hst, hpw => by
    obtain ⟨h1, h2, h3⟩ := hst w (by simp)
    have hnew : ∀ v ∈ done, v.feature = w.feature → v.shard ≠ w.shard :=
      fun v hv => (List.pairwise_append.1 hpw).2.2 v hv w (by simp)
    obtain ⟨s1, h4, h5⟩ := hI.step h1 hnew h3
    rw [← h2] at h4 h5
    obtain ⟨s2, h6, h7⟩ := SparseInv.run steps (done ++ [w]) s1 h5 (fun v hv => hst v (by simp [hv])) (by simpa using hpw)
    refine ⟨s2, ?_, by simpa using h7⟩
    rw [List.foldlM_cons, h4]
    exact h6

/-- What is copied from a reply. -/
theorem extract_cell (h : SparseOk n F dim size val r) {replies : List SparseReply} {s : Nat} (hr : replies[s]? = some r)
    {i j : Nat} (hi : i < n) (hj : j < F) (hv : (val i j).isSome) :
    extractSparse replies (cellOf n dim size val s i j) = some (flatRows (posRows (val i j) i), valBytes (val i j)) := by
  obtain ⟨x, hx⟩ := Option.isSome_iff_exists.1 hv
  obtain ⟨hxo, hxd, hxs⟩ := h.vals i hi j hj x hx
  obtain ⟨post, hsp, -, -⟩ := allRows_split (fun i => val i j) hi
  have hrows : ∀ y ∈ allRows n fun i => val i j, y.2.length + 1 = dim j + 1 := fun y hy => (h.row_width hj y hy).1
  have hA : (flatRows (allRows i fun i => val i j)).length = (allRows i fun i => val i j).length * (dim j + 1) :=
    flatRows_length fun y hy => hrows y (by rw [hsp]; simp [hy])
  have hB : (flatRows (posRows (val i j) i)).length = (posRows (val i j) i).length * (dim j + 1) :=
    flatRows_length fun y hy => hrows y (by rw [hsp]; simp [hy])
  have hidx : r.indices = (((List.range j).flatMap fun j => flatRows (allRows n fun i => val i j)) ++
      flatRows (allRows i fun i => val i j)) ++ flatRows (posRows (val i j) i) ++
      (flatRows post ++ ((List.range F).drop (j + 1)).flatMap fun j => flatRows (allRows n fun i => val i j)) := by
    rw [h.indices, flatMap_range_split _ hj, hsp, flatRows_append, flatRows_append]
    simp only [List.append_assoc]
  have hvA : ((List.range i).flatMap fun i => valBytes (val i j)).length = (allRows i fun i => val i j).length * size j :=
    h.bytes_length hj (List.range i) (fun k hk => by have := List.mem_range.1 hk; omega)
  have hvB : (valBytes (val i j)).length = (posRows (val i j) i).length * size j := by
    have := h.bytes_length hj [i] (by simp [hi])
    simpa using this
  have hval : r.values = (((List.range j).flatMap fun j => allBytes n fun i => val i j) ++
      ((List.range i).flatMap fun i => valBytes (val i j))) ++ valBytes (val i j) ++
      (((List.range n).drop (i + 1)).flatMap (fun i => valBytes (val i j)) ++
        ((List.range F).drop (j + 1)).flatMap fun j => allBytes n fun i => val i j) := by
    rw [h.values, flatMap_range_split _ hj, allBytes, flatMap_range_split (fun i => valBytes (val i j)) hi]
    simp only [List.append_assoc]
  have hne : posRows (val i j) i ≠ [] := by
    rw [hx]
    simp only [posRows, ne_eq, List.map_eq_nil_iff]
    intro hn
    have := hxo.count
    rw [hn] at this
    exact hxo.nonempty (List.eq_nil_of_length_eq_zero this.symm)
  have hne2 : r.indices ≠ [] := by
    intro hn
    have h0 : (flatRows (posRows (val i j) i)).length = 0 := by
      have := congrArg List.length hidx
      rw [hn] at this
      simp only [List.length_append, List.length_nil] at this
      omega
    rw [hB] at h0
    have := List.length_pos_iff.2 hne
    have := Nat.mul_pos this (by omega : 0 < dim j + 1)
    omega
  have c1 : copyN r.indices (idxOff n val (dim j + 1) i j) ((posRows (val i j) i).length * (dim j + 1)) =
      some (flatRows (posRows (val i j) i)) := by
    rw [idxOff, ← hA, ← hB, hidx, ← List.length_append]
    exact copyN_exact _ _ _
  have c2 : copyN r.values (valOff n val (size j) i j) ((posRows (val i j) i).length * size j) =
      some (valBytes (val i j)) := by
    rw [valOff, ← hvA, ← hvB, hval, ← List.length_append]
    exact copyN_exact _ _ _
  simp only [extractSparse, cellOf]
  rw [hr, Option.bind_some, if_neg hne2, c1, c2]
  rfl

theorem mapM_range_values {β : Type} (f : Nat → Option β) (v : Nat → β) (k : Nat) (h : ∀ i < k, f i = some (v i)) :
    (List.range k).mapM f = some ((List.range k).map v) := by
  have key : ∀ l : List Nat, (∀ i ∈ l, f i = some (v i)) → l.mapM f = some (l.map v) := by
    intro l
    induction l with
    | nil => intro _; rfl
    | cons a l ih =>
      intro hl
      rw [List.mapM_cons, hl a (by simp), ih fun i hi => hl i (by simp [hi])]
      rfl
  exact key _ fun i hi => h i (List.mem_range.1 hi)

/-- Replies with the values `vals s`: whatever the order of the critical sections, the client returns values `pick` that
come from the servers. -/
theorem remoteSparse_ok (replies : List SparseReply) (vals : Nat → Nat → Nat → Option Sparse)
    (h : ∀ s r, replies[s]? = some r → SparseOk n F dim size (vals s) r) :
    ∃ seqs, sparseSeqs F replies = some seqs ∧ ∀ steps, Interleaved seqs steps → ∃ pick : Nat → Nat → Option Sparse,
      (∀ i < n, ∀ j < F, (∃ s < replies.length, pick i j = vals s i j ∧ (pick i j).isSome) ∨
        (pick i j = none ∧ ∀ s < replies.length, vals s i j = none)) ∧
      remoteSparse n F replies steps = some ((List.range F).map fun j =>
        (if ∃ i, i < n ∧ (pick i j).isSome then dim j else 0,
         (List.range n).flatMap fun i => flatRows (posRows (pick i j) i),
         (List.range n).flatMap fun i => valBytes (pick i j))) := by
  let secs : Nat → List SparseStep := fun s =>
    ((List.range F).filter fun j => !(allRows n fun i => vals s i j).isEmpty).map (sectionOf n F dim size (vals s) s)
  have hseqs : sparseSeqs F replies = some (replies.zipIdx.map fun x => secs x.2) := by
    unfold sparseSeqs
    have key : ∀ (l : List (SparseReply × Nat)), (∀ x ∈ l, replies[x.2]? = some x.1) →
        l.mapM (fun x => sparseSteps x.2 F x.1) = some (l.map fun x => secs x.2) := by
      intro l
      induction l with
      | nil => intro _; rfl
      | cons a l ih =>
        intro hl
        rw [List.mapM_cons, sparseSteps_ok (h a.2 a.1 (hl a (by simp))) a.2, ih fun x hx => hl x (by simp [hx])]
        rfl
    refine key _ fun x hx => ?_
    rwa [List.mem_zipIdx_iff_getElem?] at hx
  refine ⟨_, hseqs, fun steps hst => ?_⟩
  have hseq : ∀ s, (replies.zipIdx.map fun x => secs x.2).getD s [] = if s < replies.length then secs s else [] := by
    intro s
    rw [List.getD_eq_getElem?_getD, List.getElem?_map, List.getElem?_zipIdx]
    split
    · next hs => rw [List.getElem?_eq_getElem hs]; simp
    · next hs => rw [List.getElem?_eq_none_iff.2 (by omega)]; rfl
  have hsec : ∀ s, ∀ w ∈ secs s, w.shard = s ∧ w.feature < F ∧ w = sectionOf n F dim size (vals s) s w.feature := by
    intro s w hw
    obtain ⟨j, hj, rfl⟩ := List.mem_map.1 hw
    exact ⟨rfl, List.mem_range.1 (List.mem_filter.1 hj).1, rfl⟩
  have hmem : ∀ w ∈ steps, w.shard < replies.length ∧ w ∈ secs w.shard := by
    intro w hw
    obtain ⟨T, hT, hf⟩ := hst
    rw [← hT] at hw
    obtain ⟨x, hx, rfl⟩ := List.mem_map.1 hw
    have h1 : x.2 ∈ (replies.zipIdx.map fun x => secs x.2).getD x.1 [] := by
      rw [← hf x.1]
      exact List.mem_map.2 ⟨x, List.mem_filter.2 ⟨hx, by simp⟩, rfl⟩
    rw [hseq] at h1
    split at h1
    · next hs =>
      have := (hsec _ _ h1).1
      rw [this]; exact ⟨hs, h1⟩
    · simp at h1
  have hall : ∀ s < replies.length, ∀ w ∈ secs s, w ∈ steps := by
    intro s hs w hw
    obtain ⟨T, hT, hf⟩ := hst
    have h1 : w ∈ (replies.zipIdx.map fun x => secs x.2).getD s [] := by rw [hseq, if_pos hs]; exact hw
    rw [← hf s] at h1
    obtain ⟨x, hx, rfl⟩ := List.mem_map.1 h1
    rw [← hT]
    exact List.mem_map.2 ⟨x, (List.mem_filter.1 hx).1, rfl⟩
  have hok : ∀ s < replies.length, ∀ i < n, ∀ j < F, ∀ x, vals s i j = some x → x.coords ≠ [] := by
    intro s hs i hi j hj x hx hn
    obtain ⟨h1, -, -⟩ := (h s _ (List.getElem?_eq_getElem hs)).vals i hi j hj x hx
    have := h1.count
    rw [hn] at this
    exact h1.nonempty (List.eq_nil_of_length_eq_zero this.symm)
  have hpw : steps.Pairwise (fun a b => a.feature = b.feature → a.shard ≠ b.shard) := by
    refine interleaved_pairwise hst ?_ ?_
    · intro s
      rw [hseq]
      split
      · rw [List.pairwise_map]
        refine List.Pairwise.imp ?_ ((List.nodup_range (n := F)).filter _)
        intro a b hab hf
        exact absurd hf hab
      · exact .nil
    · intro s t hst' x hx y hy
      rw [hseq] at hx hy
      split at hx
      · split at hy
        · intro _
          rw [(hsec s x hx).1, (hsec t y hy).1]; exact hst'
        · simp at hy
      · simp at hx
  have hI0 : SparseInv n F dim size vals [] (List.replicate (n * F) {}, List.replicate F 0) := by
    refine ⟨fun i hi j hj => ⟨{}, ?_, Or.inl ⟨rfl, by simp⟩⟩, fun j hj => by simp [hj]⟩
    have h1 : (i + 1) * F ≤ n * F := Nat.mul_le_mul_right F hi
    rw [Nat.succ_mul] at h1
    simp only []
    rw [List.getElem?_replicate, if_pos (by omega)]
  obtain ⟨s', hrun, hI⟩ := SparseInv.run steps [] _ hI0 (by
    intro w hw
    obtain ⟨h1, h2⟩ := hmem w hw
    obtain ⟨-, h3, h4⟩ := hsec _ _ h2
    exact ⟨h3, h4, fun i hi x hx => hok _ h1 i hi _ h3 x hx⟩) (by simpa using hpw)
  rw [List.nil_append] at hI
  have hdone : ∀ s < replies.length, ∀ i < n, ∀ j < F, (vals s i j).isSome → sectionOf n F dim size (vals s) s j ∈ steps := by
    intro s hs i hi j hj hv
    refine hall s hs _ (List.mem_map.2 ⟨j, List.mem_filter.2 ⟨by simpa using hj, ?_⟩, rfl⟩)
    have : allRows n (fun i => vals s i j) ≠ [] :=
      fun hn => (rows_nil_iff (h s _ (List.getElem?_eq_getElem hs)) hj).1 hn ⟨i, hi, hv⟩
    simpa using this
  let pick : Nat → Nat → Option Sparse := fun i j =>
    (s'.1[i * F + j]?).bind fun c => c.shard.bind fun s => vals s i j
  have hpick : ∀ i < n, ∀ j < F, (∃ s < replies.length, ∃ c, s'.1[i * F + j]? = some c ∧ pick i j = vals s i j ∧
        (vals s i j).isSome ∧ c = cellOf n dim size (vals s) s i j) ∨
      (s'.1[i * F + j]? = some {} ∧ pick i j = none ∧ ∀ s < replies.length, vals s i j = none) := by
    intro i hi j hj
    obtain ⟨c, hc, hcase⟩ := hI.cells i hi j hj
    rcases hcase with ⟨rfl, hnone⟩ | ⟨w, hw, hwj, hwv, rfl⟩
    · right
      refine ⟨hc, by simp [pick, hc], fun s hs => ?_⟩
      cases hv : vals s i j with
      | none => rfl
      | some x =>
        have := hnone _ (hdone s hs i hi j hj (by simp [hv])) rfl
        rw [← hv]; exact this
    · left
      exact ⟨w.shard, (hmem w hw).1, _, hc, by simp [pick, hc, cellOf], hwv, rfl⟩
  refine ⟨pick, fun i hi j hj => ?_, ?_⟩
  · rcases hpick i hi j hj with ⟨s, hs, c, -, h1, h2, -⟩ | ⟨-, h1, h2⟩
    · exact Or.inl ⟨s, hs, h1, by rw [h1]; exact h2⟩
    · exact Or.inr ⟨h1, h2⟩
  · unfold remoteSparse
    rw [hrun, Option.bind_some]
    apply mapM_range_values
    intro j hj
    have hd : s'.2[j]? = some (if ∃ i, i < n ∧ (pick i j).isSome then dim j else 0) := by
      rw [hI.dims j hj]
      congr 2
      apply propext
      constructor
      · rintro ⟨w, hw, hwj⟩
        obtain ⟨h1, h2⟩ := hmem w hw
        obtain ⟨j', hj', h3⟩ := List.mem_map.1 h2
        have h4 : j' = j := by rw [← h3] at hwj; exact hwj
        subst h4
        have h5 : allRows n (fun i => vals w.shard i j') ≠ [] := by simpa using (List.mem_filter.1 hj').2
        obtain ⟨i, hi, hv⟩ := Classical.not_not.1 fun hn => h5 ((rows_nil_iff (h _ _ (List.getElem?_eq_getElem h1)) hj).2 hn)
        refine ⟨i, hi, ?_⟩
        rcases hpick i hi j' hj with ⟨s, -, c, -, h7, h8, -⟩ | ⟨-, -, h7⟩
        · rw [h7]; exact h8
        · rw [h7 _ h1] at hv; simp at hv
      · rintro ⟨i, hi, hv⟩
        rcases hpick i hi j hj with ⟨s, hs, c, -, h7, h8, -⟩ | ⟨-, h7, -⟩
        · exact ⟨_, hdone s hs i hi j hj h8, rfl⟩
        · rw [h7] at hv; simp at hv
    rw [hd, Option.bind_some]
    have hrows : (List.range n).mapM (fun i => (s'.1[i * F + j]?).bind (extractSparse replies)) =
        some ((List.range n).map fun i => (flatRows (posRows (pick i j) i), valBytes (pick i j))) := by
      apply mapM_range_values
      intro i hi
      rcases hpick i hi j hj with ⟨s, hs, c, h6, h7, h8, rfl⟩ | ⟨h6, h7, -⟩
      · rw [h6, Option.bind_some, h7, extract_cell (h s _ (List.getElem?_eq_getElem hs)) (List.getElem?_eq_getElem hs) hi hj h8]
      · rw [h6, h7]; rfl
    rw [hrows, Option.map_some, List.flatMap_map, List.flatMap_map]

theorem flatMap_on {α β : Type} {l : List α} {f g : α → List β} (h : ∀ x ∈ l, f x = g x) : l.flatMap f = l.flatMap g := by
  rw [List.flatMap_def, List.flatMap_def, List.map_congr_left h]

theorem zipIdx_flatMap {α β : Type} (G : α → Nat → List β) (xs : List α) (k : Nat) :
    ((xs.zipIdx k).flatMap fun x => G x.1 x.2) = (List.range' k xs.length).flatMap fun i => (xs[i - k]?).elim [] (G · i) := by
  induction xs generalizing k with
  | nil => rfl
  | cons x xs ih =>
    rw [List.zipIdx_cons, List.flatMap_cons, ih, List.length_cons, List.range'_succ, List.flatMap_cons]
    congr 1
    · simp
    · refine flatMap_on fun i hi => ?_
      have := List.mem_range'_1.1 hi
      rw [show i - k = (i - (k + 1)) + 1 by omega, List.getElem?_cons_succ]

theorem map_positions {α β : Type} (l : List α) (f : α → β) (g : Nat → β) (h : ∀ j a, l[j]? = some a → f a = g j) :
    l.map f = (List.range l.length).map g := by
  apply List.ext_getElem?
  intro j
  rw [List.getElem?_map, List.getElem?_map]
  by_cases hj : j < l.length
  · rw [List.getElem?_range hj, List.getElem?_eq_getElem hj, Option.map_some, Option.map_some,
      h j _ (List.getElem?_eq_getElem hj)]
  · rw [List.getElem?_eq_none_iff.2 (by omega), List.getElem?_eq_none_iff.2 (by simp; omega)]
    rfl

/-- The contents of a sparse result, by nodes and by positions. -/
theorem sparse_positions {α : Type} (xs : List α) (v : α → Option Sparse) (P : Nat → Option Sparse)
    (hP : ∀ i x, xs[i]? = some x → v x = P i) :
    ((∃ x ∈ xs, (v x).isSome = true) ↔ ∃ i, i < xs.length ∧ (P i).isSome = true) ∧
    (xs.zipIdx.flatMap fun (x : α × Nat) => match v x.1 with
      | none => []
      | some y => y.coords.flatMap fun row => (x.2 : Int) :: row) =
      (List.range xs.length).flatMap (fun i => flatRows (posRows (P i) i)) ∧
    (xs.flatMap fun x => match v x with
      | none => []
      | some y => y.values.flatten) = (List.range xs.length).flatMap fun i => valBytes (P i) := by
  refine ⟨⟨?_, ?_⟩, ?_, ?_⟩
  · rintro ⟨x, hx, h1⟩
    obtain ⟨i, hi⟩ := List.mem_iff_getElem?.1 hx
    exact ⟨i, (List.getElem?_eq_some_iff.1 hi).1, by rw [← hP i x hi]; exact h1⟩
  · rintro ⟨i, hi, h1⟩
    exact ⟨xs[i], List.getElem_mem hi, by rw [hP i _ (List.getElem?_eq_getElem hi)]; exact h1⟩
  · rw [zipIdx_flatMap (fun x i => match v x with
      | none => []
      | some y => y.coords.flatMap fun row => (i : Int) :: row) xs 0, ← List.range_eq_range']
    refine flatMap_on fun i hi => ?_
    have hi := List.mem_range.1 hi
    rw [Nat.sub_zero, List.getElem?_eq_getElem hi, Option.elim_some, hP i _ (List.getElem?_eq_getElem hi)]
    cases P i <;> simp [posRows, flatRows, List.flatMap_map]
  · rw [List.flatMap_def, List.flatMap_def, map_positions xs _ (fun i => valBytes (P i))]
    intro i x hx
    rw [hP i x hx]
    rfl

/-- A request served: the collected features and the flags. -/
theorem serveSparses_ok {α : Type} (q : α → Nat → List SparseState → Option (List SparseState)) (feats : List Nat)
    (val : Nat → α → Option Sparse) (xs : List α)
    (hq : ∀ x ∈ xs, ∀ (i : Nat) (ss : List SparseState), feats.length = ss.length → (∀ s ∈ ss, s.flag = -1) →
      q x i ss = some (List.zipWith (fun f s => stepSparse i (val f x) s) feats ss)) (i : Nat) (ss : List SparseState)
    (hss : feats.length = ss.length) :
    serveSparses q xs i ss = some (List.zipWith (fun f s => sparseFold (val f) (xs.zipIdx i) s) feats ss,
      xs.flatMap fun x => feats.map fun f => if (val f x).isSome then 0 else -1) := by
  induction xs generalizing i ss with
  | nil =>
    simp only [serveSparses, List.zipIdx_nil, sparseFold, List.foldl_nil, List.flatMap_nil]
    rw [zipWith_snd _ _ hss]
  | cons x xs ih =>
    rw [serveSparses, hq x (by simp) i _ (by simp [hss]) (by
      intro s hs
      obtain ⟨t, -, rfl⟩ := List.mem_map.1 hs
      rfl), Option.bind_some, ih (fun y hy => hq y (by simp [hy])) (i + 1) _ (by simp [hss]), Option.map_some, List.flatMap_cons]
    simp only [Option.some.injEq, Prod.mk.injEq, List.append_cancel_right_eq]
    clear hq ih
    constructor
    · induction feats generalizing ss with
      | nil => rfl
      | cons f fs ih =>
        cases ss with
        | nil => rfl
        | cons s ss =>
          simp only [List.map_cons, List.zipWith_cons_cons]
          rw [ih ss (by simpa using hss)]
          rfl
    · induction feats generalizing ss with
      | nil => rfl
      | cons f fs ih =>
        cases ss with
        | nil => simp at hss
        | cons s ss =>
          simp only [List.map_cons, List.zipWith_cons_cons]
          rw [ih ss (by simpa using hss)]
          congr 1
          cases val f x <;> simp [stepSparse]

theorem flatMap_cell {α β γ : Type} (xs : List α) (ys : List β) (G : α → β → γ) (i j : Nat) (x : α) (y : β)
    (hx : xs[i]? = some x) (hy : ys[j]? = some y) : (xs.flatMap fun x => ys.map (G x))[i * ys.length + j]? = some (G x y) := by
  induction xs generalizing i with
  | nil => simp at hx
  | cons a xs ih =>
    rw [List.flatMap_cons]
    have hj := (List.getElem?_eq_some_iff.1 hy).1
    cases i with
    | zero =>
      rw [List.getElem?_cons_zero, Option.some.injEq] at hx
      subst hx
      rw [List.getElem?_append_left (by simp; omega), List.getElem?_map, Nat.zero_mul, Nat.zero_add, hy]
      rfl
    | succ i =>
      rw [List.getElem?_cons_succ] at hx
      rw [Nat.succ_mul, List.getElem?_append_right (by simp; omega), List.length_map, ← ih i hx]
      congr 1
      omega

/-- A server's reply carries its values. -/
theorem sparseReply_ok {α : Type} (q : α → Nat → List SparseState → Option (List SparseState)) (feats : List Nat)
    (val : Nat → α → Option Sparse) (xs : List α) (dim size : Nat → Nat)
    (hq : ∀ x ∈ xs, ∀ (i : Nat) (ss : List SparseState), feats.length = ss.length → (∀ s ∈ ss, s.flag = -1) →
      q x i ss = some (List.zipWith (fun f s => stepSparse i (val f x) s) feats ss))
    (hval : ∀ x ∈ xs, ∀ f ∈ feats, ∀ v, val f x = some v → v.Ok ∧ v.dim = dim f ∧ ∀ b ∈ v.values, b.length = size f) :
    ∃ r, (serveSparses q xs 0 (List.replicate feats.length {})).map sparseReply = some r ∧
      SparseOk xs.length feats.length (fun j => (feats[j]?).elim 0 dim) (fun j => (feats[j]?).elim 0 size)
        (fun i j => (xs[i]?).bind fun x => (feats[j]?).bind fun f => val f x) r := by
  rw [serveSparses_ok q feats val xs hq 0 _ (by simp), Option.map_some]
  refine ⟨_, rfl, ?_⟩
  have hrep := sparse_reply val xs feats dim fun n hn f hf x hx => (hval n hn f hf x hx).2.1
  generalize hS : List.zipWith (fun f s => sparseFold (val f) xs.zipIdx s) feats (List.replicate feats.length {}) = S at *
  have key : S.map (fun s => (s.dim, s.indices, s.values)) = (List.range feats.length).map fun j =>
      (if ∃ i, i < xs.length ∧ ((xs[i]?).bind fun x => (feats[j]?).bind fun f => val f x).isSome then (feats[j]?).elim 0 dim else 0,
        flatRows (allRows xs.length fun i => (xs[i]?).bind fun x => (feats[j]?).bind fun f => val f x),
        allBytes xs.length fun i => (xs[i]?).bind fun x => (feats[j]?).bind fun f => val f x) := by
    rw [hrep]
    apply map_positions
    intro j f hf
    obtain ⟨h1, h2, h3⟩ := sparse_positions xs (val f) (fun i => (xs[i]?).bind fun x => (feats[j]?).bind fun f => val f x)
      (by intro i x hx; rw [hx, hf]; rfl)
    simp only [Prod.mk.injEq]
    refine ⟨?_, ?_, ?_⟩
    · simp only [h1]; rw [hf]; rfl
    · refine Eq.trans h2 ?_
      rw [allRows]
      generalize List.range xs.length = l
      induction l with
      | nil => rfl
      | cons a l ih => rw [List.flatMap_cons, List.flatMap_cons, flatRows_append, ih]
    · exact h3
  have k1 := congrArg (List.map (·.1)) key
  have k2 := congrArg (List.map (·.2.1)) key
  have k3 := congrArg (List.map (·.2.2)) key
  simp only [List.map_map] at k1 k2 k3
  constructor
  · intro i hi j hj v hv
    rw [List.getElem?_eq_getElem hi, List.getElem?_eq_getElem hj] at hv
    have := hval _ (List.getElem_mem hi) _ (List.getElem_mem hj) v hv
    simpa [List.getElem?_eq_getElem hj] using this
  · exact k1
  · simp only [sparseReply]; rw [List.flatMap_def, List.flatMap_def]; exact congrArg List.flatten k2
  · simp only [sparseReply]
    have := congrArg (List.map List.length) k2
    simp only [List.map_map] at this
    exact this
  · simp only [sparseReply]; rw [List.flatMap_def, List.flatMap_def]; exact congrArg List.flatten k3
  · simp only [sparseReply]
    have := congrArg (List.map List.length) k3
    simp only [List.map_map] at this
    exact this
  · intro i hi j hj hv
    have hx := List.getElem?_eq_getElem hi
    have hf := List.getElem?_eq_getElem hj
    rw [hx, hf] at hv
    simp only [sparseReply]
    rw [flatMap_cell xs feats (fun x f => if (val f x).isSome then (0 : Int) else -1) i j _ _ hx hf]
    simp only [Option.bind_some] at hv
    rw [if_pos hv]

end DeepGNN
