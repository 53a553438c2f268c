import Verif.Proofs.StringFeatures

namespace DeepGNN
open Spec (Sparse HasSparse)

/-- Encoding of coordinates. -/
def encCoords (l : List Int) : Bytes := l.flatMap fun x => leBytes 8 (x % 2 ^ 64).toNat

theorem length_encCoords (l : List Int) : (encCoords l).length = 8 * l.length := by
  rw [encCoords, length_flatMap_const (k := 8) _ _ (by intros; simp)]; omega

theorem records_encCoords (l : List Int) (h : ∀ a ∈ l, -(2 ^ 63) ≤ a ∧ a < 2 ^ 63) :
    (records 8 (encCoords l)).map rdI64 = l := by
  rw [encCoords, records_flatMap (by decide) _ _ (by intros; simp), List.map_map]
  conv => rhs; rw [← List.map_id l]
  apply List.map_congr_left
  intro x hx
  obtain ⟨h1, h2⟩ := h x hx
  simp only [Function.comp, id]
  exact rdI64_leBytes h1 h2

theorem readIndices_rows (i : Int) (d : Nat) (rows : List (List Int)) (hr : ∀ row ∈ rows, row.length = d)
    (hv : ∀ row ∈ rows, ∀ a ∈ row, -(2 ^ 63) ≤ a ∧ a < 2 ^ 63) (pre post : Bytes) :
    readIndices (pre ++ encCoords rows.flatten ++ post) i d rows.length pre.length =
      some (rows.flatMap fun row => i :: row) := by
  induction rows generalizing pre with
  | nil => rfl
  | cons row rows ih =>
    have h1 : pre ++ encCoords (row :: rows).flatten ++ post =
        pre ++ encCoords row ++ (encCoords rows.flatten ++ post) := by
      simp [encCoords, List.flatMap_append]
    have h2 : pre ++ encCoords (row :: rows).flatten ++ post =
        (pre ++ encCoords row) ++ encCoords rows.flatten ++ post := by
      rw [h1]; simp only [List.append_assoc]
    have hl : (encCoords row).length = d * 8 := by rw [length_encCoords, hr row (by simp)]; omega
    simp only [List.length_cons, readIndices]
    have h3 := readAt_exact pre (encCoords row) (encCoords rows.flatten ++ post)
    rw [hl, ← h1] at h3
    rw [h3, Option.bind_some]
    have h4 := ih (fun r hr' => hr r (by simp [hr'])) (fun r hr' => hv r (by simp [hr'])) (pre ++ encCoords row)
    rw [← h2, List.length_append, hl, Nat.mul_comm d 8] at h4
    rw [h4, Option.map_some, records_encCoords row (hv row (by simp))]
    rfl

/-- The stored form of a sparse value. -/
def encSparse (x : Sparse) : Bytes :=
  cU32 (x.dim * x.coords.length) ++ cU32 x.dim ++ encCoords x.coords.flatten ++ x.values.flatten

theorem length_flatten_rows {d : Nat} {rows : List (List Int)} (h : ∀ row ∈ rows, row.length = d) :
    rows.flatten.length = d * rows.length := by
  induction rows with
  | nil => simp
  | cons r rs ih =>
    rw [List.flatten_cons, List.length_append, ih (fun r hr => h r (by simp [hr])), h r (by simp),
      List.length_cons, Nat.mul_add]
    omega

theorem convertFeature_sparse {c : Coords} {vs : List Bytes} (h0 : ¬ (c.shape0 = 0 ∨ vs = []))
    (h1 : shapesOk c vs.length = true) : convertFeature (.sparse c vs) =
      some (some (cU32 c.flat.length ++ cU32 c.lastDim ++ encCoords c.flat ++ vs.flatten)) := by
  rw [convertFeature, if_neg h0, if_pos h1]; rfl

theorem convert_describes {x : Sparse} (hx : x.Ok) {raw : RawFeature} (hr : Spec.Describes raw x) :
    convertFeature raw = some (some (encSparse x)) := by
  have hne : 0 < x.values.length := List.length_pos_iff.2 hx.nonempty
  have hcount := hx.count
  have hl := length_flatten_rows hx.rows
  cases hr with
  | mat d rows vs =>
    simp only at hne hcount hl
    rw [convertFeature_sparse, encSparse]
    · simp only [Coords.flat, Coords.lastDim, hl]
    · rintro (h | h)
      · simp only [Coords.shape0] at h; omega
      · rw [h] at hne; simp at hne
    · simp only [shapesOk]
      split
      · simp [Coords.shape0, hcount]
      · simp; omega
  | vec l vs =>
    simp only [List.length_map] at hne hcount
    have hl : (l.map fun a => [a]).flatten = l := by
      clear hcount hx hl
      induction l with
      | nil => rfl
      | cons a l ih => simp [ih]
    rw [convertFeature_sparse, encSparse]
    · simp only [List.length_map, hl, Nat.one_mul, Coords.flat, Coords.lastDim]
    · rintro (h | h)
      · simp only [Coords.shape0] at h; omega
      · rw [h] at hne; simp at hne
    · simp only [shapesOk]
      split
      · simp [Coords.shape0, hcount]
      · rfl

theorem deserialize_encSparse {x : Sparse} (hx : x.Ok) (pre post : Bytes) (i : Int) (s : SparseState) :
    deserializeSparse (pre ++ encSparse x ++ post) pre.length (encSparse x).length i s =
      some { s with dim := x.dim, indices := s.indices ++ x.coords.flatMap fun row => i :: row,
                    values := s.values ++ x.values.flatten } := by
  have hne : 0 < x.coords.length := by rw [hx.count]; exact List.length_pos_iff.2 hx.nonempty
  have hd := hx.dim_pos
  have hsize : 0 < x.dim * x.coords.length := Nat.mul_pos hd hne
  have hdle : x.dim ≤ x.dim * x.coords.length := Nat.le_mul_of_pos_right _ hne
  have hlt := hx.size
  have hfl := length_flatten_rows hx.rows
  have hlen : (encSparse x).length = 8 + 8 * (x.dim * x.coords.length) + x.values.flatten.length := by
    simp only [encSparse, List.length_append, cU32, length_leBytes, length_encCoords, hfl]
  have e1 : pre ++ encSparse x ++ post = pre ++ cU32 (x.dim * x.coords.length) ++
      (cU32 x.dim ++ encCoords x.coords.flatten ++ x.values.flatten ++ post) := by
    simp only [encSparse, List.append_assoc]
  have e2 : pre ++ encSparse x ++ post = (pre ++ cU32 (x.dim * x.coords.length)) ++ cU32 x.dim ++
      (encCoords x.coords.flatten ++ x.values.flatten ++ post) := by
    simp only [encSparse, List.append_assoc]
  have e3 : pre ++ encSparse x ++ post = (pre ++ cU32 (x.dim * x.coords.length) ++ cU32 x.dim) ++
      encCoords x.coords.flatten ++ (x.values.flatten ++ post) := by
    simp only [encSparse, List.append_assoc]
  have e4 : pre ++ encSparse x ++ post = (pre ++ cU32 (x.dim * x.coords.length) ++ cU32 x.dim ++
      encCoords x.coords.flatten) ++ x.values.flatten ++ post := by
    simp only [encSparse, List.append_assoc]
  have r1 : readAt (pre ++ encSparse x ++ post) pre.length 4 = some (cU32 (x.dim * x.coords.length)) := by
    have := readAt_exact pre (cU32 (x.dim * x.coords.length))
      (cU32 x.dim ++ encCoords x.coords.flatten ++ x.values.flatten ++ post)
    rw [← e1] at this
    simpa [cU32] using this
  have r2 : readAt (pre ++ encSparse x ++ post) (pre.length + 4) 4 = some (cU32 x.dim) := by
    have := readAt_exact (pre ++ cU32 (x.dim * x.coords.length)) (cU32 x.dim)
      (encCoords x.coords.flatten ++ x.values.flatten ++ post)
    rw [← e2] at this
    simpa [cU32] using this
  have r3 := readIndices_rows i x.dim x.coords hx.rows hx.range
    (pre ++ cU32 (x.dim * x.coords.length) ++ cU32 x.dim) (x.values.flatten ++ post)
  rw [← e3] at r3
  have r4 := readAt_exact (pre ++ cU32 (x.dim * x.coords.length) ++ cU32 x.dim ++
      encCoords x.coords.flatten) x.values.flatten post
  rw [← e4] at r4
  have hl8 : (pre ++ cU32 (x.dim * x.coords.length) ++ cU32 x.dim).length = pre.length + 8 := by
    simp [cU32]
  have hl8' : (pre ++ cU32 (x.dim * x.coords.length) ++ cU32 x.dim ++ encCoords x.coords.flatten).length =
      pre.length + 8 + 8 * x.dim * x.coords.length := by
    rw [List.length_append, hl8, length_encCoords, hfl, Nat.mul_assoc]
  rw [hl8] at r3
  rw [hl8'] at r4
  have n1 : leNat (cU32 (x.dim * x.coords.length)) = x.dim * x.coords.length := by
    rw [cU32, leNat_leBytes]; omega
  have n2 : leNat (cU32 x.dim) = x.dim := by
    rw [cU32, leNat_leBytes]; omega
  rw [deserializeSparse, if_neg (by omega), r1, Option.bind_some, r2, Option.bind_some]
  simp only [n1, n2]
  rw [if_neg (by omega), Nat.mul_div_cancel_left _ hd, r3, Option.bind_some]
  have hst : (encSparse x).length - x.dim * x.coords.length * 8 - 8 = x.values.flatten.length := by
    rw [hlen]; omega
  rw [hst, r4]
  rfl

/-! Queries -/

/-- Effect of a record holding the sparse value `x` on the state, for the node at position `i`. -/
def stepSparse (i : Int) (x : Option Sparse) (s : SparseState) : SparseState :=
  if s.flag ≥ 0 then s else
    match x with
    | none => s
    | some x => { flag := 0, dim := x.dim, indices := s.indices ++ x.coords.flatMap fun row => i :: row,
                  values := s.values ++ x.values.flatten }

theorem sparseStep_owner {index data lo hi fl} (h : Owner index data lo hi fl) (i : Int) (f : Nat) {x : Option Sparse}
    (hx : HasSparse fl f x) (s : SparseState) : sparseStep index data lo hi i f s = some (stepSparse i x s) := by
  simp only [sparseStep, stepSparse]
  split
  · rfl
  · cases hf : fl[f]? with
    | none =>
      rw [h.range_none hf]
      cases x with
      | none => rfl
      | some x =>
        obtain ⟨-, raw, -, b, -, hb⟩ := hx
        rw [hf] at hb; cases hb
    | some v =>
      obtain ⟨pre, post, h1, h2⟩ := h.range_some hf
      rw [h2]
      simp only [Option.bind_some]
      cases x with
      | none =>
        have hx : (fl[f]?.join).getD [] = [] := hx
        rw [hf] at hx
        have : featBytes v = [] := by cases v <;> simpa [featBytes] using hx
        simp [this]
      | some x =>
        obtain ⟨hok, raw, hd, b, hb1, hb2⟩ := hx
        rw [convert_describes hok hd, Option.some.injEq] at hb1
        rw [hf, Option.some.injEq] at hb2
        subst hb1
        subst hb2
        have hne : (featBytes (some (encSparse x))).length ≠ 0 := by
          simp only [featBytes, encSparse, List.length_append, cU32, length_leBytes]; omega
        rw [if_neg hne, h1]
        exact deserialize_encSparse hok pre post i _

variable {C : WeightCodec} {m : Meta} {g : Graph} {items : List Item} {parts : List (List (List Rec))}

/-- The first sparse value found. -/
def blkSparse (D : Nat → List (Option Bytes) → Option Sparse) (f : Nat) (b : Blk) : Option Sparse :=
  if b.feats = [] then none else D f b.feats

theorem findSome_blks (D : List (Option Bytes) → Option Sparse) (bs : List Blk) (rs : List Rec)
    (h : (bs.filter (fun b => decide (b.feats ≠ []) && (D b.feats).isSome)).map (·.feats) =
      (rs.filter (fun r => decide (r.features ≠ []) && (D r.features).isSome)).map (·.features))
    (hnil : ∀ r ∈ rs, r.features = [] → D r.features = none) :
    bs.findSome? (fun b => if b.feats = [] then none else D b.feats) = rs.findSome? (fun r => D r.features) := by
  have hb : ∀ bs : List Blk, bs.findSome? (fun b => if b.feats = [] then none else D b.feats) =
      ((bs.filter (fun b => decide (b.feats ≠ []) && (D b.feats).isSome)).map (·.feats)).findSome? D := by
    intro bs
    induction bs with
    | nil => rfl
    | cons b bs ih =>
      by_cases h1 : b.feats = []
      · simp only [List.findSome?_cons, h1, if_true, List.filter_cons, ne_eq, not_true_eq_false, decide_false,
          Bool.false_and, Bool.false_eq_true, if_false, ih]
      · cases h2 : D b.feats with
        | none => simp [List.findSome?_cons, h1, h2, List.filter_cons, ih]
        | some x => simp [List.findSome?_cons, h1, h2, List.filter_cons]
  have hr : ∀ rs : List Rec, (∀ r ∈ rs, r.features = [] → D r.features = none) → rs.findSome? (fun r => D r.features) =
      ((rs.filter (fun r => decide (r.features ≠ []) && (D r.features).isSome)).map (·.features)).findSome? D := by
    intro rs hn
    induction rs with
    | nil => rfl
    | cons r rs ih =>
      have ih := ih (fun r hr => hn r (by simp [hr]))
      by_cases h1 : r.features = []
      · have h2 := hn r (by simp) h1
        have h3 : (decide (r.features ≠ []) && (D r.features).isSome) = false := by simp [h1]
        rw [List.findSome?_cons, h2, List.filter_cons, h3]
        exact ih
      · cases h2 : D r.features with
        | none => simp [List.findSome?_cons, h1, h2, List.filter_cons, ih]
        | some x => simp [List.findSome?_cons, h1, h2, List.filter_cons]
  rw [hb, hr rs hnil, h]

theorem stepSparse_settled (i : Int) (x : Option Sparse) (s : SparseState) (h : s.flag ≥ 0) : stepSparse i x s = s := by
  simp [stepSparse, h]

theorem foldl_stepSparse (i : Int) (vals : List (Option Sparse)) (s : SparseState) (hs : s.flag = -1) :
    vals.foldl (fun s x => stepSparse i x s) s = stepSparse i (vals.findSome? id) s := by
  induction vals generalizing s with
  | nil => simp [stepSparse]
  | cons x vals ih =>
    rw [List.foldl_cons, List.findSome?_cons]
    cases x with
    | none =>
      have : stepSparse i none s = s := by simp [stepSparse]
      rw [this, ih s hs]
      rfl
    | some x =>
      have h2 : (stepSparse i (some x) s).flag = 0 := by simp [stepSparse, hs]
      simp only [id]
      generalize stepSparse i (some x) s = t at h2
      clear ih hs
      induction vals with
      | nil => rfl
      | cons y ys ih => rw [List.foldl_cons, stepSparse_settled _ _ _ (by omega), ih]

theorem GraphOk.nodeSparse1 (h : GraphOk C m g items parts)
    (hc : ∀ it ∈ items, it.files.nodeFeatureCount ≤ m.nodeFeatureCount) (feats : List Nat) (n : Int) (i : Int)
    (D : Nat → List (Option Bytes) → Option Sparse)
    (hD : ∀ f ∈ feats, ∀ r ∈ Spec.nodeRecords parts n, HasSparse r.features f (D f r.features)) :
    ∃ es, g.entries n = some es ∧ ∀ ss : List SparseState, feats.length = ss.length →
      (∀ s ∈ ss, s.flag = -1) →
      es.foldlM (fun (ss : List SparseState) (x : Partition × Nat) => x.1.nodeSparse x.2 i feats ss) ss =
      some (List.zipWith (fun f s => stepSparse i ((Spec.nodeRecords parts n).findSome? fun r => D f r.features) s)
        feats ss) := by
  have hD' : ∀ f ∈ feats, ∀ b ∈ nodeBlks items n, HasSparse b.feats f (blkSparse D f b) := by
    intro f hf b hb
    by_cases hne : b.feats = []
    · simp [blkSparse, hne, HasSparse]
    · obtain ⟨r, hr, hrf⟩ := Blk.rec_of_feats h hb hne
      rw [blkSparse, if_neg hne, ← hrf]
      exact hD f hf r hr
  obtain ⟨es, h1, h2⟩ := h.foldEntries n
    (fun (ss : List SparseState) (x : Partition × Nat) => x.1.nodeSparse x.2 i feats ss)
    (fun ss b => List.zipWith (fun f s => stepSparse i (blkSparse D f b) s) feats ss)
    (fun ss => feats.length = ss.length) (by intro ss b hs; simp [← hs]) (by
      intro it hit x hx hid ss hss
      have hb : x.1 ∈ nodeBlks items n := by
        rw [List.mem_zipIdx_iff_getElem?] at hx
        exact List.mem_flatMap.2 ⟨it, hit, List.mem_filter.2 ⟨List.mem_of_getElem? hx, by simpa using hid⟩⟩
      by_cases hm : m.nodeFeatureCount = 0
      · obtain ⟨c, -, hsrc⟩ := item_of_src h.src hit
        have hnil := ItemOk.feats_nil (hc it hit) hsrc hx hm
        rw [Partition.nodeSparse, if_pos ((h.ok it hit).loaded.noNodeFeatures hm)]
        have : (fun f s => stepSparse i (blkSparse D f x.1) s) = fun (_ : Nat) s => s := by
          funext f s
          simp [blkSparse, hnil, stepSparse]
        rw [this, zipWith_snd _ _ hss]
      · obtain ⟨lo, hi, e1, e2, ho⟩ := (h.ok it hit).owner hx hm
        rw [Partition.nodeSparse, if_neg (by
          rw [(h.ok it hit).loaded.nodeFeatureIndex hm]; exact offsFrom_ne_nil _ _), e1, e2]
        simp only [Option.bind_some]
        exact stepAll_pure (r := fun f s => stepSparse i (blkSparse D f x.1) s)
          (fun f hf s => sparseStep_owner ho i f (hD' f hf x.1 hb) s) ss)
  refine ⟨es, h1, fun ss hss hflag => ?_⟩
  rw [h2 ss hss, foldl_zipWith _ _ _ _ hss]
  refine congrArg some ?_
  have hfind : ∀ f ∈ feats, (nodeBlks items n).findSome? (blkSparse D f) =
      (Spec.nodeRecords parts n).findSome? fun r => D f r.features := by
    intro f hf
    refine findSome_blks (D f) _ _ ?_ ?_
    · exact h.nodeBlks_feats n (fun fl => decide (fl ≠ []) && (D f fl).isSome) (by simp)
    · intro r hr hnil
      have := hD f hf r hr
      cases hd : D f r.features with
      | none => rfl
      | some x =>
        rw [hd] at this
        obtain ⟨-, raw, -, b, -, hb⟩ := this
        rw [hnil] at hb; simp at hb
  clear h2 hD'
  induction feats generalizing ss with
  | nil => rfl
  | cons f fs ih =>
    cases ss with
    | nil => rfl
    | cons s ss =>
      rw [List.zipWith_cons_cons, List.zipWith_cons_cons,
        ih (fun f hf => hD f (by simp [hf])) ss (by simpa using hss) (fun s hs => hflag s (by simp [hs]))
          (fun f hf => hfind f (by simp [hf]))]
      congr 1
      rw [← hfind f (by simp)]
      have := foldl_stepSparse i ((nodeBlks items n).map (blkSparse D f)) s (hflag s (by simp))
      rw [List.foldl_map, List.findSome?_map] at this
      exact this


/-- The state of one feature after the nodes or edges `l`, given with their positions. -/
def sparseFold {α : Type} (val : α → Option Sparse) (l : List (α × Nat)) (s : SparseState) : SparseState :=
  l.foldl (fun s x => stepSparse x.2 (val x.1) { s with flag := -1 }) s

theorem sparseFold_indices {α : Type} (val : α → Option Sparse) (l : List (α × Nat)) (s : SparseState) :
    (sparseFold val l s).indices = s.indices ++ l.flatMap fun x =>
      (match val x.1 with | none => [] | some v => v.coords.flatMap fun row => (x.2 : Int) :: row) := by
  induction l generalizing s with
  | nil => simp [sparseFold]
  | cons x l ih =>
    have ih := ih (stepSparse x.2 (val x.1) { s with flag := -1 })
    simp only [sparseFold, List.foldl_cons] at ih ⊢
    rw [ih, List.flatMap_cons, ← List.append_assoc]
    congr 1
    cases val x.1 <;> simp [stepSparse]

theorem sparseFold_values {α : Type} (val : α → Option Sparse) (l : List (α × Nat)) (s : SparseState) :
    (sparseFold val l s).values = s.values ++ l.flatMap fun x =>
      (match val x.1 with | none => [] | some v => v.values.flatten) := by
  induction l generalizing s with
  | nil => simp [sparseFold]
  | cons x l ih =>
    have ih := ih (stepSparse x.2 (val x.1) { s with flag := -1 })
    simp only [sparseFold, List.foldl_cons] at ih ⊢
    rw [ih, List.flatMap_cons, ← List.append_assoc]
    congr 1
    cases val x.1 <;> simp [stepSparse]

theorem sparseFold_dim {α : Type} (val : α → Option Sparse) (d : Nat) (l : List (α × Nat)) (s : SparseState)
    (hd : ∀ x ∈ l, ∀ v, val x.1 = some v → v.dim = d) :
    (sparseFold val l s).dim = if ∃ x ∈ l, (val x.1).isSome then d else s.dim := by
  induction l generalizing s with
  | nil => simp [sparseFold]
  | cons x l ih =>
    have ih := ih (stepSparse x.2 (val x.1) { s with flag := -1 }) (fun y hy => hd y (by simp [hy]))
    simp only [sparseFold, List.foldl_cons] at ih ⊢
    rw [ih]
    by_cases h1 : ∃ y ∈ l, (val y.1).isSome
    · rw [if_pos h1, if_pos]
      obtain ⟨y, hy, h2⟩ := h1
      exact ⟨y, by simp [hy], h2⟩
    · rw [if_neg h1]
      cases hv : val x.1 with
      | none =>
        rw [if_neg]
        · simp [stepSparse]
        · rintro ⟨y, hy, h2⟩
          rcases List.mem_cons.1 hy with rfl | hy
          · rw [hv] at h2; simp at h2
          · exact h1 ⟨y, hy, h2⟩
      | some v =>
        rw [if_pos ⟨x, by simp, by rw [hv]; rfl⟩]
        simp [stepSparse, hd x (by simp) v hv]

theorem GraphOk.nodeSparseLoop (h : GraphOk C m g items parts)
    (hc : ∀ it ∈ items, it.files.nodeFeatureCount ≤ m.nodeFeatureCount) (feats : List Nat) (nodes : List Int)
    (D : Nat → List (Option Bytes) → Option Sparse)
    (hD : ∀ n ∈ nodes, ∀ f ∈ feats, ∀ r ∈ Spec.nodeRecords parts n, HasSparse r.features f (D f r.features))
    (i : Nat) (ss : List SparseState) (hss : feats.length = ss.length) :
    g.nodeSparseLoop feats nodes i ss = some (List.zipWith (fun f s => sparseFold
      (fun n => (Spec.nodeRecords parts n).findSome? fun r => D f r.features) (nodes.zipIdx i) s) feats ss) := by
  induction nodes generalizing i ss with
  | nil =>
    simp only [Graph.nodeSparseLoop, List.zipIdx_nil, sparseFold, List.foldl_nil, Option.some.injEq]
    rw [zipWith_snd _ _ hss]
  | cons n ns ih =>
    obtain ⟨es, h1, h2⟩ := h.nodeSparse1 hc feats n i D (hD n (by simp))
    simp only [Graph.nodeSparseLoop, h1, Option.bind_some]
    rw [h2 _ (by simp [hss]) (by
      intro s hs
      obtain ⟨t, -, rfl⟩ := List.mem_map.1 hs
      rfl)]
    rw [Option.bind_some, ih (fun n hn => hD n (by simp [hn])) (i + 1) _ (by simp [hss])]
    refine congrArg some ?_
    clear h2 ih hD
    induction feats generalizing ss with
    | nil => rfl
    | cons f fs ih =>
      cases ss with
      | nil => rfl
      | cons s ss =>
        simp only [List.map_cons, List.zipWith_cons_cons]
        rw [ih ss (by simpa using hss)]
        rfl

/-- The sparse value a block holds for an edge. -/
def blkEdgeSparse (D : Nat → List (Option Bytes) → Option Sparse) (dst typ : Int) (f : Nat) (b : Blk) : Option Sparse :=
  (pickEdge b.edges dst typ).bind fun y => D f y.feats

/-- The sparse value of an edge: the first one found in the blocks of its source. -/
def edgeSparseVal (D : Nat → List (Option Bytes) → Option Sparse) (items : List Item) (f : Nat) (e : EdgeId) : Option Sparse :=
  (nodeBlks items e.src).findSome? (blkEdgeSparse D e.dst e.typ f)

theorem GraphOk.edgeSparse1 (h : GraphOk C m g items parts)
    (hc : ∀ it ∈ items, it.files.edgeFeatureCount ≤ m.edgeFeatureCount) (feats : List Nat) (e : EdgeId) (i : Int)
    (D : Nat → List (Option Bytes) → Option Sparse)
    (hD : ∀ f ∈ feats, ∀ r ∈ Spec.edgesBetween parts e.src e.dst e.typ, HasSparse r.features f (D f r.features)) :
    ∃ es, g.entries e.src = some es ∧ ∀ ss : List SparseState, feats.length = ss.length →
      (∀ s ∈ ss, s.flag = -1) →
      es.foldlM (fun (ss : List SparseState) (x : Partition × Nat) => x.1.edgeSparse x.2 e.dst e.typ i feats ss) ss =
      some (List.zipWith (fun f s => stepSparse i (edgeSparseVal D items f e) s) feats ss) := by
  have hD' : ∀ f ∈ feats, ∀ b ∈ nodeBlks items e.src, ∀ y, pickEdge b.edges e.dst e.typ = some y →
      HasSparse y.feats f (D f y.feats) := by
    intro f hf b hb y hy
    obtain ⟨y1, y2, y3⟩ := pickEdge_some hy
    obtain ⟨r, hr, hrf⟩ := h.edge_record hb y1
    rw [y2, y3] at hr
    rw [← hrf]
    exact hD f hf r hr
  obtain ⟨es, h1, h2⟩ := h.foldEntries e.src
    (fun (ss : List SparseState) (x : Partition × Nat) => x.1.edgeSparse x.2 e.dst e.typ i feats ss)
    (fun ss b => List.zipWith (fun f s => stepSparse i (blkEdgeSparse D e.dst e.typ f b) s) feats ss)
    (fun ss => feats.length = ss.length) (by intro ss b hs; simp [← hs]) (by
      intro it hit x hx hid ss hss
      have hb : x.1 ∈ nodeBlks items e.src := by
        rw [List.mem_zipIdx_iff_getElem?] at hx
        exact List.mem_flatMap.2 ⟨it, hit, List.mem_filter.2 ⟨List.mem_of_getElem? hx, by simpa using hid⟩⟩
      have hnone : (∀ f ∈ feats, blkEdgeSparse D e.dst e.typ f x.1 = none) →
          List.zipWith (fun f s => stepSparse i (blkEdgeSparse D e.dst e.typ f x.1) s) feats ss = ss := by
        intro hn
        clear h hD hD'
        induction feats generalizing ss with
        | nil => exact (List.eq_nil_of_length_eq_zero hss.symm).symm
        | cons f fs ih =>
          cases ss with
          | nil => rfl
          | cons s ss =>
            rw [List.zipWith_cons_cons, ih ss (by simpa using hss) (fun f hf => hn f (by simp [hf])), hn f (by simp)]
            congr 1
            simp [stepSparse]
      simp only [Partition.edgeSparse, Partition.withEdge]
      rcases h.edgeBlocks hc hit hx e.dst e.typ with ⟨e1, e2⟩ | ⟨y, o, e1, e2, ⟨hm, e3, e4⟩ | ⟨e3, lo, hi, e4, e5, ho⟩⟩
      · rw [e2, Option.bind_some]
        exact congrArg some (hnone fun f _ => by simp [blkEdgeSparse, e1]).symm
      · rw [e2, Option.bind_some]
        simp only [e4, or_true, if_true]
        refine congrArg some (hnone fun f hf => ?_).symm
        simp only [blkEdgeSparse, e1, Option.bind_some]
        have := hD' f hf x.1 hb y e1
        cases hd : D f y.feats with
        | none => rfl
        | some v =>
          rw [hd] at this
          obtain ⟨-, raw, -, b, -, hb⟩ := this
          rw [e3] at hb; simp at hb
      · rw [e2, Option.bind_some]
        have hoff : it.part.edgeFeatureOffset ≠ [] := by intro hn; rw [hn] at e4; simp at e4
        simp only [hoff, e3, or_self, if_false, e4, e5, Option.bind_some]
        exact stepAll_pure (r := fun f s => stepSparse i (blkEdgeSparse D e.dst e.typ f x.1) s)
          (fun f hf s => sparseStep_owner ho i f (by
            simp only [blkEdgeSparse, e1, Option.bind_some]
            exact hD' f hf x.1 hb y e1) s) ss)
  refine ⟨es, h1, fun ss hss hflag => ?_⟩
  rw [h2 ss hss, foldl_zipWith _ _ _ _ hss]
  refine congrArg some ?_
  clear h2 hD' hD
  induction feats generalizing ss with
  | nil => rfl
  | cons f fs ih =>
    cases ss with
    | nil => rfl
    | cons s ss =>
      rw [List.zipWith_cons_cons, List.zipWith_cons_cons, ih ss (by simpa using hss) (fun s hs => hflag s (by simp [hs]))]
      congr 1
      have := foldl_stepSparse i ((nodeBlks items e.src).map (blkEdgeSparse D e.dst e.typ f)) s (hflag s (by simp))
      rw [List.foldl_map, List.findSome?_map] at this
      exact this

/-- The loop over edges. -/
theorem GraphOk.edgeSparseLoop (h : GraphOk C m g items parts)
    (hc : ∀ it ∈ items, it.files.edgeFeatureCount ≤ m.edgeFeatureCount) (feats : List Nat) (edges : List EdgeId)
    (D : Nat → List (Option Bytes) → Option Sparse)
    (hD : ∀ e ∈ edges, ∀ f ∈ feats, ∀ r ∈ Spec.edgesBetween parts e.src e.dst e.typ, HasSparse r.features f (D f r.features))
    (i : Nat) (ss : List SparseState) (hss : feats.length = ss.length) :
    g.edgeSparseLoop feats edges i ss = some (List.zipWith (fun f s => sparseFold
      (edgeSparseVal D items f) (edges.zipIdx i) s) feats ss) := by
  induction edges generalizing i ss with
  | nil =>
    simp only [Graph.edgeSparseLoop, List.zipIdx_nil, sparseFold, List.foldl_nil, Option.some.injEq]
    rw [zipWith_snd _ _ hss]
  | cons e es ih =>
    obtain ⟨en, h1, h2⟩ := h.edgeSparse1 hc feats e i D (hD e (by simp))
    simp only [Graph.edgeSparseLoop, h1, Option.bind_some]
    rw [h2 _ (by simp [hss]) (by
      intro s hs
      obtain ⟨t, -, rfl⟩ := List.mem_map.1 hs
      rfl)]
    rw [Option.bind_some, ih (fun e he => hD e (by simp [he])) (i + 1) _ (by simp [hss])]
    refine congrArg some ?_
    clear h2 ih hD
    induction feats generalizing ss with
    | nil => rfl
    | cons f fs ih =>
      cases ss with
      | nil => rfl
      | cons s ss =>
        simp only [List.map_cons, List.zipWith_cons_cons]
        rw [ih ss (by simpa using hss)]
        rfl

/-- Where the sparse value of an edge comes from. -/
theorem GraphOk.edgeSparseVal_spec (h : GraphOk C m g items parts) (D : Nat → List (Option Bytes) → Option Sparse)
    (f : Nat) (e : EdgeId) :
    (∀ x, edgeSparseVal D items f e = some x → ∃ r ∈ Spec.edgesBetween parts e.src e.dst e.typ, D f r.features = some x) ∧
    ∀ r, Spec.edgesBetween parts e.src e.dst e.typ = [r] → edgeSparseVal D items f e = D f r.features := by
  have hsome : ∀ b ∈ nodeBlks items e.src, ∀ y, pickEdge b.edges e.dst e.typ = some y →
      ∃ r ∈ Spec.edgesBetween parts e.src e.dst e.typ, r.features = y.feats := by
    intro b hb y hy
    obtain ⟨y1, y2, y3⟩ := pickEdge_some hy
    obtain ⟨r, hr, hrf⟩ := h.edge_record hb y1
    rw [y2, y3] at hr
    exact ⟨r, hr, hrf⟩
  have hfst : ∀ x, edgeSparseVal D items f e = some x →
      ∃ r ∈ Spec.edgesBetween parts e.src e.dst e.typ, D f r.features = some x := by
    intro x hx
    obtain ⟨b, hb, h1⟩ := List.exists_of_findSome?_eq_some hx
    obtain ⟨y, h2, h3⟩ := Option.bind_eq_some_iff.1 h1
    obtain ⟨r, hr, hrf⟩ := hsome b hb y h2
    exact ⟨r, hr, by rw [hrf]; exact h3⟩
  refine ⟨hfst, fun r hr => ?_⟩
  cases hv : edgeSparseVal D items f e with
  | some x =>
    obtain ⟨r', hr', h1⟩ := hfst x hv
    rw [hr, List.mem_singleton] at hr'
    rw [← hr', h1]
  | none =>
    obtain ⟨b, hb, y, hy⟩ : ∃ b ∈ nodeBlks items e.src, ∃ y, pickEdge b.edges e.dst e.typ = some y := by
      obtain ⟨b, hb, y, hy, h1, h2⟩ := h.record_edge (dst := e.dst) (typ := e.typ) (r := r) (by rw [hr]; simp)
      cases hp : pickEdge b.edges e.dst e.typ with
      | none => exact absurd ⟨h1, h2⟩ (pickEdge_none hp y hy)
      | some y' => exact ⟨b, hb, y', hp⟩
    obtain ⟨r', hr', hrf⟩ := hsome b hb y hy
    rw [hr, List.mem_singleton] at hr'
    have := List.findSome?_eq_none_iff.1 hv b hb
    simp only [blkEdgeSparse, hy, Option.bind_some] at this
    rw [← hr', hrf, this]

/-- What a query returns for the values `val`. -/
theorem sparse_reply {α : Type} (val : Nat → α → Option Sparse) (xs : List α) (feats : List Nat) (dim : Nat → Nat)
    (hdim : ∀ n ∈ xs, ∀ f ∈ feats, ∀ x, val f n = some x → x.dim = dim f) :
    (List.zipWith (fun f s => sparseFold (val f) xs.zipIdx s) feats (List.replicate feats.length {})).map
      (fun s => (s.dim, s.indices, s.values)) = feats.map fun f =>
      (if ∃ n ∈ xs, (val f n).isSome then dim f else 0,
       xs.zipIdx.flatMap fun (n, i) => match val f n with
         | none => []
         | some x => x.coords.flatMap fun row => (i : Int) :: row,
       xs.flatMap fun n => match val f n with
         | none => []
         | some x => x.values.flatten) := by
  have hstep : ∀ f ∈ feats, ∀ (l : List (α × Nat)), (∀ x ∈ l, x.1 ∈ xs) → (l.map (·.1) = xs) →
      (fun s : SparseState => (s.dim, s.indices, s.values)) (sparseFold (val f) l {}) =
      (if ∃ n ∈ xs, (val f n).isSome then dim f else 0,
       l.flatMap fun (n, i) => match val f n with
         | none => []
         | some x => x.coords.flatMap fun row => (i : Int) :: row,
       xs.flatMap fun n => match val f n with
         | none => []
         | some x => x.values.flatten) := by
    intro f hf l hl hmap
    simp only [Prod.mk.injEq]
    refine ⟨?_, ?_, ?_⟩
    · rw [sparseFold_dim _ (dim f) l _ (fun x hx v hv => hdim x.1 (hl x hx) f hf v hv)]
      have : (∃ x ∈ l, (val f x.1).isSome = true) ↔ ∃ n ∈ xs, (val f n).isSome = true := by
        constructor
        · rintro ⟨x, hx, h1⟩; exact ⟨x.1, hl x hx, h1⟩
        · rintro ⟨n, hn, h1⟩
          rw [← hmap] at hn
          obtain ⟨x, hx, rfl⟩ := List.mem_map.1 hn
          exact ⟨x, hx, h1⟩
      simp only [this]
    · rw [sparseFold_indices, List.nil_append]
    · rw [sparseFold_values, List.nil_append, ← hmap, List.flatMap_map]
  have hz : ∀ x ∈ xs.zipIdx, x.1 ∈ xs := by
    intro x hx
    rw [List.mem_zipIdx_iff_getElem?] at hx
    exact List.mem_of_getElem? hx
  have hm : xs.zipIdx.map (·.1) = xs := by simp
  generalize xs.zipIdx = l at *
  clear hdim
  induction feats with
  | nil => rfl
  | cons f fs ih =>
    simp only [List.length_cons, List.replicate_succ, List.zipWith_cons_cons, List.map_cons]
    rw [ih (fun f hf => hstep f (by simp [hf]))]
    congr 1
    exact hstep f (by simp) l hz hm

end DeepGNN
