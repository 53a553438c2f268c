import Verif.Proofs.Citation
import Verif.Props.C77
import Verif.Proofs.HetEval
import Verif.Proofs.Json
import Verif.Proofs.Retry

/-!
C90: the citation datasets.  The rows of the published files are given to the right nodes, the splits are disjoint and have the promised
sizes, and the edge list written for them is converted to a graph with these features, labels, types and neighbours.
-/

namespace DeepGNN

open Spec Citation EdgeList
open RawGraph (Block BlocksOk graphLines showInt)

/-! Rows -/

/-- A node has the row of `allx` with its number, a node for tests the row of `tx` at its position in the list of test nodes; an isolated
node has a row of zeros. -/
theorem C90_rows {α : Type} {isolated : Bool} {N : Nat} {test : List Nat} {allx tx : List α} (h : IndexOk isolated allx.length N test)
    (zero : α) (hl : tx.length = test.length) : ∃ rows, reorder isolated zero allx tx test = some rows ∧ rows.length = N ∧
      (∀ i < allx.length, rows[i]? = allx[i]?) ∧ (∀ (j t : Nat), test[j]? = some t → rows[t]? = tx[j]?) ∧
      ∀ i, allx.length ≤ i → i < N → i ∉ test → rows[i]? = some zero :=
  reorder_ok h zero hl

example : reorder false 0 [10, 11] [14, 12, 13] [4, 2, 3] = some [10, 11, 12, 13, 14] := by decide +kernel
example : IndexOk false 2 5 [4, 2, 3] := ⟨by decide, by decide, by decide, by simp, by intro _ i h1 h2; simp; omega⟩
example : reorder true 0 [10, 11] [15, 12, 14] [5, 2, 4] = some [10, 11, 12, 0, 14, 15] := by decide +kernel
example : IndexOk true 2 6 [5, 2, 4] := ⟨by decide, by decide, by decide, by decide, by simp⟩

/-- Without the treatment of isolated nodes a dataset with gaps raises an exception. -/
theorem C90_gap : reorder false 0 [10, 11] [15, 12, 14] [5, 2, 4] = none := by decide +kernel

/-- Features are divided by their sum: the row adds up to 1, unless it was 0. -/
theorem C90_normalized (row : List Rat) : normalize row = unitRow row ∧ (row.sum ≠ 0 → (normalize row).sum = 1) := by
  have hd : ∀ (s : Rat), (row.map fun x => s⁻¹ * x) = row.map fun x => x / s := fun s => List.map_congr_left fun x _ => by
    rw [Rat.div_def, Rat.mul_comm]
  constructor
  · rw [normalize, unitRow]
    by_cases h : row.sum = 0
    · simp only [h, if_true]
      exact List.map_congr_left fun x _ => Rat.zero_mul x
    · simp only [if_neg h]
      exact hd _
  · intro h
    rw [normalize]
    simp only [if_neg h]
    have hs : ∀ (c : Rat) (l : List Rat), (l.map fun x => c * x).sum = c * l.sum := by
      intro c l
      induction l with
      | nil => simp
      | cons a l ih => rw [List.map_cons, List.sum_cons, List.sum_cons, ih, Rat.mul_add]
    rw [hs, Rat.inv_mul_cancel _ h]

example : normalize [1, 0, 3] = [1/4, 0, 3/4] := by decide +kernel

/-! Splits -/

/-- The public split: the nodes of `y` are for training, the next 500 for validation, the listed ones for tests. -/
theorem C90_public_types {isolated : Bool} {N : Nat} {raw : Raw} (h : PublishedOk isolated N raw) :
    ∃ m, publicMasks raw.labelled raw.test N = some m ∧ splitTypes m = (List.range N).map (publicType raw) ∧
      (∀ i, m.train[i]? = some true ↔ i < raw.labelled) ∧
      (∀ i, m.val[i]? = some true ↔ raw.labelled ≤ i ∧ i < raw.labelled + 500) ∧
      (∀ i, m.test[i]? = some true ↔ i ∈ raw.test) := by
  have hle := h.index.le
  have hv := h.val
  have hr := h.index.range
  refine ⟨_, by
    rw [publicMasks, sampleMask_eq (by intro i hi; have := List.mem_range.1 hi; omega),
      sampleMask_eq (by intro i hi; have := List.mem_range'_1.1 hi; omega),
      sampleMask_eq (by intro i hi; exact (hr i (mem_sort.1 hi)).2)]
    rfl, ?_, ?_, ?_, ?_⟩
  · rw [splitTypes]
    simp only [List.length_map, List.length_range]
    refine List.map_congr_left fun i hi => ?_
    have hi := List.mem_range.1 hi
    simp only [get_mask, decide_eq_true_eq, List.mem_range, List.mem_range'_1, mem_sort]
    rw [publicType]
    by_cases h1 : i < raw.labelled
    · rw [if_pos ⟨hi, h1⟩, if_pos h1]
    · rw [if_neg (fun hh => h1 hh.2), if_neg h1]
      by_cases h2 : i < raw.labelled + 500
      · rw [if_pos ⟨hi, by omega, h2⟩, if_pos h2]
      · rw [if_neg (fun hh => h2 hh.2.2), if_neg h2]
        by_cases h3 : i ∈ raw.test
        · rw [if_pos ⟨hi, h3⟩, if_pos h3]
        · rw [if_neg (fun hh => h3 hh.2), if_neg h3]
  · intro i
    simp only [get_mask, decide_eq_true_eq, List.mem_range]
    omega
  · intro i
    simp only [get_mask, decide_eq_true_eq, List.mem_range'_1]
    omega
  · intro i
    simp only [get_mask, decide_eq_true_eq, mem_sort]
    exact ⟨fun hh => hh.2, fun hh => ⟨(hr i hh).2, hh⟩⟩

/-- A random split: 20 nodes of every class (all, if there are fewer) are for training; no node is in two sets; the other two sets have the
requested sizes, if there are enough nodes left. -/
theorem C90_random_split {perm : Nat → List Nat → List Nat} (hp : ∀ k l, (perm k l).Perm l) (labels : List Nat) {classes : Nat}
    (hc : 0 < classes) (perClass numVal numTest : Nat) : ∃ m, randomSplit perm labels classes perClass numVal numTest = some m ∧
      m.train.length = labels.length ∧ m.val.length = labels.length ∧ m.test.length = labels.length ∧
      (∀ c < classes, (m.train.zip labels).count (true, c) = min 20 (labels.count c)) ∧
      (∀ c, classes ≤ c → (m.train.zip labels).count (true, c) = 0) ∧
      (∀ i : Nat, ¬(m.train[i]? = some true ∧ m.val[i]? = some true) ∧ ¬(m.train[i]? = some true ∧ m.test[i]? = some true) ∧
        ¬(m.val[i]? = some true ∧ m.test[i]? = some true)) ∧
      m.val.count true = min numVal (labels.length - m.train.count true) ∧
      m.test.count true = min numTest (labels.length - m.train.count true - numVal) := by
  obtain ⟨rest, h1, h2⟩ := randomSplit_eq hp labels classes hc perClass numVal numTest
  have hzip : ((List.range labels.length).map fun i => decide (i ∈ trainOf perm labels classes)).zip labels =
      (List.range labels.length).map fun i => (decide (i ∈ trainOf perm labels classes), labels.getD i 0) := by
    apply List.ext_getElem?
    intro i
    by_cases hi : i < labels.length
    · rw [List.getElem?_map, List.getElem?_range hi, Option.map_some]
      refine List.getElem?_zip_eq_some.2 ⟨?_, ?_⟩
      · rw [List.getElem?_map, List.getElem?_range hi, Option.map_some]
      · rw [List.getD_eq_getElem?_getD, List.getElem?_eq_getElem hi]; rfl
    · rw [List.getElem?_eq_none (by simp; omega), List.getElem?_eq_none (by simp; omega)]
  have hcount : ∀ c, (((List.range labels.length).map fun i => decide (i ∈ trainOf perm labels classes)).zip labels).count (true, c) =
      ((List.range labels.length).filter fun i => decide (i ∈ trainOf perm labels classes ∧ labels[i]? = some c)).length := by
    intro c
    rw [hzip, List.count_eq_countP, List.countP_map, List.countP_eq_length_filter]
    congr 1
    apply List.filter_congr
    intro i hi
    have hi := List.mem_range.1 hi
    simp only [Function.comp, List.getD_eq_getElem?_getD, List.getElem?_eq_getElem hi, Option.getD_some, Option.some.injEq]
    by_cases ht : i ∈ trainOf perm labels classes <;> by_cases he : labels[i] = c <;> simp [ht, he]
  have hnd : rest.Nodup := h1.nodup_iff.2 (List.nodup_range.filter _)
  have hmem : ∀ i ∈ rest, i < labels.length ∧ i ∉ trainOf perm labels classes := fun i hi => by
    obtain ⟨a, b⟩ := List.mem_filter.1 (h1.mem_iff.1 hi)
    exact ⟨List.mem_range.1 a, of_decide_eq_true b⟩
  have hct := count_mask (trainOf perm labels classes) labels.length (train_nodup hp labels classes) fun i => train_lt hp labels classes
  have hrest : rest.length = labels.length - (trainOf perm labels classes).length := by
    have hs := (HetEval.split_perm (fun i => decide (i ∈ trainOf perm labels classes)) (List.range labels.length)).length_eq
    rw [List.length_append, List.length_range, ← List.countP_eq_length_filter] at hs
    rw [List.count_eq_countP, List.countP_map] at hct
    have h3 : (List.countP ((fun b => b == true) ∘ fun i => decide (i ∈ trainOf perm labels classes)) (List.range labels.length)) =
        List.countP (fun i => decide (i ∈ trainOf perm labels classes)) (List.range labels.length) := by
      congr 1
      funext i
      simp
    rw [h3] at hct
    have h4 := h1.length_eq
    have h5 : ((List.range labels.length).filter fun i => decide (i ∉ trainOf perm labels classes)) =
        (List.range labels.length).filter fun x => !decide (x ∈ trainOf perm labels classes) := by
      congr 1
      funext i
      simp
    rw [h5] at h4
    omega
  refine ⟨_, h2, by simp, by simp, by simp, fun c hcl => ?_, fun c hcl => ?_, fun i => ?_, ?_, ?_⟩
  · rw [hcount, ← members_length]
    have := ((List.perm_ext_iff_of_nodup (List.nodup_range.filter _) (take_nodup hp labels c)).2 fun i => by
      rw [List.mem_filter, List.mem_range, decide_eq_true_eq, ← train_mem hp labels classes hcl]
      exact ⟨fun hh => hh.2, fun hh => ⟨train_lt hp labels classes hh.1, hh⟩⟩ :
      ((List.range labels.length).filter fun i => decide (i ∈ trainOf perm labels classes ∧ labels[i]? = some c)).Perm _).length_eq
    rw [this, List.length_take, (hp c _).length_eq]
  · rw [hcount, List.length_eq_zero_iff, List.filter_eq_nil_iff]
    intro i _ hi
    obtain ⟨h3, h4⟩ := of_decide_eq_true hi
    obtain ⟨d, hd, hm⟩ := List.mem_flatMap.1 h3
    have := perm_label hp labels hm
    rw [h4, Option.some.injEq] at this
    have := List.mem_range.1 hd
    omega
  · simp only [get_mask, decide_eq_true_eq]
    refine ⟨fun hh => (hmem i (List.mem_of_mem_take hh.2.2)).2 hh.1.2, fun hh =>
      (hmem i (List.mem_of_mem_drop (List.mem_of_mem_take hh.2.2))).2 hh.1.2, fun hh => ?_⟩
    have hsp := List.nodup_append.1 ((List.take_append_drop numVal rest).symm ▸ hnd : (rest.take numVal ++ rest.drop numVal).Nodup)
    exact hsp.2.2 i hh.1.2 i (List.mem_of_mem_take hh.2.2) rfl
  · rw [count_mask _ _ (hnd.sublist (List.take_sublist _ _)) fun i hi => (hmem i (List.mem_of_mem_take hi)).1, List.length_take, hct, hrest]
  · rw [count_mask _ _ (hnd.sublist ((List.take_sublist _ _).trans (List.drop_sublist _ _))) fun i hi =>
      (hmem i (List.mem_of_mem_drop (List.mem_of_mem_take hi))).1, List.length_take, List.length_drop, hct, hrest]

/-- 21 nodes of one class and one of another. -/
def citeLabels : List Nat := List.replicate 21 0 ++ [1]

example : randomSplit (fun _ l => l.reverse) citeLabels 2 20 1 1 =
    some ⟨false :: List.replicate 21 true, true :: List.replicate 21 false, List.replicate 22 false⟩ := by decide +kernel

/-- Refuted: `num_train_per_class` has an effect. -/
theorem C90_per_class_refuted : ∀ (perm : Nat → List Nat → List Nat) (labels : List Nat) (classes a b numVal numTest : Nat),
    randomSplit perm labels classes a numVal numTest = randomSplit perm labels classes b numVal numTest :=
  fun _ _ _ _ _ _ _ => rfl

/-- Asked for one training node per class there are 20. -/
example : ((randomSplit (fun _ l => l) citeLabels 2 1 0 0).map fun m => (m.train.zip citeLabels).count (true, 0)) = some 20 := by decide +kernel

/-- Refuted: `split="random"` changes the dataset. -/
theorem C90_random_refuted : ∀ {α : Type} (packaged : α), install packaged "random" = install packaged "public" ∧
    install packaged "public" = some packaged := fun _ => ⟨rfl, rfl⟩

/-- Whenever there is a public split, 500 nodes are for validation, whatever else they are. -/
theorem C90_validation {labelled size : Nat} {test : List Nat} {m : Masks} (h : publicMasks labelled test size = some m) {i : Nat}
    (hi : labelled ≤ i ∧ i < labelled + 500) : (splitTypes m)[i]? = some 1 ∧ (m.test[i]? = some true ↔ i ∈ test) := by
  obtain ⟨t, h1, h2⟩ := Option.bind_eq_some_iff.1 h
  obtain ⟨v, h3, h4⟩ := Option.bind_eq_some_iff.1 h2
  obtain ⟨u, h5, rfl⟩ := Option.map_eq_some_iff.1 h4
  have hlt : ∀ {idx mask}, sampleMask idx size = some mask → ∀ j ∈ idx, j < size := fun hm j hj =>
    Classical.byContradiction fun hge => by rw [sampleMask_none hj (by omega)] at hm; cases hm
  have hsz := hlt h3 i (List.mem_range'_1.2 hi)
  have e1 := hlt h1
  have e3 := hlt h3
  have e5 := hlt h5
  rw [sampleMask_eq e1, Option.some.injEq] at h1
  rw [sampleMask_eq e3, Option.some.injEq] at h3
  rw [sampleMask_eq e5, Option.some.injEq] at h5
  subst h1 h3 h5
  constructor
  · rw [splitTypes]
    simp only [List.length_map, List.length_range]
    rw [List.getElem?_map, List.getElem?_range hsz, Option.map_some]
    simp only [get_mask, decide_eq_true_eq, List.mem_range, List.mem_range'_1]
    rw [if_neg (by omega), if_pos (by omega)]
  · simp only [get_mask, decide_eq_true_eq, mem_sort]
    exact ⟨fun hh => hh.2, fun hh => ⟨hsz, hh⟩⟩

/-- Refuted: every test node is in the test set.  With fewer than 500 nodes between those for training and those for tests, nodes for tests
have the type of validation nodes. -/
theorem C90_overlap_refuted : ∃ m, publicMasks 1 (List.range' 2 600) 602 = some m ∧ (2 ∈ List.range' 2 600) ∧ m.test[2]? = some true ∧
    (splitTypes m)[2]? = some 1 := by
  have hex : ∃ m, publicMasks 1 (List.range' 2 600) 602 = some m := ⟨_, by
    rw [publicMasks, sampleMask_eq (by intro i hi; have := List.mem_range.1 hi; omega),
      sampleMask_eq (by intro i hi; have := List.mem_range'_1.1 hi; omega),
      sampleMask_eq (by intro i hi; have := List.mem_range'_1.1 (mem_sort.1 hi); omega)]
    rfl⟩
  obtain ⟨m, hm⟩ := hex
  have h2 : 2 ∈ List.range' 2 600 := by rw [List.mem_range'_1]; omega
  obtain ⟨h3, h4⟩ := C90_validation hm (i := 2) ⟨by omega, by omega⟩
  exact ⟨m, hm, h2, h4.2 h2, h3⟩

/-! The graph -/

variable {str : Rat → Str} {isolated : Bool} {split : Option (Nat → List Nat → List Nat)} {raw : Raw} {N : Nat} {files : Citation.Files}

/-- The row of features and the row of labels of a node. -/
def featuresOf (raw : Raw) (i : Nat) : List Rat := citationRow (List.replicate raw.dim 0) raw.allx raw.tx raw.test i

def labelsOf (raw : Raw) (i : Nat) : List Int := citationRow (List.replicate raw.classes 0) raw.ally raw.ty raw.test i

theorem citationRow_width {α : Type} {zero : α} {allx tx : List α} {test : List Nat} {P : α → Prop} (hz : P zero) (h : ∀ r ∈ allx ++ tx, P r) (i : Nat) :
    P (citationRow zero allx tx test i) := by
  have hget : ∀ (l : List α) (j : Nat), (∀ r ∈ l, P r) → P (l.getD j zero) := by
    intro l j hl
    rw [List.getD_eq_getElem?_getD]
    cases hj : l[j]? with
    | none => exact hz
    | some r => exact hl r (List.mem_of_getElem? hj)
  rw [citationRow]
  split
  · exact hget _ _ fun r hr => h r (List.mem_append_left _ hr)
  · split
    · exact hget _ _ fun r hr => h r (List.mem_append_right _ hr)
    · exact hz

theorem labels_exist (h : PublishedOk isolated N raw) : ∃ labels, ((List.range N).map (labelsOf raw)).mapM argmax = some labels := by
  apply Json.mapM_each
  intro row hrow
  obtain ⟨i, -, rfl⟩ := List.mem_map.1 hrow
  apply argmax_exists
  intro he
  have := citationRow_width (zero := List.replicate raw.classes (0 : Int)) (P := fun r => r.length = raw.classes) (test := raw.test)
    (by simp) h.classes.2 i
  rw [← labelsOf, he] at this
  have := h.classes.1
  simp at *
  omega

/-- What is written for node `i`. -/
def blockOf (str : Rat → Str) (raw : Raw) (labels types : List Nat) (i : Nat) : Block :=
  ⟨(i : Nat), (types.getD i 0 : Nat), (normalize (featuresOf raw i)).map str, [showInt (labels.getD i 0 : Nat)],
    (adjRow raw.graph i).map fun j => ((j : Nat) : Int), []⟩

/-- A build, step by step. -/
theorem build_steps (h : PublishedOk isolated N raw) : ∃ pub labels, publicMasks raw.labelled raw.test N = some pub ∧
    splitTypes pub = (List.range N).map (publicType raw) ∧
    ((List.range N).map (labelsOf raw)).mapM argmax = some labels ∧
    ∀ split, build str isolated split raw = (chosen split labels pub).bind fun masks =>
      (writeGraph str raw.graph (((List.range N).map (featuresOf raw)).map normalize) labels (splitTypes masks)).map fun blocks =>
        { blocks := blocks
          train := (List.range (splitTypes masks).length).filter fun i => (splitTypes masks)[i]? = some 0
          test := (List.range (splitTypes masks).length).filter fun i => (splitTypes masks)[i]? = some 2
          hetgnn := ((List.range (splitTypes masks).length).filter fun i => (splitTypes masks)[i]? = some 2).map fun i => (i, 2) } := by
  obtain ⟨pub, h1, h2, -⟩ := C90_public_types h
  obtain ⟨labels, h3⟩ := labels_exist h
  refine ⟨pub, labels, h1, h2, h3, fun split => ?_⟩
  have e1 := reorder_eq h.index (List.replicate raw.dim (0 : Rat)) h.tx
  have e2 := reorder_eq (h.ally.symm ▸ h.index) (List.replicate raw.classes (0 : Int)) h.ty
  rw [build, e1, Option.bind_some, e2, Option.bind_some, List.length_map, List.length_range, h1, Option.bind_some]
  have h3' := h3
  rw [show labelsOf raw = citationRow (List.replicate raw.classes 0) raw.ally raw.ty raw.test from rfl] at h3'
  rw [h3', Option.bind_some]
  rfl

theorem writeGraph_eq (h : PublishedOk isolated N raw) {labels types : List Nat} (hl : labels.length = N) (ht : N ≤ types.length) :
    writeGraph str raw.graph (((List.range N).map (featuresOf raw)).map normalize) labels types =
      some ((List.range N).map (blockOf str raw labels types)) := by
  have ho := order_eq h.keys h.nbrs
  rw [writeGraph, ho, List.length_range, if_pos]
  · apply Sage.mapM_map
    intro i hi
    have hi := List.mem_range.1 hi
    have e1 : (((List.range N).map (featuresOf raw)).map normalize)[i]? = some (normalize (featuresOf raw i)) := by
      rw [List.getElem?_map, List.getElem?_map, List.getElem?_range hi]; rfl
    have e2 : labels[i]? = some (labels.getD i 0) := by
      rw [List.getD_eq_getElem?_getD, List.getElem?_eq_getElem (by omega)]; rfl
    have e3 : types[i]? = some (types.getD i 0) := by
      rw [List.getD_eq_getElem?_getD, List.getElem?_eq_getElem (by omega)]; rfl
    simp only [e1, e2, e3]
    rfl
  · refine ⟨by simp, hl.symm, List.all_eq_true.2 fun f hf => ?_⟩
    obtain ⟨r, hr, rfl⟩ := List.mem_map.1 hf
    obtain ⟨i, -, rfl⟩ := List.mem_map.1 hr
    have := citationRow_width (zero := List.replicate raw.dim (0 : Rat)) (P := fun r => r.length = raw.dim) (test := raw.test)
      (by simp) h.dim.2 i
    have hd := h.dim.1
    rw [← featuresOf] at this
    cases hn : normalize (featuresOf raw i) with
    | cons => rfl
    | nil =>
      have h5 := congrArg List.length hn
      simp [normalize] at h5
      rw [h5] at this
      simp at this
      omega

theorem writeGraph_types {graph : Dict} {features : List (List Rat)} {labels types : List Nat} {blocks : List Block}
    (h : writeGraph str graph features labels types = some blocks) : (order graph).length ≤ types.length := by
  rw [writeGraph] at h
  split at h
  · by_cases hn : (order graph).length ≤ types.length
    · exact hn
    · exfalso
      have hg := Json.mapM_get h types.length
      rw [List.getElem?_range (by omega), Option.bind_some, List.getElem?_eq_none (show types.length ≤ types.length from Nat.le_refl _)] at hg
      have hlen := Retry.length_mapM h
      rw [List.length_range] at hlen
      have hsome : blocks[types.length]? = some (blocks[types.length]'(by omega)) := List.getElem?_eq_getElem (by omega)
      rw [hsome] at hg
      split at hg
      · rename_i h3; cases h3
      · cases hg
  · cases h

/-- The blocks of a build that succeeds. -/
theorem build_blocks (h : PublishedOk isolated N raw) (hb : build str isolated split raw = some files) :
    ∃ labels types, labels.length = N ∧ N ≤ types.length ∧ (∀ t ∈ types, t < 4) ∧ (∀ i < N, FirstMax (labelsOf raw i) (labels.getD i 0)) ∧
      files.blocks = (List.range N).map (blockOf str raw labels types) ∧
      files.train = ((List.range types.length).filter fun i => types[i]? = some 0) ∧
      files.test = ((List.range types.length).filter fun i => types[i]? = some 2) ∧
      files.hetgnn = files.test.map (fun i => (i, 2)) ∧ (split = none → types = (List.range N).map (publicType raw)) := by
  obtain ⟨pub, labels, h1, h2, h3, h4⟩ := build_steps (str := str) h
  have hlen : labels.length = N := by rw [Retry.length_mapM h3]; simp
  have hfirst : ∀ i < N, FirstMax (labelsOf raw i) (labels.getD i 0) := by
    intro i hi
    have := Json.mapM_get h3 i
    rw [List.getElem?_map, List.getElem?_range hi] at this
    rw [List.getD_eq_getElem?_getD, ← this]
    obtain ⟨p, hp⟩ : ∃ p, labels[i]? = some p := ⟨_, List.getElem?_eq_getElem (by omega)⟩
    rw [hp] at this
    simp only [Option.map_some, Option.bind_some] at this ⊢
    rw [this]
    exact argmax_spec this
  rw [h4 split] at hb
  obtain ⟨masks, h5, h6⟩ := Option.bind_eq_some_iff.1 hb
  obtain ⟨blocks, h7, rfl⟩ := Option.map_eq_some_iff.1 h6
  have hty := writeGraph_types h7
  rw [order_eq h.keys h.nbrs, List.length_range] at hty
  rw [writeGraph_eq h hlen hty, Option.some.injEq] at h7
  refine ⟨labels, splitTypes masks, hlen, hty, fun t ht => ?_, hfirst, h7.symm, rfl, rfl, rfl, fun hs => ?_⟩
  · obtain ⟨i, -, rfl⟩ := List.mem_map.1 ht
    repeat' split
    all_goals omega
  · subst hs
    cases h5
    exact h2

/-- Blocks are in the format of the converter. -/
theorem citation_ok (h : PublishedOk isolated N raw) (hs : ∀ x, ',' ∉ str x) {labels types : List Nat} (ht : ∀ t ∈ types, t < 4) (hn : N ≤ types.length) :
    BlocksOk ((List.range N).map (blockOf str raw labels types)) := by
  have hsize := h.size
  refine ⟨?_, ?_, ?_, ?_, ?_, ?_⟩
  · rw [List.map_map, List.Nodup, List.pairwise_map]
    exact List.nodup_range.imp fun {a b} hab he => hab (Int.ofNat.inj he)
  all_goals
    intro b hb
    obtain ⟨i, hi, rfl⟩ := List.mem_map.1 hb
    have hi := List.mem_range.1 hi
  · refine ⟨Int.natCast_nonneg _, ?_⟩
    show (i : Int) < 2 ^ 63
    omega
  · refine ⟨Int.natCast_nonneg _, ?_⟩
    have : types.getD i 0 < 4 := by
      rw [List.getD_eq_getElem?_getD, List.getElem?_eq_getElem (by omega)]
      exact ht _ (List.getElem_mem _)
    show ((types.getD i 0 : Nat) : Int) < 2 ^ 31
    omega
  · constructor
    · have := citationRow_width (zero := List.replicate raw.dim (0 : Rat)) (P := fun r => r.length = raw.dim) (test := raw.test)
        (by simp) h.dim.2 i
      have hd := h.dim.1
      rw [← featuresOf] at this
      intro hnil
      have h5 := congrArg List.length hnil
      simp [blockOf, normalize] at h5
      rw [h5] at this
      simp at this
      omega
    · intro x hx
      obtain ⟨v, -, rfl⟩ := List.mem_map.1 hx
      exact hs v
  · refine ⟨by simp [blockOf], fun x hx => ?_⟩
    rw [List.mem_singleton.1 hx]
    exact not_mem_intText (d := ',') ⟨by decide, by decide⟩ _
  · intro n hn
    rw [show (blockOf str raw labels types i).train ++ (blockOf str raw labels types i).other = (adjRow raw.graph i).map (fun j => ((j : Nat) : Int)) from
      List.append_nil _] at hn
    obtain ⟨j, hj, rfl⟩ := List.mem_map.1 hn
    have hj' : j < N := by
      rw [adjRow, order_eq h.keys h.nbrs, List.length_range] at hj
      exact List.mem_range.1 (List.mem_filter.1 hj).1
    omega

variable {E : Encode Str} {C : WeightCodec} {m : Meta} {g : Graph}

/-- The public split can be built, and its edge list is accepted by the converter and loaded, with any number of partitions and any
distribution of the lines. -/
theorem C90_converts (h : PublishedOk isolated N raw) (hs : ∀ x, ',' ∉ str x) : ∃ files, build str isolated none raw = some files ∧
    ∀ {count : Nat} {to : List Nat}, to.length = (graphLines false files.blocks).length → (∀ x ∈ to, x < count) → C.Valid (E.weight "1.0".toList) →
    m.watermark < 0 → 2 ≤ m.nodeFeatureCount →
    ∃ recs, decodeParts listConfig listParse E (dealt count to (graphLines false files.blocks)) = some recs ∧
      ((∀ calls ∈ recs, inputSize calls + 24 < 2 ^ 64) →
        ∃ fs g, recs.mapM (convertPartition C none) = some fs ∧ loadGraph C m (fs.map fun f => [f]) = some g ∧
          ServedFrom E C m (graphLines false files.blocks) g) := by
  obtain ⟨pub, labels, h1, h2, h3, h4⟩ := build_steps (str := str) h
  have hlen : labels.length = N := by rw [Retry.length_mapM h3]; simp
  have hb : ∃ files, build str isolated none raw = some files := by
    rw [h4 none]
    simp only [chosen, Option.bind_some]
    rw [writeGraph_eq h hlen (by rw [h2]; simp)]
    exact ⟨_, rfl⟩
  obtain ⟨files, hb⟩ := hb
  refine ⟨files, hb, fun hl ht hw hm hf => ?_⟩
  obtain ⟨labels', types, -, e2, e3, -, e5, -⟩ := build_blocks h hb
  exact convert_lines E C m (e5 ▸ citation_ok h hs e3 e2) hl ht hw hm hf

/-- A random split can be built, too. -/
theorem C90_random_builds (h : PublishedOk isolated N raw) {perm : Nat → List Nat → List Nat} (hp : ∀ k l, (perm k l).Perm l) :
    ∃ files, build str isolated (some perm) raw = some files := by
  obtain ⟨pub, labels, h1, h2, h3, h4⟩ := build_steps (str := str) h
  have hlen : labels.length = N := by rw [Retry.length_mapM h3]; simp
  obtain ⟨masks, h5, h6, -⟩ := C90_random_split hp labels (classes := labels.foldl max 0 + 1) (by omega) 20 (pub.val.count true) (pub.test.count true)
  rw [h4 (some perm), chosen, h5, Option.bind_some, writeGraph_eq h hlen (by rw [splitTypes]; simp; omega)]
  exact ⟨_, rfl⟩

/-- Features of a node: its row divided by the sum, and the number of its class, as floats. -/
theorem C90_features (h : PublishedOk isolated N raw) (hs : ∀ x, ',' ∉ str x) (hb : build str isolated split raw = some files)
    (hg : ServedFrom E C m (graphLines false files.blocks) g) {i label : Nat} (hi : i < N) (hlab : FirstMax (labelsOf raw i) label)
    (size0 size1 : Nat) (out : Bytes) (hout : out.length = size0 + size1) :
    g.nodeFeature [(i : Int)] none [(0, size0), (1, size1)] out =
      some (fit size0 ((unitRow (featuresOf raw i)).flatMap fun x => E.number "float32".toList (str x)) ++
        fit size1 (E.number "float32".toList (intText label))) := by
  obtain ⟨labels, types, -, e2, e3, e4, e5, -⟩ := build_blocks h hb
  have hok := citation_ok (labels := labels) h hs e3 e2
  rw [e5] at hg
  obtain ⟨count, to, recs, h1, h2, h3, h4⟩ := served_lines hok hg
  have := RawGraph.blocks_features hok h1 h2 h3 h4 (b := blockOf str raw labels types i) (List.mem_map.2 ⟨i, List.mem_range.2 hi, rfl⟩)
    size0 size1 out hout
  rw [firstMax_unique hlab (e4 i hi), ← (C90_normalized _).1]
  rw [show (blockOf str raw labels types i).id = (i : Int) from rfl] at this
  rw [this]
  simp only [blockOf, List.flatMap_map, List.flatMap_cons, List.flatMap_nil, List.append_nil]
  rfl

/-- Neighbours of a node: exactly the papers it cites or that cite it, once each, over edges of type 0. -/
theorem C90_neighbors (h : PublishedOk isolated N raw) (hs : ∀ x, ',' ∉ str x) (hb : build str isolated split raw = some files)
    (hg : ServedFrom E C m (graphLines false files.blocks) g) {i : Nat} (hi : i < N) {types : List Int} (ht : types.Pairwise (· < ·)) :
    ∃ nbrs, g.fullNeighbor [(i : Int)] none types = some (nbrs, [nbrs.length]) ∧ (nbrs.map fun x => (x.dst, x.typ)).Nodup ∧
      ∀ p t : Int, (p, t) ∈ nbrs.map (fun x => (x.dst, x.typ)) ↔ 0 ∈ types ∧ t = 0 ∧ ∃ j : Nat, p = j ∧ CitesEither raw.graph i j := by
  obtain ⟨labels, types', -, e2, e3, -, e5, -⟩ := build_blocks h hb
  have hok := citation_ok (labels := labels) h hs e3 e2
  rw [e5] at hg
  obtain ⟨count, to, recs, h1, h2, h3, h4⟩ := served_lines hok hg
  obtain ⟨nbrs, f1, f2⟩ := RawGraph.blocks_neighbors hok h1 h2 h3 h4 (b := blockOf str raw labels types' i)
    (List.mem_map.2 ⟨i, List.mem_range.2 hi, rfl⟩) ht
  have hbn : RawGraph.blockNeighbors (blockOf str raw labels types' i) types =
      if 0 ∈ types then (adjRow raw.graph i).map (fun j => (((j : Nat) : Int), 0)) else [] := by
    rw [RawGraph.blockNeighbors]
    simp only [blockOf, List.map_map, List.map_nil, ite_self, List.append_nil]
    rfl
  rw [hbn] at f2
  refine ⟨nbrs, f1, f2.nodup_iff.2 ?_, fun p t => ?_⟩
  · split
    · rw [List.Nodup, List.pairwise_map]
      exact (adjRow_nodup _ _).imp fun hab he => hab (Int.ofNat.inj (Prod.mk.inj he).1)
    · exact List.nodup_nil
  · rw [f2.mem_iff]
    split
    · rename_i h0
      rw [List.mem_map]
      constructor
      · rintro ⟨j, hj, he⟩
        obtain ⟨rfl, rfl⟩ := Prod.mk.inj he
        exact ⟨h0, rfl, j, rfl, (mem_adjRow h.keys h.nbrs hi).1 hj⟩
      · rintro ⟨-, rfl, j, rfl, hj⟩
        exact ⟨j, (mem_adjRow h.keys h.nbrs hi).2 hj, rfl⟩
    · rename_i h0
      exact ⟨fun hh => absurd hh List.not_mem_nil, fun hh => absurd hh.1 h0⟩

/-- Types of nodes in the public split, and the files with the nodes for training and tests. -/
theorem C90_types (h : PublishedOk isolated N raw) (hs : ∀ x, ',' ∉ str x) (hb : build str isolated none raw = some files)
    (hg : ServedFrom E C m (graphLines false files.blocks) g) :
    (∀ i < N, ∀ d, g.nodeType1 d (i : Int) = some ((publicType raw i : Nat) : Int)) ∧ files.train = List.range raw.labelled ∧
      files.test.Perm raw.test ∧ files.test.Pairwise (· < ·) ∧ files.hetgnn = files.test.map (fun i => (i, 2)) := by
  obtain ⟨labels, types, -, e2, e3, -, e5, e6, e7, e8, e9⟩ := build_blocks h hb
  have hok := citation_ok (labels := labels) h hs e3 e2
  rw [e5] at hg
  obtain ⟨count, to, recs, h1, h2, h3, h4⟩ := served_lines hok hg
  have e9 := e9 rfl
  have hget : ∀ i < N, types[i]? = some (publicType raw i) := by
    intro i hi
    rw [e9, List.getElem?_map, List.getElem?_range hi]; rfl
  have hlen : types.length = N := by rw [e9]; simp
  have hv := h.val
  have hle := h.index.le
  refine ⟨fun i hi d => ?_, ?_, ?_, ?_, e8⟩
  · have := RawGraph.blocks_type hok h1 h2 h3 h4 (b := blockOf str raw labels types i) (List.mem_map.2 ⟨i, List.mem_range.2 hi, rfl⟩) d
    rw [show (blockOf str raw labels types i).id = (i : Int) from rfl] at this
    rw [this]
    simp only [blockOf, List.getD_eq_getElem?_getD, hget i hi, Option.getD_some]
  · rw [e6]
    apply Gat.sorted_unique_nat (List.pairwise_lt_range.filter _) List.pairwise_lt_range
    intro i
    rw [List.mem_filter, List.mem_range, List.mem_range, hlen, decide_eq_true_eq]
    constructor
    · rintro ⟨hi, ht⟩
      rw [hget i hi, Option.some.injEq, publicType] at ht
      apply Classical.byContradiction
      intro hn
      rw [if_neg hn] at ht
      split at ht
      · omega
      · split at ht <;> omega
    · intro hi
      refine ⟨by omega, ?_⟩
      rw [hget i (by omega), publicType, if_pos hi]
  · rw [e7, List.perm_ext_iff_of_nodup (List.nodup_range.filter _) h.index.nodup]
    intro i
    rw [List.mem_filter, List.mem_range, hlen, decide_eq_true_eq]
    constructor
    · rintro ⟨hi, ht⟩
      rw [hget i hi, Option.some.injEq, publicType] at ht
      apply Classical.byContradiction
      intro hn
      rw [if_neg hn] at ht
      split at ht
      · omega
      · split at ht <;> omega
    · intro hi
      have := h.index.range i hi
      refine ⟨this.2, ?_⟩
      rw [hget i this.2, publicType, if_neg (by omega), if_neg (by omega), if_pos hi]
  · rw [e7]
    exact List.pairwise_lt_range.filter _

/-- Refuted: an isolated node has no class.  It is written with class 0. -/
theorem C90_isolated_refuted (h : PublishedOk isolated N raw) {i : Nat} (hi : raw.allx.length ≤ i) (ht : i ∉ raw.test) :
    FirstMax (labelsOf raw i) 0 := by
  have hlab : labelsOf raw i = List.replicate raw.classes 0 := by
    rw [labelsOf, citationRow, if_neg (by rw [h.ally]; omega), if_neg ht]
  have hc := h.classes.1
  rw [hlab]
  refine ⟨0, by rw [List.getElem?_replicate, if_pos hc], fun y hy => ?_, fun _ _ _ _ => Nat.zero_le _⟩
  rw [List.eq_of_mem_replicate hy]
  exact Int.le_refl _

/-- Refuted: neighbours are given to the right node whatever the order of the dictionary.  Rows of the adjacency matrix are numbered in the
order of the keys: here node 1 cites node 2, but the row of node 1 is empty and node 0 has a neighbour. -/
theorem C90_order_refuted : CitesEither [(1, [2]), (0, []), (2, [])] 1 2 ∧ adjRow [(1, [2]), (0, []), (2, [])] 1 = [] ∧
    adjRow [(1, [2]), (0, []), (2, [])] 0 = [2] ∧ order [(1, [2]), (0, []), (2, [])] = [1, 0, 2] :=
  ⟨⟨(1, [2]), by simp, .inl ⟨rfl, by simp⟩⟩, by decide +kernel, by decide +kernel, by decide +kernel⟩

/-- Published files with 501 nodes before those for tests, one of which is isolated. -/
def citeRaw : Raw :=
  { labelled := 1, dim := 2, classes := 2
    tx := [[1, 3], [0, 2]], ty := [[0, 1], [1, 0]]
    allx := List.replicate 501 [1, 1], ally := List.replicate 501 [1, 0]
    graph := (List.range 504).map fun i => (i, [503 - i])
    test := [503, 501] }

theorem citeRaw_ok : PublishedOk true 504 citeRaw := by
  have hl : citeRaw.allx.length = 501 := List.length_replicate
  have hr : ∀ {α : Type} (a : α) (n : Nat) (l : List α) (P : α → Prop), P a → (∀ r ∈ l, P r) → ∀ r ∈ List.replicate n a ++ l, P r := by
    intro α a n l P ha hl r hr
    rcases List.mem_append.1 hr with hr | hr
    · rw [List.eq_of_mem_replicate hr]; exact ha
    · exact hl r hr
  refine ⟨⟨by decide, ?_, by omega, fun _ => ⟨?_, by decide⟩, by simp⟩, by rw [hl]; exact List.length_replicate, rfl, rfl, ⟨by decide, ?_⟩, ⟨by decide, ?_⟩, ?_, ?_, ?_, by decide⟩
  · rw [hl]; decide
  · rw [hl]; decide
  · exact hr _ _ _ (fun r : List Rat => r.length = 2) rfl (by decide)
  · exact hr _ _ _ (fun r : List Int => r.length = 2) rfl (by decide)
  · rw [hl]; decide
  · rw [citeRaw, List.map_map]
    exact List.map_id' _
  · intro e he b hb
    simp only [citeRaw] at he
    generalize List.range 504 = ids at he
    obtain ⟨i, -, rfl⟩ := List.mem_map.1 he
    rw [List.mem_singleton.1 hb]
    omega

/-- Node 503 has the first row of `tx`; node 502 is isolated and has class 0. -/
example : featuresOf citeRaw 503 = [1, 3] ∧ unitRow [1, 3] = [1/4, 3/4] ∧ FirstMax (labelsOf citeRaw 503) 1 ∧ FirstMax (labelsOf citeRaw 502) 0 := by
  have hl : ¬503 < citeRaw.allx.length := by rw [show citeRaw.allx.length = 501 from List.length_replicate]; omega
  have hl' : ¬503 < citeRaw.ally.length := by rw [show citeRaw.ally.length = 501 from List.length_replicate]; omega
  refine ⟨?_, by decide +kernel, ?_, C90_isolated_refuted citeRaw_ok ?_ (by decide)⟩
  · rw [featuresOf, citationRow, if_neg hl]; decide +kernel
  · rw [labelsOf, citationRow, if_neg hl', if_pos (by decide)]
    refine argmax_spec (by decide +kernel)
  · rw [show citeRaw.allx.length = 501 from List.length_replicate]; omega

example (str : Rat → Str) : ∃ files, build str true none citeRaw = some files ∧ files.train = [0] ∧ files.test = [501, 503] := by
  obtain ⟨pub, labels, h1, h2, h3, h4⟩ := build_steps (str := str) citeRaw_ok
  have hlen : labels.length = 504 := by rw [Retry.length_mapM h3]; simp
  have hb : ∃ files, build str true none citeRaw = some files := by
    rw [h4 none]
    simp only [chosen, Option.bind_some]
    rw [writeGraph_eq citeRaw_ok hlen (by rw [h2]; simp)]
    exact ⟨_, rfl⟩
  obtain ⟨files, hb⟩ := hb
  obtain ⟨labels', types, -, -, -, -, -, e6, e7, -, e9⟩ := build_blocks citeRaw_ok hb
  have e9 := e9 rfl
  rw [e9] at e6 e7
  refine ⟨files, hb, ?_, ?_⟩
  · rw [e6]; decide +kernel
  · rw [e7]; decide +kernel

end DeepGNN
