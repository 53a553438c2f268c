import Verif.Proofs.Embeddings
import Verif.Props.C34

/-!
C94: embeddings written by the workers of an inference job can be loaded again (src/python/deepgnn/tf/common/utils.py:110-158).
-/

namespace DeepGNN

open Spec Embeddings Samplers
open EdgeList (Str)

/-- Whatever the batches of the workers and whatever the order in which their files are read: the loaded matrix has a row for every
node in them, each value within half a millionth, and zeros elsewhere.
Missing: embeddings that depend on the rest of the batch (the last row read counts); the rounding to 32-bit floats. -/
theorem C94_round_trip_partial (f : Int → List Value) (invalid : Int) (workers : List (List (List Int))) (n dim : Nat)
    (hf : ∀ w ∈ workers, ∀ b ∈ w, ∀ i ∈ b, i ≠ invalid →
      0 ≤ i ∧ i < n ∧ (f i).length = dim ∧ ∀ v ∈ f i, ValidValue v) (hd : 0 < dim) :
    ∃ files res, workers.mapM (inference (fun b => b.map f) invalid) = some files ∧ load n dim files = some res ∧
      EmbeddingTable n dim f (fun i => i ≠ invalid ∧ ∃ w ∈ workers, ∃ b ∈ w, i ∈ b) res := by
  have hm : workers.mapM (inference (fun b => b.map f) invalid) =
      some ((workers.map (kept invalid)).map fun ids => (ids.map fun i => line (i, f i)).flatten) := by
    rw [List.map_map]
    clear hf
    induction workers with
    | nil => rfl
    | cons w ws ih => rw [List.mapM_cons, inference_eq, ih]; rfl
  have hk : ∀ i, i ∈ (workers.map (kept invalid)).flatten ↔ i ≠ invalid ∧ ∃ w ∈ workers, ∃ b ∈ w, i ∈ b := by
    intro i
    simp only [List.mem_flatten, List.mem_map, kept]
    constructor
    · rintro ⟨_, ⟨w, hw, rfl⟩, hi⟩
      obtain ⟨h1, h2⟩ := List.mem_filter.1 hi
      obtain ⟨b, hb, hi⟩ := List.mem_flatten.1 h1
      exact ⟨by simpa using h2, w, hw, b, hb, hi⟩
    · rintro ⟨h1, w, hw, b, hb, hi⟩
      exact ⟨_, ⟨w, hw, rfl⟩, List.mem_filter.2 ⟨List.mem_flatten.2 ⟨b, hb, hi⟩, by simpa using h1⟩⟩
  obtain ⟨out, e1, e2, e3⟩ := foldRows dim f (workers.map (kept invalid)).flatten
    (List.replicate n (List.replicate dim (.fin false 0 1))) (fun i hi => by
      obtain ⟨h1, w, hw, b, hb, hi⟩ := (hk i).1 hi
      obtain ⟨a1, a2, a3, -⟩ := hf w hw b hb i hi h1
      refine ⟨a1, by simpa using a2, ?_, a3⟩
      intro e
      rw [e] at a3
      simp at a3
      omega)
  rw [List.length_replicate] at e2 e3
  refine ⟨_, out, hm, by rw [load_eq]; exact e1, e2, fun i hi => ⟨fun hw => ?_, fun hw => ?_⟩⟩
  · refine ⟨_, by rw [e3 i hi, if_pos ((hk i).2 hw)], near_map ?_⟩
    obtain ⟨h1, w, hw, b, hb, hib⟩ := hw
    exact (hf w hw b hb i hib h1).2.2.2
  · rw [e3 i hi, if_neg fun h => hw ((hk i).1 h), List.getElem?_replicate, if_pos hi]

theorem Embeddings.setRow_length {res out : List (List Value)} {i : Int} {e : List Value} (h : setRow res i e = some out) :
    out.length = res.length := by
  unfold setRow at h
  simp only at h
  generalize (if i < 0 then i + (res.length : Int) else i) = j at h
  by_cases hj : 0 ≤ j ∧ j < res.length
  · rw [if_pos hj] at h
    cases h
    simp
  · rw [if_neg hj] at h
    cases h

theorem Embeddings.fold_rejects (n dim : Nat) (f : Int → List Value) (x : Int) (hne : ∀ i, f i ≠ [])
    (hx : (f x).length ≠ dim ∨ (n : Int) ≤ x) : ∀ (ids : List Int) (res : List (List Value)), res.length = n → x ∈ ids →
    (ids.map fun i => line (i, f i)).foldlM (loadLine dim) res = none
  | [], _, _, h => by cases h
  | i :: ids, res, hl, h => by
    rw [List.map_cons, List.foldlM_cons]
    cases he : loadLine dim res (line (i, f i)) with
    | none => rfl
    | some out =>
      have hd : (f i).length = dim := by
        cases Nat.decEq (f i).length dim with
        | isTrue h => exact h
        | isFalse h =>
          have := loadLine_other dim res (i, f i) (hne i) h
          rw [this] at he
          cases he
      rw [loadLine_line dim res (i, f i) (hne i) hd] at he
      have hlen := setRow_length he
      rcases List.mem_cons.1 h with rfl | h
      · rcases hx with hx | hx
        · exact absurd hd hx
        · unfold setRow at he
          have h1 : ¬ x < 0 := by omega
          simp only [h1, if_false] at he
          rw [if_neg (by rw [hl]; omega)] at he
          cases he
      · exact fold_rejects n dim f x hne hx ids out (by rw [hlen, hl]) h

/-- Nothing is loaded silently from wrong files: a row of another width, or an id beyond the table, raises. -/
theorem C94_checked (f : Int → List Value) (invalid : Int) (workers : List (List (List Int))) (n dim : Nat) (hne : ∀ i, f i ≠ [])
    {x : Int} (hx : x ≠ invalid ∧ ∃ w ∈ workers, ∃ b ∈ w, x ∈ b) (hbad : (f x).length ≠ dim ∨ (n : Int) ≤ x) :
    ∃ files, workers.mapM (inference (fun b => b.map f) invalid) = some files ∧ load n dim files = none := by
  have hm : workers.mapM (inference (fun b => b.map f) invalid) =
      some ((workers.map (kept invalid)).map fun ids => (ids.map fun i => line (i, f i)).flatten) := by
    rw [List.map_map]
    clear hx
    induction workers with
    | nil => rfl
    | cons w ws ih => rw [List.mapM_cons, inference_eq, ih]; rfl
  refine ⟨_, hm, ?_⟩
  rw [load_eq]
  refine fold_rejects n dim f x hne hbad _ _ (by simp) ?_
  obtain ⟨h1, w, hw, b, hb, hi⟩ := hx
  exact List.mem_flatten.2 ⟨_, List.mem_map.2 ⟨w, hw, rfl⟩, List.mem_filter.2 ⟨List.mem_flatten.2 ⟨b, hb, hi⟩, by simpa using h1⟩⟩

/-- A job over a range of ids: each worker runs its own batches of the range sampler, the padding id is the skipped one.  For every
number of workers that all get work, and all orders of the files, the matrix has exactly the rows of the range.
Missing: several data-parallel processes per worker (they lose ids, `C34_last_id_lost`). -/
theorem C94_inference_partial (it : RangeIter) (hb : 0 < it.batch) (hw : 0 < it.workers) (hn : it.num = 1)
    (hs : ∀ w < it.workers, it.start w 0 ≠ none) (hbf : it.backfill < it.first ∨ it.last ≤ it.backfill)
    (f : Int → List Value) (n dim : Nat) (hd : 0 < dim) (hln : it.last ≤ n)
    (hf : ∀ i : Nat, it.first ≤ i → i < it.last → (f i).length = dim ∧ ∀ v ∈ f i, ValidValue v) :
    ∃ outs : Nat → List (List Int), (∀ w < it.workers, ∃ s, it.start w 0 = some s ∧ Yields it.next s (outs w)) ∧
      ∀ order : List Nat, order.Perm (List.range it.workers) →
        ∃ files res, (order.map outs).mapM (inference (fun b => b.map f) it.backfill) = some files ∧
          load n dim files = some res ∧
          EmbeddingTable n dim f (fun i => (it.first : Int) ≤ i ∧ i < it.last) res := by
  obtain ⟨outs, h1, h2, k, hk, hp⟩ := C34_nodes_partial it hb hw hn
  refine ⟨outs, fun w hww => ?_, fun order ho => ?_⟩
  · cases e : it.start w 0 with
    | none => exact absurd e (hs w hww)
    | some s => exact ⟨s, rfl, (h1 w hww s e).1⟩
  have mem : ∀ i, i ≠ it.backfill → ((∃ w ∈ order.map outs, ∃ b ∈ w, i ∈ b) ↔ (it.first : Int) ≤ i ∧ i < it.last) := by
    intro i hi
    have := hp.mem_iff (a := i)
    simp only [List.mem_flatMap, List.mem_range, List.mem_flatten, List.mem_append, List.mem_map, List.mem_range'_1,
      List.mem_replicate] at this
    constructor
    · rintro ⟨l, hl, b, hb, hib⟩
      obtain ⟨w, hw, rfl⟩ := List.mem_map.1 hl
      have hw := List.mem_range.1 (ho.mem_iff.1 hw)
      rcases this.1 ⟨w, hw, b, hb, hib⟩ with ⟨j, hj, rfl⟩ | h
      · have : (Int.ofNat j) = (j : Int) := rfl
        omega
      · exact absurd h.2 hi
    · intro h
      obtain ⟨w, hw, b, hb, hib⟩ := this.2 (.inl ⟨i.toNat, by omega, by
        show ((i.toNat : Nat) : Int) = i
        omega⟩)
      exact ⟨outs w, List.mem_map.2 ⟨w, ho.mem_iff.2 (List.mem_range.2 hw), rfl⟩, b, hb, hib⟩
  have bf : ∀ i : Int, (it.first : Int) ≤ i → i < it.last → i ≠ it.backfill := by
    intro i a b e
    rw [← e] at hbf
    omega
  obtain ⟨files, res, e1, e2, e3, e4⟩ := C94_round_trip_partial f it.backfill (order.map outs) n dim (by
    intro w hw b hb i hi hne
    have := (mem i hne).1 ⟨w, hw, b, hb, hi⟩
    obtain ⟨j, rfl⟩ : ∃ j : Nat, i = j := ⟨i.toNat, by omega⟩
    exact ⟨by omega, by omega, hf j (by omega) (by omega)⟩) hd
  refine ⟨files, res, e1, e2, e3, fun i hi => ⟨fun h => ?_, fun h => ?_⟩⟩
  · exact (e4 i hi).1 ⟨bf i h.1 h.2, (mem i (bf i h.1 h.2)).2 h⟩
  · refine (e4 i hi).2 fun h' => h ?_
    exact (mem i h'.1).1 h'.2

/-- Values of at most half a millionth are lost: every row of them loads as (signed) zeros, like the row of a node that was not
written. -/
theorem C94_small_refuted (neg : Bool) (num den : Nat) (h : 2 * (num * 1000000) < den) :
    parseFloat (format (.fin neg num den)) = some (.fin neg 0 1000000) := by
  rw [parse_format, rounded]
  have h1 : num * 1000000 / den = 0 := Nat.div_eq_of_lt (by omega)
  have h2 : num * 1000000 % den = num * 1000000 := Nat.mod_eq_of_lt (by omega)
  unfold micro
  simp only [h1, h2, h, if_true]

/-- A padding id that is not the skipped one is written: id -1 then overwrites the last row. -/
theorem C94_padding_refuted : ∃ (f : Int → List Value) (files : List Str) (res : List (List Value)),
    [[[0, 1], [2, -1]]].mapM (inference (fun b => b.map f) 3) = some files ∧ load 3 1 files = some res ∧
      res[2]? = some [.fin false 9000000 1000000] ∧ f 2 = [.fin false 3 1] :=
  ⟨fun i => [.fin false (if i = -1 then 9 else i.toNat + 1) 1], _,
    [[.fin false 1000000 1000000], [.fin false 2000000 1000000], [.fin false 9000000 1000000]], rfl, by decide +kernel, rfl, rfl⟩

/-- A file written for embeddings without values cannot be read. -/
theorem C94_empty_refuted : (inference (fun b => b.map fun _ => []) (-1) [[0]]).bind (fun s => load 1 0 [s]) = none := by
  decide +kernel

/-- The hypotheses are met: two workers, ids 0 to 4 in batches of two. -/
def C94_it : RangeIter := ⟨0, 5, 2, 2, -1, 1⟩

def C94_f (i : Int) : List Value := [.fin true i.toNat 3, .nan]

example : ∃ outs : Nat → List (List Int), (∀ w < 2, ∃ s, C94_it.start w 0 = some s ∧ Yields C94_it.next s (outs w)) ∧
    ∀ order : List Nat, order.Perm (List.range 2) →
      ∃ files res, (order.map outs).mapM (inference (fun b => b.map C94_f) (-1)) = some files ∧ load 6 2 files = some res ∧
        EmbeddingTable 6 2 C94_f (fun i => (0 : Int) ≤ i ∧ i < 5) res :=
  C94_inference_partial C94_it (by decide) (by decide) rfl (by decide) (.inl (by decide)) C94_f 6 2 (by decide) (by decide)
    (fun i _ _ => ⟨rfl, by simp [C94_f, ValidValue]⟩)

example : (inference (fun b => b.map C94_f) (-1) [[0, 1], [4, -1]]).bind (fun s => load 5 2 [s]) =
    some [[.fin true 0 1000000, .nan], [.fin true 333333 1000000, .nan], [.fin false 0 1, .fin false 0 1],
      [.fin false 0 1, .fin false 0 1], [.fin true 1333333 1000000, .nan]] := by decide +kernel

example : ∃ files, [[[1, -1]]].mapM (inference (fun b => b.map C94_f) (-1)) = some files ∧ load 5 3 files = none :=
  C94_checked C94_f (-1) [[[1, -1]]] 5 3 (by intro i h; cases h) (x := 1) (by simp) (.inl (by decide))

example : parseFloat (format (.fin false 1 4000000)) = some (.fin false 0 1000000) :=
  C94_small_refuted false 1 4000000 (by decide)

end DeepGNN
