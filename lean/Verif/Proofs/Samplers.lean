import Verif.Spec.Samplers
import Verif.Proofs.Convert

namespace DeepGNN.Samplers

open Files (pyRange pyRange_cons pyRange_nil mem_pyRange nodup_pyRange)

theorem Yields.unique {β σ : Type} {next : σ → Option (β × σ)} {s : σ} {a b : List β} (ha : Yields next s a)
    (hb : Yields next s b) : a = b := by
  induction ha generalizing b with
  | stop h =>
    cases hb with
    | stop _ => rfl
    | more h' _ => rw [h] at h'; cases h'
  | more h _ ih =>
    cases hb with
    | stop h' => rw [h] at h'; cases h'
    | more h' hr =>
      rw [h] at h'
      injection h' with h'
      injection h' with h1 h2
      subst h1 h2
      rw [ih hr]

/-- Computes whether the batches are `out`. -/
def checkYields {β σ : Type} [DecidableEq β] (next : σ → Option (β × σ)) : σ → List β → Bool
  | s, [] => (next s).isNone
  | s, x :: out => match next s with
    | none => false
    | some (y, s') => decide (y = x) && checkYields next s' out

theorem yields_of_check {β σ : Type} [DecidableEq β] {next : σ → Option (β × σ)} : ∀ (out : List β) (s : σ),
    checkYields next s out = true → Yields next s out
  | [], s, h => .stop (by simpa [checkYields] using h)
  | x :: out, s, h => by
    rw [checkYields] at h
    split at h
    · cases h
    · rename_i y s' e
      rw [Bool.and_eq_true, decide_eq_true_eq] at h
      exact .more (by rw [e, h.1]) (yields_of_check out s' h.2)

/-- The residues modulo `n` divide a range. -/
theorem pyRange_split (n m : Nat) (hn : 0 < n) : ((List.range n).flatMap fun w => pyRange w m n).Perm (List.range m) := by
  refine Convert.flatMap_range_perm List.nodup_range (fun w _ => nodup_pyRange w m n hn) ?_ ?_
  · intro v hv w hw f h1 h2
    rw [mem_pyRange hn] at h1 h2
    have e1 := Nat.div_add_mod (f - v) n
    have e2 := Nat.div_add_mod (f - w) n
    have : f % n = v := by
      rw [show f = v + n * ((f - v) / n) by omega, Nat.add_mul_mod_self_left, Nat.mod_eq_of_lt hv]
    have : f % n = w := by
      rw [show f = w + n * ((f - w) / n) by omega, Nat.add_mul_mod_self_left, Nat.mod_eq_of_lt hw]
    omega
  · intro f
    rw [List.mem_range]
    constructor
    · intro h
      refine ⟨f % n, Nat.mod_lt _ hn, (mem_pyRange hn).2 ⟨Nat.mod_le _ _, h, ?_⟩⟩
      have e := Nat.div_add_mod f n
      rw [show f - f % n = n * (f / n) by omega]
      exact Nat.mul_mod_right _ _
    · rintro ⟨w, -, h⟩
      exact ((mem_pyRange hn).1 h).2.1

/-- An iterator whose state is a position `c * u`, yields the batches `f c`, `f (c + n)`, … below `m`. -/
theorem yields_pyRange {β : Type} {next : Nat → Option (β × Nat)} {pos : Nat → Nat} {f : Nat → β} {n m : Nat} (hn : 0 < n)
    (hs : ∀ c, m ≤ c → next (pos c) = none) (hm : ∀ c, c < m → next (pos c) = some (f c, pos (c + n))) :
    ∀ (k c : Nat), m ≤ c + k → Yields next (pos c) ((pyRange c m n).map f)
  | 0, c, h => by rw [pyRange_nil (by omega) hn]; exact .stop (hs c (by omega))
  | k + 1, c, h => by
    by_cases hc : c < m
    · rw [pyRange_cons hc hn]
      exact .more (hm c hc) (yields_pyRange hn hs hm k (c + n) (by omega))
    · rw [pyRange_nil (by omega) hn]
      exact .stop (hs c (by omega))

theorem length_pyRange (s m n : Nat) : (pyRange s m n).length = (m - s + (n - 1)) / n := by
  simp [pyRange]

theorem flatMap_chunks {α : Type} (l : List α) (b : Nat) : ∀ n,
    (List.range n).flatMap (fun k => (l.drop (k * b)).take b) = l.take (n * b)
  | 0 => by simp
  | n + 1 => by
    rw [List.range_succ, List.flatMap_append, flatMap_chunks l b n, Nat.succ_mul, List.take_add]
    simp

theorem flatMap_flatten_map {α : Type} (f : Nat → List α) (n m : Nat) (hn : 0 < n) :
    ((List.range n).flatMap fun w => ((pyRange w m n).map f).flatten).Perm ((List.range m).flatMap f) := by
  have h := (pyRange_split n m hn).flatMap_right f
  have e : ((List.range n).flatMap fun w => pyRange w m n).flatMap f =
      (List.range n).flatMap fun w => ((pyRange w m n).map f).flatten := by
    rw [List.flatMap_assoc]
    simp only [List.flatMap_def]
  rw [← e]; exact h

/-! ### Arrays -/

variable {α : Type}

theorem gather_perm (data : List α) (bf : α) {l : List Nat} (h : l.Perm (List.range data.length)) :
    (gather data bf l).Perm data := by
  refine (h.map _).trans ?_
  have : (List.range data.length).map (fun i => data.getD i bf) = data := by
    refine List.ext_getElem (by simp) fun i h1 h2 => ?_
    simp [List.getD_eq_getElem?_getD, List.getElem?_eq_getElem h2]
  rw [this]

theorem gather_buildIndex (data : List α) (bf : α) (order : Nat → List Nat)
    (h : ∀ e, (order e).Perm (List.range data.length)) : ∀ epochs,
    (gather data bf (buildIndex order epochs)).Perm (List.replicate epochs data).flatten
  | 0 => by simp [gather, buildIndex]
  | n + 1 => by
    have ih := gather_buildIndex data bf order h n
    rw [buildIndex, List.range_succ, List.flatMap_append, ← buildIndex, List.flatMap_cons, List.flatMap_nil, List.append_nil,
      gather, List.map_append, ← gather, List.replicate_succ', List.flatten_append]
    refine ih.append ?_
    rw [List.flatten_cons, List.flatten_nil, List.append_nil]
    exact gather_perm data bf (h n)

theorem length_buildIndex (order : Nat → List Nat) {n : Nat} (h : ∀ e, (order e).Perm (List.range n)) : ∀ epochs,
    (buildIndex order epochs).length = epochs * n
  | 0 => by simp [buildIndex]
  | k + 1 => by
    rw [buildIndex, List.range_succ, List.flatMap_append, ← buildIndex, List.length_append, length_buildIndex order h k]
    simp [(h k).length_eq, Nat.succ_mul]

/-- The rows in the order of the index, followed by a batch of backfill values. -/
def ArrayIter.padded (it : ArrayIter α) : List α :=
  gather it.data it.backfill (buildIndex it.order it.epochs) ++ List.replicate it.batch it.backfill

/-- Number of batches over all data-parallel workers. -/
def ArrayIter.chunks (it : ArrayIter α) : Nat :=
  if it.dropLast then it.epochs * it.data.length / it.batch else ceilDiv (it.epochs * it.data.length) it.batch

theorem lt_ceilDiv {a b c : Nat} (hb : 0 < b) : c < ceilDiv a b ↔ c * b < a := by
  rw [ceilDiv, Nat.lt_div_iff_mul_lt hb]
  omega

theorem lt_div' {a b c : Nat} (hb : 0 < b) : c < a / b ↔ c * b + b ≤ a := by
  rw [← Nat.succ_le_iff, Nat.le_div_iff_mul_le hb, Nat.succ_mul]

theorem ArrayIter.next_eq (it : ArrayIter α) (hb : 0 < it.batch) (h : ∀ e, (it.order e).Perm (List.range it.data.length)) :
    (∀ c, it.chunks ≤ c → it.next (c * it.batch) = none) ∧
    ∀ c, c < it.chunks →
      it.next (c * it.batch) = some ((it.padded.drop (c * it.batch)).take it.batch, (c + it.num) * it.batch) := by
  have hl := length_buildIndex it.order h it.epochs
  have hg : (gather it.data it.backfill (buildIndex it.order it.epochs)).length = it.epochs * it.data.length := by
    rw [gather, List.length_map, hl]
  constructor
  · intro c hc
    rw [chunks] at hc
    simp only [next]
    by_cases h1 : c * it.batch ≥ it.epochs * it.data.length
    · rw [if_pos h1]
    · rw [if_neg h1]
      cases hd : it.dropLast with
      | false =>
        rw [hd] at hc
        have := (lt_ceilDiv (a := it.epochs * it.data.length) (b := it.batch) (c := c) hb).2 (by omega)
        simp at hc; omega
      | true =>
        rw [hd, if_pos rfl] at hc
        have : ¬ (c * it.batch + it.batch ≤ it.epochs * it.data.length) := fun hh => by
          have := (lt_div' (a := it.epochs * it.data.length) (c := c) hb).2 hh; omega
        rw [if_neg this, if_pos rfl]
  · intro c hc
    rw [chunks] at hc
    have h1 : c * it.batch < it.epochs * it.data.length := by
      cases hd : it.dropLast with
      | false => rw [hd] at hc; exact (lt_ceilDiv hb).1 (by simpa using hc)
      | true => rw [hd, if_pos rfl] at hc; have := (lt_div' hb).1 hc; omega
    have e : (c + it.num) * it.batch = c * it.batch + it.num * it.batch := Nat.add_mul _ _ _
    simp only [next]
    rw [if_neg (by omega), e]
    by_cases h2 : c * it.batch + it.batch ≤ it.epochs * it.data.length
    · rw [if_pos h2, padded, List.drop_append_of_le_length (by omega),
        List.take_append_of_le_length (by rw [List.length_drop]; omega), gather, gather, List.map_take, List.map_drop]
    · rw [if_neg h2]
      cases hd : it.dropLast with
      | true => rw [hd, if_pos rfl] at hc; have := (lt_div' hb).1 hc; omega
      | false =>
        rw [if_neg (by simp)]
        have hlen : (gather it.data it.backfill ((buildIndex it.order it.epochs).drop (c * it.batch))).length =
            it.epochs * it.data.length - c * it.batch := by rw [gather, List.length_map, List.length_drop, hl]
        rw [hlen, padded, List.drop_append_of_le_length (by omega), List.take_append,
          List.take_of_length_le (by rw [List.length_drop]; omega), List.take_replicate, List.length_drop, hg]
        rw [show gather it.data it.backfill ((buildIndex it.order it.epochs).drop (c * it.batch)) =
          (gather it.data it.backfill (buildIndex it.order it.epochs)).drop (c * it.batch) by rw [gather, gather, List.map_drop]]
        rw [Nat.min_eq_left (by omega)]

/-- What a data-parallel worker sees. -/
def ArrayIter.out (it : ArrayIter α) (w : Nat) : List (List α) :=
  (pyRange w it.chunks it.num).map fun c => (it.padded.drop (c * it.batch)).take it.batch

theorem ArrayIter.yields (it : ArrayIter α) (hb : 0 < it.batch) (hn : 0 < it.num)
    (h : ∀ e, (it.order e).Perm (List.range it.data.length)) (w : Nat) : Yields it.next (it.start w) (it.out w) := by
  obtain ⟨h1, h2⟩ := it.next_eq hb h
  exact yields_pyRange (pos := fun c => c * it.batch) hn h1 h2 it.chunks w (by omega)

theorem ArrayIter.length_padded (it : ArrayIter α) (h : ∀ e, (it.order e).Perm (List.range it.data.length)) :
    it.padded.length = it.epochs * it.data.length + it.batch := by
  rw [padded, List.length_append, gather, List.length_map, length_buildIndex it.order h, List.length_replicate]

theorem ArrayIter.chunks_le (it : ArrayIter α) (hb : 0 < it.batch) :
    it.chunks * it.batch < it.epochs * it.data.length + it.batch := by
  rw [chunks]
  split
  · have := Nat.div_mul_le_self (it.epochs * it.data.length) it.batch
    omega
  · have := Nat.div_mul_le_self (it.epochs * it.data.length + it.batch - 1) it.batch
    rw [ceilDiv]
    omega

theorem ArrayIter.out_length (it : ArrayIter α) (hb : 0 < it.batch) (hn : 0 < it.num)
    (h : ∀ e, (it.order e).Perm (List.range it.data.length)) (w : Nat) : ∀ b ∈ it.out w, b.length = it.batch := by
  intro b hm
  obtain ⟨c, hc, rfl⟩ := List.mem_map.1 hm
  have h1 := ((mem_pyRange hn).1 hc).2.1
  have h2 := it.chunks_le hb
  have h3 : c * it.batch + it.batch ≤ it.chunks * it.batch := by
    rw [← Nat.succ_mul]; exact Nat.mul_le_mul_right _ h1
  rw [List.length_take, List.length_drop, it.length_padded h]
  omega

theorem ArrayIter.out_perm (it : ArrayIter α) (hn : 0 < it.num) :
    ((List.range it.num).flatMap fun w => (it.out w).flatten).Perm (it.padded.take (it.chunks * it.batch)) := by
  rw [← flatMap_chunks]
  exact flatMap_flatten_map _ _ _ hn

end DeepGNN.Samplers
