import Verif.Proofs.EachReply
import Verif.Proofs.Features

namespace DeepGNN

open Spec

/-- What a callback does to one cell when its reply has the timestamp `ts` for it. -/
def updBest (shard sub : Nat) (ts : Int) (old : Best) : Best := if old.ts ≤ ts then ⟨shard, sub, ts⟩ else old

theorem mergeStamp_eq {F shard : Nat} {stamps : List Int} {x : Nat × Nat} {idx : List Best} {f : Nat} {ts : Int}
    (h : stamps[x.2 * F + f]? = some ts) (hi : x.1 * F + f < idx.length) :
    ∃ idx', mergeStamp F shard stamps x idx f = some idx' ∧ idx'.length = idx.length ∧
      ∀ j, idx'[j]? = if j = x.1 * F + f then (idx[j]?).map (updBest shard x.2 ts) else idx[j]? := by
  simp only [mergeStamp, h, List.getElem?_eq_getElem hi, Option.bind_some, Option.map_some]
  refine ⟨_, rfl, ?_, ?_⟩
  · split <;> simp
  · intro j
    by_cases hj : j = x.1 * F + f
    · subst hj
      rw [if_pos rfl, List.getElem?_eq_getElem hi, Option.map_some, updBest]
      split
      · rw [List.getElem?_set_self hi]
      · rw [List.getElem?_eq_getElem hi]
    · rw [if_neg hj]
      split
      · rw [List.getElem?_set_ne (Ne.symm hj)]
      · rfl

theorem mergeRow_eq {F shard : Nat} {stamps : List Int} {x : Nat × Nat} {idx : List Best} (n : Nat)
    (hn : x.2 * F + n ≤ stamps.length) (hi : x.1 * F + n ≤ idx.length) :
    ∃ idx', (List.range n).foldlM (mergeStamp F shard stamps x) idx = some idx' ∧ idx'.length = idx.length ∧
      ∀ j, idx'[j]? = if x.1 * F ≤ j ∧ j < x.1 * F + n then
        (idx[j]?).map (updBest shard x.2 (stamps.getD (x.2 * F + (j - x.1 * F)) 0)) else idx[j]? := by
  induction n with
  | zero =>
    refine ⟨idx, rfl, rfl, fun j => ?_⟩
    rw [if_neg (by omega)]
  | succ n ih =>
    obtain ⟨i1, h1, h2, h3⟩ := ih (by omega) (by omega)
    have hs : stamps[x.2 * F + n]? = some (stamps.getD (x.2 * F + n) 0) := by
      rw [List.getD_eq_getElem?_getD, List.getElem?_eq_getElem (by omega)]; rfl
    obtain ⟨i2, h4, h5, h6⟩ := mergeStamp_eq (shard := shard) (idx := i1) hs (by omega)
    refine ⟨i2, ?_, by omega, ?_⟩
    · rw [List.range_succ, List.foldlM_append, h1]
      simp [h4]
    · intro j
      rw [h6 j]
      by_cases hj : j = x.1 * F + n
      · rw [if_pos hj, if_pos (by omega), h3 j, if_neg (by omega)]
        have : j - x.1 * F = n := by omega
        rw [this]
      · rw [if_neg hj, h3 j]
        by_cases hc : x.1 * F ≤ j ∧ j < x.1 * F + n
        · rw [if_pos hc, if_pos (by omega)]
        · rw [if_neg hc, if_neg (by omega)]

/-- The number of answered nodes. -/
def answered (as : List Answer) : Nat := as.countP (·.isSome)

/-- What a reply does to the cell of feature `f` of a node: `a` is the answer, `sub` its position in the reply. -/
def cellStep (shard sub : Nat) (a : Answer) (f : Nat) (old : Best) : Best :=
  match a with
  | none => old
  | some row => updBest shard sub ((row.map (·.1)).getD f 0) old

theorem cell_inj {F k k' f : Nat} (hf : f < F) : (k' * F ≤ k * F + f ∧ k * F + f < k' * F + F) ↔ k = k' := by
  constructor
  · rintro ⟨h1, h2⟩
    rcases Nat.lt_trichotomy k k' with h | h | h
    · have : (k + 1) * F ≤ k' * F := Nat.mul_le_mul_right _ h
      rw [Nat.add_mul] at this; omega
    · exact h
    · have : (k' + 1) * F ≤ k * F := Nat.mul_le_mul_right _ h
      rw [Nat.add_mul] at this; omega
  · rintro rfl; omega

theorem merge_cells (F shard : Nat) (as : List Answer) (hF : ∀ row, some row ∈ as → row.length = F) (i s : Nat)
    (pre : List Int) (idx : List Best) (hpre : pre.length = s * F) (hlen : (i + as.length) * F ≤ idx.length) :
    ∃ idx', ((featReply i as).offsets.zipIdx s).foldlM (fun idx x => (List.range F).foldlM
        (mergeStamp F shard (pre ++ (featReply i as).stamps) x) idx) idx = some idx' ∧ idx'.length = idx.length ∧
      ∀ k f, f < F → idx'[k * F + f]? = (idx[k * F + f]?).map fun old =>
        if i ≤ k then cellStep shard (s + answered (as.take (k - i))) (as[k - i]?.join) f old else old := by
  induction as generalizing i s pre idx with
  | nil =>
    refine ⟨idx, rfl, rfl, fun k f hf => ?_⟩
    simp [cellStep]
  | cons a as ih =>
    have hmul : (i + 1 + as.length) * F ≤ idx.length := by
      have : i + 1 + as.length = i + (a :: as).length := by simp; omega
      rw [this]; exact hlen
    cases a with
    | none =>
      obtain ⟨i1, h1, h2, h3⟩ := ih (fun row hr => hF row (by simp [hr])) (i + 1) s pre idx hpre hmul
      refine ⟨i1, h1, h2, fun k f hf => ?_⟩
      rw [h3 k f hf]
      congr 1
      funext old
      by_cases hk : i + 1 ≤ k
      · have h4 : k - i = (k - (i + 1)) + 1 := by omega
        rw [if_pos hk, if_pos (by omega), h4, List.take_succ_cons, List.getElem?_cons_succ]
        simp [answered]
      · rw [if_neg hk]
        by_cases hk : i ≤ k
        · have : k - i = 0 := by omega
          rw [if_pos hk, this]
          simp [cellStep]
        · rw [if_neg hk]
    | some row =>
      have hrow : row.length = F := hF row (by simp)
      have hst : pre ++ (featReply i (some row :: as)).stamps = (pre ++ row.map (·.1)) ++ (featReply (i + 1) as).stamps := by
        simp [featReply]
      have hsF : (s + 1) * F = s * F + F := by rw [Nat.add_mul]; omega
      have hiF : (i + 1) * F = i * F + F := by rw [Nat.add_mul]; omega
      have hile : (i + 1) * F ≤ idx.length := Nat.le_trans (Nat.mul_le_mul_right _ (by omega)) hmul
      obtain ⟨i1, h1, h2, h3⟩ := mergeRow_eq (shard := shard) (F := F) (x := (i, s)) (idx := idx)
        (stamps := (pre ++ row.map (·.1)) ++ (featReply (i + 1) as).stamps) F
        (by simp only [List.length_append, List.length_map]; omega) (by simp only []; omega)
      obtain ⟨i2, h4, h5, h6⟩ := ih (fun row hr => hF row (by simp [hr])) (i + 1) (s + 1) (pre ++ row.map (·.1)) i1
        (by simp only [List.length_append, List.length_map]; omega) (by omega)
      refine ⟨i2, ?_, by omega, ?_⟩
      · rw [hst]
        have : (featReply i (some row :: as)).offsets.zipIdx s =
            (i, s) :: (featReply (i + 1) as).offsets.zipIdx (s + 1) := by simp [featReply]
        rw [this, List.foldlM_cons, h1]
        exact h4
      · intro k f hf
        rw [h6 k f hf, h3 (k * F + f)]
        simp only []
        by_cases hk : k = i
        · subst hk
          rw [if_pos ((cell_inj hf).2 rfl)]
          have h7 : k * F + f - k * F = f := by omega
          have h8 : (pre ++ row.map (·.1) ++ (featReply (k + 1) as).stamps).getD (s * F + f) 0 = (row.map (·.1)).getD f 0 := by
            rw [List.getD_eq_getElem?_getD, List.getD_eq_getElem?_getD, List.append_assoc,
              List.getElem?_append_right (by omega), hpre]
            have : s * F + f - s * F = f := by omega
            rw [this, List.getElem?_append_left (by simp; omega)]
          rw [h7, h8, Option.map_map]
          congr 1
          funext old
          rw [Function.comp_apply, if_neg (by omega), if_pos (Nat.le_refl _), Nat.sub_self]
          simp [cellStep, answered]
        · rw [if_neg (fun h => hk ((cell_inj hf).1 h))]
          congr 1
          funext old
          by_cases hk1 : i + 1 ≤ k
          · have h4 : k - i = (k - (i + 1)) + 1 := by omega
            rw [if_pos hk1, if_pos (by omega), h4, List.take_succ_cons, List.getElem?_cons_succ]
            congr 1
            simp [answered]; omega
          · rw [if_neg hk1, if_neg (by omega)]

theorem mergeStamps_eq (F shard : Nat) (as : List Answer) (hF : ∀ row, some row ∈ as → row.length = F)
    (idx : List Best) (hlen : as.length * F ≤ idx.length) :
    ∃ idx', mergeStamps F shard (featReply 0 as) idx = some idx' ∧ idx'.length = idx.length ∧
      ∀ k f, f < F → idx'[k * F + f]? = (idx[k * F + f]?).map
        (cellStep shard (answered (as.take k)) (as[k]?.join) f) := by
  obtain ⟨i, h1, h2, h3⟩ := merge_cells F shard as hF 0 0 [] idx (by simp) (by simpa using hlen)
  exact ⟨i, by simpa [mergeStamps] using h1, h2, fun k f hf => by rw [h3 k f hf]; simp⟩

/-- All callbacks together. -/
theorem mergeAll_eq (F N : Nat) (order : List (List Answer × Nat))
    (hF : ∀ x ∈ order, x.1.length = N ∧ ∀ row, some row ∈ x.1 → row.length = F) (idx : List Best)
    (hlen : N * F ≤ idx.length) :
    ∃ idx', order.foldlM (fun idx x => mergeStamps F x.2 (featReply 0 x.1) idx) idx = some idx' ∧
      idx'.length = idx.length ∧ ∀ k f, f < F → idx'[k * F + f]? = (idx[k * F + f]?).map fun old =>
        order.foldl (fun old x => cellStep x.2 (answered (x.1.take k)) (x.1[k]?.join) f old) old := by
  induction order generalizing idx with
  | nil => exact ⟨idx, rfl, rfl, fun k f hf => by simp⟩
  | cons x order ih =>
    obtain ⟨hx, hr⟩ := hF x (by simp)
    obtain ⟨i1, h1, h2, h3⟩ := mergeStamps_eq F x.2 x.1 hr idx (by rw [hx]; exact hlen)
    obtain ⟨i2, h4, h5, h6⟩ := ih (fun y hy => hF y (by simp [hy])) i1 (by omega)
    refine ⟨i2, ?_, by omega, ?_⟩
    · rw [List.foldlM_cons, h1]; exact h4
    · intro k f hf
      rw [h6 k f hf, h3 k f hf, Option.map_map]
      rfl

/-- The cell of feature `f` of node `k` after the answers in `done`: it names an answer with the greatest
timestamp, if there is one that is not negative. -/
structure CellOk (done : List (List Answer × Nat)) (k f : Nat) (b : Best) : Prop where
  max : ∀ x ∈ done, ∀ row, x.1[k]?.join = some row → (row.map (·.1)).getD f 0 ≤ b.ts
  low : -1 ≤ b.ts
  src : b.ts < 0 ∨ ∃ x ∈ done, ∃ row, x.1[k]?.join = some row ∧ b = ⟨x.2, answered (x.1.take k), (row.map (·.1)).getD f 0⟩

theorem cellOk_step {done : List (List Answer × Nat)} {k f : Nat} {b : Best} (h : CellOk done k f b) (x : List Answer × Nat) :
    CellOk (done ++ [x]) k f (cellStep x.2 (answered (x.1.take k)) (x.1[k]?.join) f b) := by
  cases hx : x.1[k]?.join with
  | none =>
    refine ⟨?_, h.low, ?_⟩
    · intro y hy row hr
      rw [List.mem_append, List.mem_singleton] at hy
      rcases hy with hy | rfl
      · exact h.max y hy row hr
      · rw [hx] at hr; cases hr
    · rcases h.src with h1 | ⟨y, hy, row, h1, h2⟩
      · exact Or.inl h1
      · exact Or.inr ⟨y, by simp [hy], row, h1, h2⟩
  | some row =>
    simp only [cellStep, updBest]
    by_cases hle : b.ts ≤ (row.map (·.1)).getD f 0
    · rw [if_pos hle]
      refine ⟨?_, by have := h.low; simp only []; omega, Or.inr ⟨x, by simp, row, hx, rfl⟩⟩
      intro y hy row' hr
      rw [List.mem_append, List.mem_singleton] at hy
      rcases hy with hy | rfl
      · have := h.max y hy row' hr; simp only []; omega
      · rw [hx] at hr; cases hr; exact Int.le_refl _
    · rw [if_neg hle]
      refine ⟨?_, h.low, ?_⟩
      · intro y hy row' hr
        rw [List.mem_append, List.mem_singleton] at hy
        rcases hy with hy | rfl
        · exact h.max y hy row' hr
        · rw [hx] at hr; cases hr; omega
      · rcases h.src with h1 | ⟨y, hy, row, h1, h2⟩
        · exact Or.inl h1
        · exact Or.inr ⟨y, by simp [hy], row, h1, h2⟩

theorem cellOk_fold (order done : List (List Answer × Nat)) (k f : Nat) (b : Best) (h : CellOk done k f b) :
    CellOk (done ++ order) k f
      (order.foldl (fun old x => cellStep x.2 (answered (x.1.take k)) (x.1[k]?.join) f old) b) := by
  induction order generalizing done b with
  | nil => simpa using h
  | cons x order ih =>
    have := ih (done ++ [x]) _ (cellOk_step h x)
    rw [List.append_assoc] at this
    exact this

/-- Where the values of the answered node number `k` are in the reply. -/
theorem featReply_values (fv : Nat) (as : List Answer) (hF : ∀ row, some row ∈ as → (row.flatMap (·.2)).length = fv)
    (i k : Nat) (row : List (Int × Bytes)) (hk : as[k]?.join = some row) :
    ∃ pre post, (featReply i as).values = pre ++ row.flatMap (·.2) ++ post ∧ pre.length = answered (as.take k) * fv := by
  induction as generalizing i k with
  | nil => simp at hk
  | cons a as ih =>
    cases k with
    | zero =>
      simp only [List.getElem?_cons_zero, Option.join_some] at hk
      subst hk
      exact ⟨[], (featReply (i + 1) as).values, by simp [featReply], by simp [answered]⟩
    | succ k =>
      rw [List.getElem?_cons_succ] at hk
      obtain ⟨pre, post, h1, h2⟩ := ih (fun row hr => hF row (by simp [hr])) (i + 1) k hk
      cases a with
      | none =>
        refine ⟨pre, post, h1, ?_⟩
        rw [h2]; simp [answered]
      | some r =>
        refine ⟨r.flatMap (·.2) ++ pre, post, by simp [featReply, h1], ?_⟩
        rw [List.length_append, hF r (by simp), h2]
        simp only [answered, List.take_succ_cons, List.countP_cons]
        simp only [Option.isSome_some, if_true, Nat.add_mul]; omega

theorem lenPrefix_eq (a : Nat) (feats : List (Nat × Nat)) (j : Nat) (hj : j < feats.length) :
    (lenPrefix a feats)[j]? = some (a + ((feats.take j).map (·.2)).sum) := by
  induction feats generalizing a j with
  | nil => simp at hj
  | cons f fs ih =>
    cases j with
    | zero => simp [lenPrefix]
    | succ j =>
      simp only [lenPrefix, List.getElem?_cons_succ]
      rw [ih (a + f.2) j (by simpa using hj)]
      simp; omega

theorem length_lenPrefix (a : Nat) (feats : List (Nat × Nat)) : (lenPrefix a feats).length = feats.length := by
  induction feats generalizing a with
  | nil => rfl
  | cons f fs ih => simp [lenPrefix, ih]

end DeepGNN
