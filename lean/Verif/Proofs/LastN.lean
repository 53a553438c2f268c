import Verif.Proofs.CountAt

namespace DeepGNN

/-- Queue entries of the output positions. -/
def slotKeys (out : List Slot) : List (Int × Nat) := out.zipIdx.map fun x => (x.1.created, x.2)

/-- State after the live edges `seen`: the output holds the most recent ones. -/
structure LastNInv (count : Nat) (s : LastN) (dropped seen : List Slot) : Prop where
  perm : (s.out ++ dropped).Perm seen
  queue : s.queue.Perm (slotKeys s.out)
  sorted : s.queue.Pairwise fun a b => pairLe a b = true
  le : s.out.length ≤ count
  full : dropped ≠ [] → s.out.length = count
  recent : ∀ d ∈ dropped, ∀ k ∈ s.out, d.created ≤ k.created

theorem pairLe_trans {a b c : Int × Nat} (h1 : pairLe a b = true) (h2 : pairLe b c = true) :
    pairLe a c = true := by
  simp only [pairLe, decide_eq_true_eq] at *; omega

theorem emplace_perm (x : Int × Nat) (l : List (Int × Nat)) : (emplace x l).Perm (x :: l) := by
  induction l with
  | nil => exact List.Perm.refl _
  | cons y ys ih =>
    simp only [emplace]
    split
    · exact List.Perm.refl _
    · exact (ih.cons y).trans (List.Perm.swap x y ys)

theorem emplace_sorted (x : Int × Nat) (l : List (Int × Nat))
    (h : l.Pairwise fun a b => pairLe a b = true) : (emplace x l).Pairwise fun a b => pairLe a b = true := by
  induction l with
  | nil => simp [emplace]
  | cons y ys ih =>
    simp only [emplace]
    obtain ⟨h1, h2⟩ := List.pairwise_cons.1 h
    split
    · rename_i hxy
      refine List.pairwise_cons.2 ⟨?_, h⟩
      intro z hz
      rcases List.mem_cons.1 hz with rfl | hz
      · exact hxy
      · exact pairLe_trans hxy (h1 z hz)
    · rename_i hxy
      refine List.pairwise_cons.2 ⟨?_, ih h2⟩
      intro z hz
      rcases List.mem_cons.1 ((emplace_perm x ys).mem_iff.1 hz) with rfl | hz
      · simp only [pairLe, decide_eq_true_eq] at *; omega
      · exact h1 z hz

theorem mem_slotKeys {out : List Slot} {k : Slot} (h : k ∈ out) : ∃ i, (k.created, i) ∈ slotKeys out := by
  obtain ⟨i, hi, rfl⟩ := List.getElem_of_mem h
  exact ⟨i, List.mem_map.2 ⟨(out[i], i), by rw [List.mem_zipIdx_iff_getElem?]; simp [hi], rfl⟩⟩

theorem slotKeys_append (a b : List Slot) :
    slotKeys (a ++ b) = slotKeys a ++ (b.zipIdx a.length).map fun x => (x.1.created, x.2) := by
  simp [slotKeys, List.zipIdx_append]

theorem LastN.push_inv {count : Nat} (hc : 0 < count) {s : LastN} {dropped seen : List Slot}
    (h : LastNInv count s dropped seen) (e : Slot) :
    ∃ s' dropped', s.push count e = some s' ∧ LastNInv count s' dropped' (seen ++ [e]) := by
  have hlen : s.queue.length = s.out.length := by
    rw [h.queue.length_eq]; simp [slotKeys]
  have hsnoc : (e :: seen).Perm (seen ++ [e]) := (List.perm_append_singleton e seen).symm
  simp only [LastN.push]
  by_cases hf : s.queue.length = count
  · simp only [hf, if_true]
    match hq : s.queue with
    | [] => rw [hq] at hf; simp at hf; omega
    | top :: rest =>
      have hq' := h.queue
      have hs' := h.sorted
      rw [hq] at hq' hs'
      have hmin : ∀ k ∈ s.out, top.1 ≤ k.created := by
        intro k hk
        obtain ⟨i, hi⟩ := mem_slotKeys hk
        rcases List.mem_cons.1 (hq'.mem_iff.2 hi) with h1 | h1
        · rw [← h1]; exact Int.le_refl _
        · have := (List.pairwise_cons.1 hs').1 _ h1
          simp only [pairLe, decide_eq_true_eq] at this; omega
      dsimp only
      by_cases ht : top.1 ≥ e.created
      · simp only [ht, if_true]
        refine ⟨s, e :: dropped, rfl, ?_, h.queue, h.sorted, h.le, fun _ => by omega, ?_⟩
        · exact (List.perm_middle.trans (h.perm.cons e)).trans hsnoc
        · intro d hd k hk
          rcases List.mem_cons.1 hd with rfl | hd
          · have := hmin k hk; omega
          · exact h.recent d hd k hk
      · simp only [ht, if_false]
        -- the replaced position
        have htop : top ∈ slotKeys s.out := hq'.mem_iff.1 (by simp)
        obtain ⟨x, hx, hxt⟩ := List.mem_map.1 htop
        rw [List.mem_zipIdx_iff_getElem?] at hx
        obtain ⟨hi, hxi⟩ := List.getElem?_eq_some_iff.1 hx
        have e1 : top.2 = x.2 := by rw [← hxt]
        have e2 : x.1.created = top.1 := by rw [← hxt]
        obtain ⟨A, B, hsplit, hset, hA⟩ : ∃ A B, s.out = A ++ x.1 :: B ∧
            s.out.set top.2 e = A ++ e :: B ∧ A.length = top.2 := by
          refine ⟨s.out.take x.2, s.out.drop (x.2 + 1), ?_, ?_, ?_⟩
          · rw [← hxi]; simp
          · rw [e1, List.set_eq_take_append_cons_drop, if_pos hi]
          · rw [e1, List.length_take]; omega
        refine ⟨_, x.1 :: dropped, rfl, ?_, ?_, ?_, ?_, ?_, ?_⟩
        · rw [hset]
          have h1 := h.perm
          rw [hsplit] at h1
          refine List.Perm.trans ?_ hsnoc
          refine List.Perm.trans ?_ (h1.cons e)
          simp only [List.append_assoc, List.cons_append]
          refine List.perm_middle.trans (List.Perm.cons e ?_)
          refine List.Perm.append_left A ?_
          exact List.perm_middle
        · refine (emplace_perm _ _).trans ?_
          rw [hset, slotKeys_append]
          rw [hsplit, slotKeys_append] at hq'
          simp only [List.zipIdx_cons, List.map_cons, hA] at hq' ⊢
          have e3 : (x.1.created, top.2) = top := by rw [e2]
          rw [e3] at hq'
          have h1 := (hq'.trans List.perm_middle).cons_inv
          exact (h1.cons _).trans List.perm_middle.symm
        · exact emplace_sorted _ _ (List.pairwise_cons.1 hs').2
        · simp only [List.length_set]; exact h.le
        · intro _; simp only [List.length_set]; omega
        · intro d hd k hk
          rw [hset] at hk
          have hk' : k = e ∨ k ∈ s.out := by
            rw [hsplit]
            simp only [List.mem_append, List.mem_cons] at hk ⊢
            rcases hk with hk | hk | hk
            · exact Or.inr (Or.inl hk)
            · exact Or.inl hk
            · exact Or.inr (Or.inr (Or.inr hk))
          have hx1 : x.1 ∈ s.out := by rw [hsplit]; simp
          have hdt : d.created ≤ top.1 := by
            rcases List.mem_cons.1 hd with rfl | hd
            · omega
            · have := h.recent d hd x.1 hx1; omega
          rcases hk' with rfl | hk'
          · omega
          · have := hmin k hk'; omega
  · simp only [hf, if_false]
    have hd : dropped = [] := by
      rcases List.eq_nil_or_concat dropped with h0 | ⟨_, _, h0⟩
      · exact h0
      · exact absurd (h.full (by rw [h0]; simp)) (by omega)
    subst hd
    refine ⟨_, [], rfl, ?_, ?_, emplace_sorted _ _ h.sorted, ?_, by simp, by simp⟩
    · simp only [List.append_nil]
      have := h.perm
      rw [List.append_nil] at this
      exact this.append_right [e]
    · refine (emplace_perm _ _).trans ?_
      simp only [slotKeys_append, List.zipIdx_cons, List.zipIdx_nil, List.map_cons, List.map_nil, hlen]
      exact (h.queue.cons _).trans (List.perm_append_singleton _ _).symm
    · simp only [List.length_append, List.length_cons, List.length_nil]
      have := h.le
      omega

/-- The edges `LastNCreatedNeighbors` looks at. -/
def lastLive (ts : Int) (e : Slot × Int) : Bool := !decide ((e.2 ≠ -1 ∧ e.2 < ts) ∨ e.1.created > ts)

theorem lastLive_iff (ts : Int) (e : Slot × Int) :
    lastLive ts e = true ↔ ¬ ((e.2 ≠ -1 ∧ e.2 < ts) ∨ e.1.created > ts) := by
  unfold lastLive; rw [Bool.not_eq_true', decide_eq_false_iff_not]

theorem LastN.foldl_inv {count : Nat} (hc : 0 < count) (ts : Int) (l : List (Slot × Int)) {s : LastN}
    {dropped seen : List Slot} (h : LastNInv count s dropped seen) :
    ∃ s' dropped', l.foldlM (LastN.step count ts) s = some s' ∧
      LastNInv count s' dropped' (seen ++ (l.filter (lastLive ts)).map (·.1)) := by
  induction l generalizing s dropped seen with
  | nil => exact ⟨s, dropped, rfl, by simpa using h⟩
  | cons e l ih =>
    simp only [List.foldlM_cons, LastN.step, Option.bind_eq_bind, List.filter_cons, lastLive]
    by_cases hl : (e.2 ≠ -1 ∧ e.2 < ts) ∨ e.1.created > ts
    · simp only [hl, if_true, Option.bind_some, decide_true, Bool.not_true, Bool.false_eq_true, if_false]
      exact ih h
    · simp only [hl, if_false, decide_false, Bool.not_false, if_true, List.map_cons]
      obtain ⟨s1, d1, h1, h2⟩ := LastN.push_inv hc h e.1
      obtain ⟨s2, d2, h3, h4⟩ := ih h2
      rw [h1, Option.bind_some]
      refine ⟨s2, d2, h3, ?_⟩
      simpa using h4

theorem LastNInv.init (count : Nat) : LastNInv count {} [] [] :=
  ⟨List.Perm.refl _, List.Perm.refl _, List.Pairwise.nil, Nat.zero_le _, by simp, by simp⟩

/-- Slot of an edge. -/
def gslot (e : GEdge) : Slot := { dst := e.dst, typ := e.typ, weight := e.weight, created := e.created }

variable {m : Meta} {p : Partition} {k : Nat} {edges : List GEdge}
  {xs : List ((Int × List PEdge) × Nat)}

theorem NodeTables.groupSlots (h : NodeTables m p k edges xs) (hwm : 0 ≤ m.watermark)
    {x : (Int × List PEdge) × Nat} (hx : x ∈ xs) :
    p.groupSlots (toGroup x) = some ((seenRun (x.1.2.map (·.1))).map fun e => (gslot e, e.removed)) := by
  simp only [Partition.groupSlots, toGroup, Nat.add_sub_cancel_left]
  have hl : x.1.2.length = (seenRun (x.1.2.map (·.1))).length := by simp [seenRun]
  rw [hl]
  apply mapM_range'
  intro i hi
  have hi' : i < x.1.2.length := by omega
  rw [h.ts hwm x hx i hi', h.dst x hx i hi', h.weight x hx i hi']
  simp only [Option.bind_eq_bind, Option.bind_some, pure, gslot, Option.some.injEq, Slot.mk.injEq,
    Prod.mk.injEq, seenRun, List.getElem_map, List.getElem_zipIdx, Nat.zero_add, List.map_map,
    Function.comp_def, true_and, and_true]
  exact ((h.typ_of_mem hx).2 _ (List.getElem_mem hi')).symm

theorem NodeTables.lastN (h : NodeTables m p k edges xs) (hwm : 0 ≤ m.watermark) (ts : Int)
    (types : List Int) (count : Nat) (s : LastN) :
    p.lastN k ts types count s =
      ((walkSeen edges types).map fun e => (gslot e, e.removed)).foldlM (LastN.step count ts) s := by
  simp only [Partition.lastN, h.groups, Option.bind_eq_bind, Option.bind_some, walk_toGroup]
  rw [List.mapM_map, mapM_some_map _ (fun x => (seenRun (x.1.2.map (·.1))).map fun e => (gslot e, e.removed))]
  · simp only [Option.bind_some, ← h.visited_seen types]
    rw [List.map_flatMap, List.flatMap_def]
  · intro x hx
    exact h.groupSlots hwm (mem_visited hx)

variable {C : WeightCodec} {g : Graph} {items : List Item} {parts : List (List (List Rec))}

/-- The query of a node over all its partitions. -/
theorem GraphOk.lastN_fold (h : GraphOk C m g items parts) (hwm : 0 ≤ m.watermark) (n ts : Int)
    (types : List Int) (count : Nat) (s : LastN) :
    ∃ es, g.entries n = some es ∧
      es.foldlM (fun s (x : Partition × Nat) => x.1.lastN x.2 ts types count s) s =
      ((foundSeen items n types).map fun e => (gslot e, e.removed)).foldlM (LastN.step count ts) s := by
  refine ⟨_, (entries_items h.parts_eq h.inv n).1, ?_⟩
  have hok := h.ok
  clear h
  simp only [foundSeen]
  induction items generalizing s with
  | nil => rfl
  | cons it items ih =>
    rw [List.flatMap_cons, List.flatMap_cons, List.foldlM_append, List.map_append, List.foldlM_append]
    have h1 : ((it.blks.zipIdx.filter (fun x => decide (x.1.id = n))).map
        (fun x => (it.part, x.2))).foldlM (fun s (x : Partition × Nat) => x.1.lastN x.2 ts types count s) s =
        (((it.blks.filter (fun b => b.id = n)).flatMap fun b => walkSeen b.edges types).map
          fun e => (gslot e, e.removed)).foldlM (LastN.step count ts) s := by
      rw [← filter_zipIdx_map_fst _ it.blks 0]
      have hmem : ∀ x ∈ it.blks.zipIdx.filter (fun x => decide (x.1.id = n)), x ∈ it.blks.zipIdx :=
        fun x hx => (List.mem_filter.1 hx).1
      generalize it.blks.zipIdx.filter (fun x => decide (x.1.id = n)) = L at hmem
      clear ih
      induction L generalizing s with
      | nil => rfl
      | cons x L ih =>
        obtain ⟨xs, ht⟩ := (hok it (by simp)).tables (hmem x (by simp))
        rw [List.map_cons, List.map_cons, List.flatMap_cons, List.map_append, List.foldlM_cons,
          List.foldlM_append, ht.lastN hwm]
        congr 1
        funext s'
        exact ih s' (fun y hy => hmem y (by simp [hy]))
    rw [h1]
    congr 1
    funext s'
    exact ih s' (fun it hit => hok it (by simp [hit]))

theorem insertUnique_mem (x y : Int) (l : List Int) : y ∈ insertUnique x l ↔ y = x ∨ y ∈ l := by
  induction l with
  | nil => simp [insertUnique]
  | cons a l ih =>
    simp only [insertUnique]
    split
    · simp
    · split
      · rename_i h; subst h; simp
      · simp only [List.mem_cons, ih]; constructor <;> (intro h; rcases h with h | h | h <;> simp [h])

theorem insertUnique_sorted (x : Int) (l : List Int) (h : l.Pairwise (· < ·)) :
    (insertUnique x l).Pairwise (· < ·) := by
  induction l with
  | nil => simp [insertUnique]
  | cons a l ih =>
    obtain ⟨h1, h2⟩ := List.pairwise_cons.1 h
    simp only [insertUnique]
    split
    · rename_i hxa
      refine List.pairwise_cons.2 ⟨?_, h⟩
      intro y hy
      rcases List.mem_cons.1 hy with rfl | hy
      · exact hxa
      · have := h1 y hy; omega
    · split
      · exact h
      · rename_i h3 h4
        refine List.pairwise_cons.2 ⟨?_, ih h2⟩
        intro y hy
        rcases (insertUnique_mem x y l).1 hy with rfl | hy
        · omega
        · exact h1 y hy

theorem sortUnique_mem (x : Int) (l : List Int) : x ∈ sortUnique l ↔ x ∈ l := by
  induction l with
  | nil => simp [sortUnique]
  | cons a l ih =>
    have : sortUnique (a :: l) = insertUnique a (sortUnique l) := rfl
    rw [this, insertUnique_mem, ih, List.mem_cons]

theorem sortUnique_sorted (l : List Int) : (sortUnique l).Pairwise (· < ·) := by
  induction l with
  | nil => exact List.Pairwise.nil
  | cons a l ih => exact insertUnique_sorted a _ ih

end DeepGNN
