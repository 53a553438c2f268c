import Verif.Model.RemoteLastN
import Verif.Proofs.LastN
import Verif.Proofs.Remote
import Verif.Spec.Recent

/-
The last created neighbours from several servers.
-/

namespace DeepGNN

open Spec

theorem LastN.push_queue {count : Nat} {s t : LastN} {e : Slot} (h : s.push count e = some t) :
    s.queue.length ≤ t.queue.length := by
  unfold LastN.push at h
  split at h
  · next hq =>
    split at h
    · cases h
    · next top rest heq =>
      split at h
      · rw [Option.some.injEq] at h; rw [h]; exact Nat.le_refl _
      · rw [Option.some.injEq] at h; subst h
        rw [heq, (emplace_perm _ _).length_eq]
        simp
  · rw [Option.some.injEq] at h; subst h
    simp only []
    rw [(emplace_perm _ _).length_eq]
    simp

theorem foldlM_queue {α : Type} (f : LastN → α → Option LastN)
    (hf : ∀ s a t, f s a = some t → s.queue.length ≤ t.queue.length) (l : List α) : ∀ (s t : LastN),
    l.foldlM f s = some t → s.queue.length ≤ t.queue.length := by
  induction l with
  | nil => intro s t h; cases h; exact Nat.le_refl _
  | cons a l ih =>
    intro s t h
    rw [List.foldlM_cons] at h
    obtain ⟨u, h1, h2⟩ := Option.bind_eq_some_iff.1 h
    exact Nat.le_trans (hf s a u h1) (ih u t h2)

theorem Partition.lastN_queue (p : Partition) (id : Nat) (ts : Int) (types : List Int) (count : Nat) (s t : LastN)
    (h : p.lastN id ts types count s = some t) : s.queue.length ≤ t.queue.length := by
  unfold Partition.lastN at h
  obtain ⟨gs, -, h⟩ := Option.bind_eq_some_iff.1 h
  obtain ⟨l, -, h⟩ := Option.bind_eq_some_iff.1 h
  refine foldlM_queue (LastN.step count ts) ?_ _ _ _ h
  intro s e t h
  unfold LastN.step at h
  split at h
  · cases h; exact Nat.le_refl _
  · exact LastN.push_queue h

/-- `found_neighbors` is the number of neighbours found. -/
theorem lastNFound_eq (g : Graph) (types : List Int) (count : Nat) (node ts : Int) {es : List (Partition × Nat)} {s : LastN}
    (he : g.entries node = some es)
    (hs : es.foldlM (fun s (x : Partition × Nat) => x.1.lastN x.2 ts types count s) ({} : LastN) = some s) :
    g.lastNFound types count node ts = some (s, s.queue.length) := by
  rw [Graph.lastNFound, he, Option.bind_some]
  have key : ∀ (es : List (Partition × Nat)) (s t : LastN) (k : Nat), k = s.queue.length →
      es.foldlM (fun s (x : Partition × Nat) => x.1.lastN x.2 ts types count s) s = some t →
      es.foldlM (fun (s : LastN × Nat) (x : Partition × Nat) =>
        (x.1.lastN x.2 ts types count s.1).map fun t => (t, max s.2 t.queue.length)) (s, k) = some (t, t.queue.length) := by
    intro es
    induction es with
    | nil => intro s t k hk h; cases h; rw [hk]; rfl
    | cons x es ih =>
      intro s t k hk h
      rw [List.foldlM_cons] at h ⊢
      obtain ⟨u, h1, h2⟩ := Option.bind_eq_some_iff.1 h
      have hle := Partition.lastN_queue _ _ _ _ _ _ _ h1
      simp only [h1, Option.map_some, Option.bind_eq_bind, Option.bind_some]
      exact ih u t _ (by omega) h2
  exact key es {} s 0 rfl hs

/-- Pushing a list of neighbours. -/
theorem pushes_inv {count : Nat} (hc : 0 < count) (l : List Slot) {s : LastN} {dropped seen : List Slot}
    (h : LastNInv count s dropped seen) :
    ∃ s' dropped', l.foldlM (LastN.push count) s = some s' ∧ LastNInv count s' dropped' (seen ++ l) := by
  induction l generalizing s dropped seen with
  | nil => exact ⟨s, dropped, rfl, by simpa using h⟩
  | cons e l ih =>
    obtain ⟨s1, d1, h1, h2⟩ := LastN.push_inv hc h e
    obtain ⟨s2, d2, h3, h4⟩ := ih h2
    refine ⟨s2, d2, ?_, by simpa using h4⟩
    rw [List.foldlM_cons, h1]
    exact h3

theorem LastNInv.queue_length {count : Nat} {s : LastN} {dropped seen : List Slot} (h : LastNInv count s dropped seen) :
    s.queue.length = s.out.length := by
  rw [h.queue.length_eq]; simp [slotKeys]

theorem LastNInv.out_length {count : Nat} {s : LastN} {dropped seen : List Slot} (h : LastNInv count s dropped seen) :
    s.out.length = min count seen.length := by
  have hp := h.perm.length_eq
  rw [List.length_append] at hp
  have := h.le
  rcases List.eq_nil_or_concat dropped with h0 | ⟨_, _, h0⟩
  · rw [h0] at hp; simp only [List.length_nil] at hp; omega
  · have := h.full (by rw [h0]; simp)
    omega

/-- Rows of a reply. -/
theorem rows_get {α : Type} (count : Nat) (rows : List (List α)) (hr : ∀ r ∈ rows, r.length = count) (node c : Nat)
    (row : List α) (hrow : rows[node]? = some row) (hc : c ≤ count) :
    ((List.range' (node * count) c).mapM fun k => rows.flatten[k]?) = some (row.take c) := by
  have hget : ∀ k, k < count → rows.flatten[node * count + k]? = row[k]? := by
    intro k hk
    clear hc
    induction rows generalizing node with
    | nil => simp at hrow
    | cons a rows ih =>
      have ha := hr a (by simp)
      cases node with
      | zero =>
        rw [List.getElem?_cons_zero, Option.some.injEq] at hrow
        subst hrow
        rw [List.flatten_cons, List.getElem?_append_left (by omega), Nat.zero_mul, Nat.zero_add]
      | succ node =>
        rw [List.getElem?_cons_succ] at hrow
        rw [List.flatten_cons, Nat.succ_mul, List.getElem?_append_right (by omega), ← ih (fun r h => hr r (by simp [h])) node hrow]
        congr 1
        omega
  have hlen : row.length = count := hr row (List.mem_of_getElem? hrow)
  have key : ∀ (c off : Nat), off + c ≤ count →
      ((List.range' (node * count + off) c).mapM fun k => rows.flatten[k]?) = some ((row.drop off).take c) := by
    intro c
    induction c with
    | zero => intro off _; rfl
    | succ c ih =>
      intro off ho
      rw [List.range'_succ, List.mapM_cons, hget off (by omega), Nat.add_assoc, ih (off + 1) (by omega),
        List.getElem?_eq_getElem (by omega : off < row.length)]
      rw [List.drop_eq_getElem_cons (by omega : off < row.length), List.take_succ_cons]
      rfl
  simpa using key c 0 (by omega)

/-- A server's answer for one node: the neighbours it keeps among those it has seen. -/
structure Answer where
  kept : List Slot
  rest : List Slot
  seen : List Slot

/-- The answer consists of the `count` most recent of the neighbours. -/
structure Answer.Ok (count : Nat) (a : Answer) : Prop where
  perm : (a.kept ++ a.rest).Perm a.seen
  length : a.kept.length = min count a.seen.length
  recent : ∀ r ∈ a.rest, ∀ k ∈ a.kept, r.created ≤ k.created

/-- The most recent of the neighbours the servers keep are the most recent altogether. -/
theorem merge_recent {count : Nat} (hc : 0 < count) (default : Slot) (answers : List Answer) (h : ∀ a ∈ answers, a.Ok count) :
    ∃ s, (answers.flatMap (·.kept)).foldlM (LastN.push count) ({} : LastN) = some s ∧
      MostRecent count default (answers.flatMap (·.seen)) (s.out ++ List.replicate (count - s.out.length) default) := by
  obtain ⟨s, d, h1, h2⟩ := pushes_inv hc (answers.flatMap (·.kept)) (LastNInv.init count)
  rw [List.nil_append] at h2
  have hlen := h2.out_length
  have hall : ((answers.flatMap (·.kept)) ++ answers.flatMap (·.rest)).Perm (answers.flatMap (·.seen)) := by
    clear h1 h2 hlen
    induction answers with
    | nil => exact List.Perm.refl _
    | cons a as ih =>
      simp only [List.flatMap_cons]
      have ih := ih fun a ha => h a (by simp [ha])
      have h1 := ((h a (by simp)).perm).append ih
      refine List.Perm.trans ?_ h1
      simp only [List.append_assoc]
      refine List.Perm.append_left a.kept ?_
      simp only [← List.append_assoc]
      exact List.Perm.append_right _ List.perm_append_comm
  refine ⟨s, h1, s.out, d ++ answers.flatMap (·.rest), ?_, ?_, ?_, rfl⟩
  · rw [← List.append_assoc]
    exact (h2.perm.append_right _).trans hall
  · -- nothing is left out while there is room
    have hl := hall.length_eq
    rw [List.length_append] at hl
    by_cases hr : answers.flatMap (·.rest) = []
    · rw [hr] at hl; simp only [List.length_nil] at hl; omega
    · obtain ⟨r, hr⟩ := List.exists_mem_of_ne_nil _ hr
      obtain ⟨a, ha, hra⟩ := List.mem_flatMap.1 hr
      have h3 := (h a ha).length
      have h4 := (h a ha).perm.length_eq
      rw [List.length_append] at h4
      have h5 := List.length_pos_of_mem hra
      have h6 : a.kept.length ≤ (answers.flatMap (·.kept)).length := by
        obtain ⟨u, w, huw⟩ := List.append_of_mem ha
        rw [huw]
        simp only [List.flatMap_append, List.flatMap_cons, List.length_append]
        omega
      omega
  · intro r hr k hk
    rcases List.mem_append.1 hr with hr | hr
    · exact h2.recent r hr k hk
    · obtain ⟨a, ha, hra⟩ := List.mem_flatMap.1 hr
      refine Classical.byContradiction fun hlt => ?_
      have h3 := (h a ha).length
      have h4 := (h a ha).perm.length_eq
      rw [List.length_append] at h4
      have h5 := List.length_pos_of_mem hra
      let p : Slot → Bool := fun x => decide (k.created < x.created)
      have c1 : a.kept.countP p = a.kept.length := by
        rw [List.countP_eq_length]
        intro x hx
        have := (h a ha).recent r hra x hx
        simp only [p, decide_eq_true_eq]; omega
      have c2 : a.kept.countP p ≤ (answers.flatMap (·.kept)).countP p := by
        obtain ⟨u, w, huw⟩ := List.append_of_mem ha
        rw [huw]
        simp only [List.flatMap_append, List.flatMap_cons, List.countP_append]
        omega
      have c3 : (s.out ++ d).countP p = (answers.flatMap (·.kept)).countP p := h2.perm.countP_eq p
      have c4 : d.countP p = 0 := by
        rw [List.countP_eq_zero]
        intro x hx
        have := h2.recent x hx k hk
        simp only [p, decide_eq_true_eq]; omega
      have c5 : s.out.countP p < s.out.length := by
        have hle := List.countP_le_length (p := p) (l := s.out)
        rcases Nat.lt_or_ge (s.out.countP p) s.out.length with h | h
        · exact h
        · have := List.countP_eq_length.1 (Nat.le_antisymm hle h) k hk
          simp [p] at this
      rw [List.countP_append] at c3
      have := h2.le
      omega

end DeepGNN
