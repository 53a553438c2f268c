import Verif.Model.Launch
import Verif.Spec.Launch
import Verif.Proofs.Files

/-
C48: servers load every partition exactly once.
-/

namespace DeepGNN

open Launch Files

namespace Launch

theorem zip_replicate {α β : Type} (a : α) (n : Nat) (l : List β) (h : l.length ≤ n) :
    (List.replicate n a).zip l = l.map fun b => (a, b) := by
  induction l generalizing n with
  | nil => simp
  | cons b l ih =>
    cases n with
    | zero => simp at h
    | succ n =>
      rw [List.replicate_succ, List.zip_cons_cons, List.map_cons, ih n (by simpa using h)]

theorem pyRange_length_le (s m n : Nat) (hn : 0 < n) : (pyRange s m n).length ≤ m := by
  rw [pyRange, List.length_map, List.length_range]
  rcases Nat.eq_zero_or_pos m with rfl | hm
  · rw [Nat.div_eq_of_lt (by omega)]; exact Nat.le_refl _
  · refine Nat.div_le_of_le_mul ?_
    cases n with
    | zero => omega
    | succ n =>
      rw [Nat.add_mul]
      have : n ≤ n * m := Nat.le_mul_of_pos_right n hm
      omega

theorem server_eq (path : String) (ids : List Nat) {n : Nat} (hn : 0 < n) (i : Nat) :
    serverPartitions path ids i n = groupPartitions path i n ids.length := by
  rw [serverPartitions, groupPartitions, if_neg (by omega), if_neg (by omega), zip_replicate _ _ _ (pyRange_length_le _ _ _ hn)]

theorem group_share (path : String) (m : Nat) {n : Nat} (hn : 0 < n) :
    Spec.SharePartitions (fun i => groupPartitions path i n m) n path (List.range m) := by
  have e : ∀ i, groupPartitions path i n m = some ((pyRange i m n).map fun p => (path, p)) := by
    intro i; rw [groupPartitions, if_neg (by omega)]
  refine ⟨fun s _ => ⟨_, e s⟩, fun id hid => ?_, fun s _ l hl x hx => ?_⟩
  · rw [List.mem_range] at hid
    have hmem : id ∈ pyRange (id % n) m n := by
      rw [mem_pyRange hn]
      refine ⟨Nat.mod_le _ _, hid, ?_⟩
      rw [← Nat.mul_div_self_eq_mod_sub_self, Nat.mul_mod_right]
    refine ⟨id % n, Nat.mod_lt _ hn, _, e _, ?_, ?_⟩
    · have hm : (path, id) ∈ (pyRange (id % n) m n).map fun p => (path, p) := List.mem_map.2 ⟨id, hmem, rfl⟩
      refine Nat.le_antisymm (List.nodup_iff_count.1 ?_ _) (List.count_pos_iff.2 hm)
      rw [List.Nodup, List.pairwise_map]
      exact List.Pairwise.imp (fun hab h => hab (by simpa using h)) (nodup_pyRange _ _ _ hn)
    · intro s' hs' l' hl' hm
      simp only [e, Option.some.injEq] at hl'
      subst hl'
      rw [List.mem_map] at hm
      obtain ⟨p, hp, hpe⟩ := hm
      have : p = id := by simpa using hpe
      subst this
      rw [mem_pyRange hn] at hp
      have h1 := Nat.div_add_mod (p - s') n
      rw [hp.2.2] at h1
      have h2 : p = s' + n * ((p - s') / n) := by omega
      rw [h2, Nat.add_mul_mod_self_left, Nat.mod_eq_of_lt hs']
  · simp only [e, Option.some.injEq] at hl
    subst hl
    rw [List.mem_map] at hx
    obtain ⟨p, hp, rfl⟩ := hx
    rw [mem_pyRange hn] at hp
    exact ⟨rfl, List.mem_range.2 (by omega)⟩

end Launch

/-- Servers 0..n-1 of n load every partition exactly once, if the metadata lists the partitions 0, 1, ... -/
theorem C48_servers_partial (path : String) (ids : List Nat) (hids : ids.Perm (List.range ids.length)) {n : Nat} (hn : 0 < n) :
    Spec.SharePartitions (fun i => serverPartitions path ids i n) n path ids := by
  have h := group_share path ids.length hn
  have e : (fun i => serverPartitions path ids i n) = fun i => groupPartitions path i n ids.length :=
    funext fun i => server_eq path ids hn i
  rw [e]
  exact ⟨h.starts, fun id hid => h.once id (hids.mem_iff.1 hid), fun s hs l hl x hx =>
    ⟨(h.only s hs l hl x hx).1, hids.mem_iff.2 (h.only s hs l hl x hx).2⟩⟩

/-- The same for servers started from the command line with the number of partitions. -/
theorem C48_group (path : String) (partitions : Nat) {n : Nat} (hn : 0 < n) :
    Spec.SharePartitions (fun i => groupPartitions path i n partitions) n path (List.range partitions) :=
  group_share path partitions hn

example : serverPartitions "/g" [0, 1, 2, 3, 4] 1 2 = some [("/g", 1), ("/g", 3)] ∧
    serverPartitions "/g" [0, 1, 2, 3, 4] 0 2 = some [("/g", 0), ("/g", 2), ("/g", 4)] ∧
    serverPartitions "/g" [0, 1] 2 3 = some [] := by
  decide +kernel

/-- A graph whose partitions are 0 and 2 (the converter used two of three partitions): no server loads partition 2. -/
theorem C48_gap_refuted : ¬ Spec.SharePartitions (fun i => serverPartitions "/g" [0, 2] i 1) 1 "/g" [0, 2] := by
  intro h
  obtain ⟨s, hs, l, hl, hc, _⟩ := h.once 2 (by decide)
  have : s = 0 := by omega
  subst this
  have hl2 : serverPartitions "/g" [0, 2] 0 1 = some [("/g", 0), ("/g", 1)] := by decide +kernel
  simp only [hl2, Option.some.injEq] at hl
  subst hl
  exact absurd hc (by decide +kernel)

/-- A local client loads the first partitions, as many as it was asked for; these are the right ones exactly when the
request was 0, 1, ..., or empty (then partition 0 is loaded). -/
theorem C48_client_partial (path : String) (partitions : List Nat) (hp : partitions ≠ []) :
    clientPartitions path partitions = partitions.map (fun p => (path, p)) ↔ partitions = List.range partitions.length := by
  have h0 : partitions.length ≠ 0 := by
    intro h; exact hp (List.length_eq_zero_iff.1 h)
  rw [clientPartitions, if_neg h0]
  have inj : ∀ a b : List Nat, a.map (fun p => (path, p)) = b.map (fun p => (path, p)) → a = b := by
    intro a
    induction a with
    | nil => intro b h; cases b with | nil => rfl | cons x b => simp at h
    | cons x a ih =>
      intro b h
      cases b with
      | nil => simp at h
      | cons y b =>
        simp only [List.map_cons, List.cons.injEq, Prod.mk.injEq, true_and] at h
        rw [h.1, ih b h.2]
  constructor
  · intro h; exact (inj _ _ h).symm
  · intro h; rw [← h]

example : clientPartitions "/g" [0, 1, 2] = [("/g", 0), ("/g", 1), ("/g", 2)] ∧ clientPartitions "/g" [] = [("/g", 0)] := by
  decide +kernel

/-- Asked for partitions 1 and 3 the client loads 0 and 1. -/
theorem C48_client_refuted : clientPartitions "/g" [1, 3] = [("/g", 0), ("/g", 1)] := by
  decide +kernel

/-- The native client loads exactly what it was asked for. -/
theorem C48_native (metaPath : String) (ids : List Nat) :
    memoryGraphPartitions metaPath (some (ids.map .inl)) = ids.map (fun id => (metaPath, id)) ∧
    ∀ pairs : List (String × Nat), memoryGraphPartitions metaPath (some (pairs.map .inr)) = pairs := by
  constructor
  · rw [memoryGraphPartitions, List.map_map]; rfl
  · intro pairs
    rw [memoryGraphPartitions, List.map_map]
    exact List.map_id pairs

end DeepGNN
