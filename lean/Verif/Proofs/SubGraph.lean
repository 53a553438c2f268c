import Verif.Model.SubGraph
import Verif.Spec.SubGraph
import Verif.Proofs.Multihop

namespace DeepGNN.SubGraph

open Multihop

variable {C : WeightCodec} {wm : Option Nat} {m : Meta} {parts : List (List (List Rec))} {g : Graph}

theorem neighbors1_dst (h : Built C wm m parts g) (types : List Int) (n : Int) (hgap : Spec.NoGap parts n types) :
    ∃ l, g.fullNeighbor1 none (sortUnique types) n = some (l, (Spec.neighbors parts n types).length) ∧
      l.map (·.dst) = (Spec.neighbors parts n types).map (·.dst) := by
  have h0 : Spec.neighbors parts n (sortUnique types) = Spec.neighbors parts n types := by
    simp only [Spec.neighbors, sortUnique_mem]
  obtain ⟨nbrs, h1, h2, -⟩ := C03_complete_partial h n (sortUnique types) (sortUnique_sorted types) (by
    intro x hx y hy hxn hyn hyt hex
    simp only [sortUnique_mem] at hyt hex ⊢
    exact hgap x hx y hy hxn hyn hyt hex)
  rw [h0] at h1 h2
  simp only [Graph.fullNeighbor, List.mapM_cons, List.mapM_nil] at h1
  cases e : g.fullNeighbor1 none (sortUnique types) n with
  | none => rw [e] at h1; exact absurd h1 (by simp)
  | some r =>
    rw [e] at h1
    simp at h1
    refine ⟨nbrs, ?_, ?_⟩
    · rw [← h1.1, ← h1.2]
    · have := congrArg (List.map (·.1)) h2
      simpa only [List.map_map, Function.comp_def] using this

theorem neighborsAll_dst (h : Built C wm m parts g) (types : List Int) (hgap : ∀ n, Spec.NoGap parts n types) (nodes : List Int) :
    ∃ l, clientNeighbors g nodes types = some (l, nodes.map fun n => (Spec.neighbors parts n types).length) ∧
      l.map (·.dst) = nodes.flatMap fun n => (Spec.neighbors parts n types).map (·.dst) := by
  have h1 : ∃ ls, nodes.mapM (g.fullNeighbor1 none (sortUnique types)) = some ls ∧
      ls.map (·.2) = nodes.map (fun n => (Spec.neighbors parts n types).length) ∧
      (ls.map (·.1)).flatten.map (·.dst) = nodes.flatMap fun n => (Spec.neighbors parts n types).map (·.dst) := by
    induction nodes with
    | nil => exact ⟨[], rfl, rfl, rfl⟩
    | cons n nodes ih =>
      obtain ⟨ls, a1, a2, a3⟩ := ih
      obtain ⟨l, b1, b2⟩ := neighbors1_dst h types n (hgap n)
      refine ⟨(l, (Spec.neighbors parts n types).length) :: ls, ?_, ?_, ?_⟩
      · rw [List.mapM_cons, b1, a1]; rfl
      · rw [List.map_cons, List.map_cons, a2]
      · rw [List.map_cons, List.flatten_cons, List.map_append, a3, b2, List.flatMap_cons]
  obtain ⟨ls, a1, a2, a3⟩ := h1
  refine ⟨(ls.map (·.1)).flatten, ?_, a3⟩
  simp only [clientNeighbors, Graph.fullNeighbor, a1]
  simp [a2]

theorem mem_dst {n : Int} {types : List Int} {d : Int} :
    d ∈ (Spec.neighbors parts n types).map (·.dst) ↔ Spec.Edge parts types n d := by
  rw [Spec.neighbors, List.map_map, List.mem_map, Spec.Edge]
  constructor
  · rintro ⟨r, hr, hd⟩
    obtain ⟨h1, h2⟩ := List.mem_filter.1 hr
    have h3 := of_decide_eq_true h2
    exact ⟨r, h1, h3.1, hd, h3.2⟩
  · rintro ⟨r, h1, h2, h3, h4⟩
    exact ⟨r, List.mem_filter.2 ⟨h1, decide_eq_true ⟨h2, h4⟩⟩, h3⟩

theorem path_snoc {types : List Int} {k : Nat} {a b c : Int} (h : Spec.Path parts types k a b) (e : Spec.Edge parts types b c) :
    Spec.Path parts types (k + 1) a c := by
  induction h with
  | nil a => exact .cons e (.nil c)
  | cons e' _ ih => exact .cons e' (ih e)

theorem layers_spec (h : Built C wm m parts g) (types : List Int) (hgap : ∀ n, Spec.NoGap parts n types) : ∀ (k : Nat) (cur : List Int),
    ∃ ls, layers g types k cur = some ls ∧ ∀ n, n ∈ ls.flatten ↔ Spec.Within parts types cur k n
  | 0, cur => by
    refine ⟨[cur], rfl, fun n => ?_⟩
    simp only [List.flatten_cons, List.flatten_nil, List.append_nil]
    constructor
    · intro hn; exact ⟨n, hn, 0, Nat.le_refl _, .nil n⟩
    · rintro ⟨s, hs, j, hj, hp⟩
      obtain rfl : j = 0 := by omega
      cases hp; exact hs
  | k + 1, cur => by
    obtain ⟨l, h1, h2⟩ := neighborsAll_dst h types hgap cur
    obtain ⟨ls, h3, h4⟩ := layers_spec h types hgap k (sortUnique (l.map (·.dst)))
    refine ⟨cur :: ls, ?_, fun n => ?_⟩
    · rw [layers, h1, Option.bind_some, h3, Option.map_some]
    · rw [List.flatten_cons, List.mem_append, h4]
      have hmem : ∀ d, d ∈ sortUnique (l.map (·.dst)) ↔ ∃ s ∈ cur, Spec.Edge parts types s d := by
        intro d
        rw [sortUnique_mem, h2, List.mem_flatMap]
        simp only [mem_dst]
      constructor
      · rintro (hn | ⟨s, hs, j, hj, hp⟩)
        · exact ⟨n, hn, 0, Nat.zero_le _, .nil n⟩
        · obtain ⟨s', hs', he⟩ := (hmem s).1 hs
          exact ⟨s', hs', j + 1, by omega, .cons he hp⟩
      · rintro ⟨s, hs, j, hj, hp⟩
        cases hp with
        | nil => exact Or.inl hs
        | cons he hp => exact Or.inr ⟨_, (hmem _).2 ⟨s, hs, he⟩, _, by omega, hp⟩

theorem sources_eq (N : Int → List Int) : ∀ us : List Int,
    sources us (us.map fun u => (N u).length) = us.flatMap fun u => (N u).map fun _ => u
  | [] => rfl
  | u :: us => by
    rw [List.map_cons, sources, sources_eq N us, List.flatMap_cons, List.map_const']

theorem zip_flatMap (N : Int → List Int) : ∀ us : List Int,
    (us.flatMap fun u => (N u).map fun _ => u).zip (us.flatMap N) = us.flatMap fun u => (N u).map fun d => (u, d)
  | [] => rfl
  | u :: us => by
    rw [List.flatMap_cons, List.flatMap_cons, List.flatMap_cons, List.zip_append (by rw [List.length_map]), zip_flatMap N us]
    congr 1
    conv => lhs; arg 2; rw [← List.map_id (N u)]
    rw [List.zip_map']
    rfl

/-- What `core` computes. -/
theorem core_spec (h : Built C wm m parts g) (types : List Int) (hgap : ∀ n, Spec.NoGap parts n types) (src : List Int) (numHops : Nat) :
    ∃ (unodes : List Int) (nodes : List Int), unodes.Pairwise (· < ·) ∧
      (∀ n, n ∈ unodes ↔ Spec.Within parts types src (numHops - 1) n) ∧ nodes.Pairwise (· < ·) ∧
      (∀ n, n ∈ nodes ↔ Spec.Within parts types src (numHops - 1 + 1) n) ∧
      core g src types numHops = some (nodes,
        (unodes.flatMap fun u => (Spec.neighbors parts u types).map fun e => (u, e.dst)).map
          (fun e => (nodes.idxOf e.1, nodes.idxOf e.2)), src.map nodes.idxOf) := by
  obtain ⟨ls, h1, h2⟩ := layers_spec h types hgap (numHops - 1) src
  obtain ⟨l, h3, h4⟩ := neighborsAll_dst h types hgap (sortUnique ls.flatten)
  have h5 := sources_eq (fun u => (Spec.neighbors parts u types).map (·.dst)) (sortUnique ls.flatten)
  simp only [List.length_map] at h5
  have h6 := zip_flatMap (fun u => (Spec.neighbors parts u types).map (·.dst)) (sortUnique ls.flatten)
  have hu : ∀ n, n ∈ sortUnique ls.flatten ↔ Spec.Within parts types src (numHops - 1) n := by
    intro n; rw [sortUnique_mem, h2]
  refine ⟨sortUnique ls.flatten, sortUnique (src ++ ((sortUnique ls.flatten).flatMap fun u =>
    (Spec.neighbors parts u types).map fun e => (u, e.dst)).flatMap fun e => [e.1, e.2]), sortUnique_sorted _, hu,
    sortUnique_sorted _, ?_, ?_⟩
  · intro n
    rw [sortUnique_mem, List.mem_append, List.mem_flatMap]
    constructor
    · rintro (hn | ⟨e, he, hn⟩)
      · exact ⟨n, hn, 0, Nat.zero_le _, .nil n⟩
      · obtain ⟨u, hu1, he⟩ := List.mem_flatMap.1 he
        obtain ⟨x, hx, rfl⟩ := List.mem_map.1 he
        obtain ⟨s, hs, j, hj, hp⟩ := (hu u).1 hu1
        simp only [List.mem_cons, List.not_mem_nil, or_false] at hn
        rcases hn with rfl | rfl
        · exact ⟨s, hs, j, by omega, hp⟩
        · exact ⟨s, hs, j + 1, by omega, path_snoc hp (mem_dst.1 (List.mem_map_of_mem hx))⟩
    · rintro ⟨s, hs, j, hj, hp⟩
      by_cases hj0 : j = 0
      · subst hj0; cases hp; exact Or.inl hs
      · right
        obtain ⟨j', rfl⟩ := Nat.exists_eq_succ_of_ne_zero hj0
        have : ∀ {k a c}, Spec.Path parts types (k + 1) a c → ∃ b, Spec.Path parts types k a b ∧ Spec.Edge parts types b c := by
          intro k
          induction k with
          | zero =>
            intro a c hp
            cases hp with
            | cons e hp => cases hp; exact ⟨a, .nil a, e⟩
          | succ k ih =>
            intro a c hp
            cases hp with
            | cons e hp =>
              obtain ⟨b, hb1, hb2⟩ := ih hp
              exact ⟨b, .cons e hb1, hb2⟩
        obtain ⟨b, hb1, hb2⟩ := this hp
        obtain ⟨x, hx, hxd⟩ := List.mem_map.1 (mem_dst.2 hb2)
        refine ⟨(b, n), List.mem_flatMap.2 ⟨b, (hu b).2 ⟨s, hs, j', by omega, hb1⟩, List.mem_map.2 ⟨x, hx, by rw [hxd]⟩⟩, by simp⟩
  · rw [core, h1, Option.bind_some]
    simp only [h3, Option.bind_some]
    rw [h5, if_neg, h4]
    · simp only [List.map_map, Function.comp_def] at h6
      simp only [List.map_map, Function.comp_def]
      rw [h6]
    · have := congrArg List.length h4
      rw [List.length_map] at this
      rw [this, List.length_flatMap, List.length_flatMap]
      simp

theorem rowLt_iff {a b : Nat × Nat} : rowLt a b = true ↔ a.1 < b.1 ∨ (a.1 = b.1 ∧ a.2 < b.2) := by
  simp [rowLt]

theorem mem_insertRow {x z : Nat × Nat} : ∀ {l : List (Nat × Nat)}, z ∈ insertRow x l ↔ z = x ∨ z ∈ l
  | [] => by simp [insertRow]
  | y :: ys => by
    rw [insertRow]
    split
    · simp
    · split
      · rename_i h; subst h; simp
      · rw [List.mem_cons, mem_insertRow, List.mem_cons]
        grind

theorem sorted_insertRow {x : Nat × Nat} : ∀ {l : List (Nat × Nat)}, l.Pairwise (fun a b => rowLt a b = true) →
    (insertRow x l).Pairwise (fun a b => rowLt a b = true)
  | [], _ => by simp [insertRow]
  | y :: ys, h => by
    rw [insertRow]
    rw [List.pairwise_cons] at h
    split
    · rename_i hxy
      rw [List.pairwise_cons, List.pairwise_cons]
      refine ⟨?_, h⟩
      intro z hz
      rcases List.mem_cons.1 hz with rfl | hz
      · exact hxy
      · have := h.1 z hz
        rw [rowLt_iff] at *
        omega
    · split
      · rw [List.pairwise_cons]; exact h
      · rename_i hxy hne
        rw [List.pairwise_cons]
        refine ⟨?_, sorted_insertRow h.2⟩
        intro z hz
        rcases mem_insertRow.1 hz with rfl | hz
        · rw [rowLt_iff] at *
          have : ¬ (z.1 = y.1 ∧ z.2 = y.2) := fun e => hne (Prod.ext e.1 e.2)
          omega
        · exact h.1 z hz

theorem mem_uniqueRows {z : Nat × Nat} : ∀ {l : List (Nat × Nat)}, z ∈ uniqueRows l ↔ z ∈ l
  | [] => by simp [uniqueRows]
  | y :: ys => by
    have : uniqueRows (y :: ys) = insertRow y (uniqueRows ys) := rfl
    rw [this, mem_insertRow, mem_uniqueRows, List.mem_cons]

theorem sorted_uniqueRows : ∀ (l : List (Nat × Nat)), (uniqueRows l).Pairwise (fun a b => rowLt a b = true)
  | [] => by simp [uniqueRows]
  | y :: ys => by
    have : uniqueRows (y :: ys) = insertRow y (uniqueRows ys) := rfl
    rw [this]
    exact sorted_insertRow (sorted_uniqueRows ys)

theorem nodup_uniqueRows (l : List (Nat × Nat)) : (uniqueRows l).Nodup := by
  apply (sorted_uniqueRows l).imp
  intro a b h e
  rw [rowLt_iff] at h
  rw [e] at h
  omega

end DeepGNN.SubGraph
