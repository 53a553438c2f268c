import Verif.Proofs.Tables

namespace DeepGNN

/-- The edges of the groups visited by a query. -/
def walkEdges (edges : List GEdge) (types : List Int) : List GEdge :=
  (walk (·.1) (runs GEdge.typ edges) types).flatMap (·.2)

def gnbr (e : GEdge) : Nbr := { dst := e.dst, typ := e.typ, weight := e.weight }

/-- The edges of a run with the weights reported for them. -/
def seenRun (l : List GEdge) : List GEdge :=
  l.zipIdx.map fun x => { x.1 with weight := seenWeight (l.map (·.weight)) x.2 }

/-- The edges returned by a query, with the weights reported for them. -/
def walkSeen (edges : List GEdge) (types : List Int) : List GEdge :=
  (walk (·.1) (runs GEdge.typ edges) types).flatMap fun g => seenRun g.2

/-- An edge without its weight. -/
def noWeight (e : GEdge) : GEdge := { e with weight := 0 }

theorem seenRun_noWeight (l : List GEdge) : (seenRun l).map noWeight = l.map noWeight := by
  simp only [seenRun, List.map_map]
  conv => rhs; rw [← List.zipIdx_map_fst 0 l, List.map_map]
  rfl

theorem walkSeen_noWeight (edges : List GEdge) (types : List Int) :
    (walkSeen edges types).map noWeight = (walkEdges edges types).map noWeight := by
  simp only [walkSeen, walkEdges, List.map_flatMap, seenRun_noWeight]

/-- All partial sums are representable. -/
def ExactSums (ws : List Int) : Prop := (∀ w ∈ ws, f32 w = w) ∧ ∀ i, f32 (ws.take i).sum = (ws.take i).sum

theorem fsum_exact {ws : List Int} (h : ExactSums ws) (i : Nat) : fsum 0 (ws.take i) = (ws.take i).sum := by
  induction i with
  | zero => rfl
  | succ i ih =>
    by_cases hi : i < ws.length
    · have h2 := h.2 (i + 1)
      rw [List.take_succ_eq_append_getElem hi] at h2 ⊢
      simp only [fsum, List.foldl_append, List.foldl_cons, List.foldl_nil] at ih ⊢
      rw [ih]
      simp only [List.sum_append, List.sum_cons, List.sum_nil, Int.add_zero] at h2 ⊢
      exact h2
    · rw [List.take_of_length_le (by omega)] at ih ⊢
      exact ih

theorem seenWeight_exact {ws : List Int} (h : ExactSums ws) (i : Nat) (hi : i < ws.length) :
    seenWeight ws i = ws[i] := by
  have h2 := h.1 ws[i] (List.getElem_mem hi)
  simp only [seenWeight]
  split
  · rename_i h0; subst h0
    rw [fsum_exact h, List.take_succ_eq_append_getElem hi]; simp
  · rw [fsum_exact h, fsum_exact h, List.take_succ_eq_append_getElem hi]
    simp only [List.sum_append, List.sum_cons, List.sum_nil, Int.add_zero]
    rw [show ∀ a b : Int, a + b - a = b by omega, h2]

theorem seenRun_exact {l : List GEdge} (h : ExactSums (l.map (·.weight))) : seenRun l = l := by
  apply List.ext_getElem
  · simp [seenRun]
  · intro i h1 h2
    simp only [seenRun, List.getElem_map, List.getElem_zipIdx, Nat.zero_add]
    rw [seenWeight_exact h i (by simpa using h2)]
    simp

theorem walkSeen_exact {edges : List GEdge} (types : List Int)
    (h : ∀ g ∈ runs GEdge.typ edges, ExactSums (g.2.map (·.weight))) :
    walkSeen edges types = walkEdges edges types := by
  simp only [walkSeen, walkEdges]
  rw [List.flatMap_def, List.flatMap_def]
  congr 1
  apply List.map_congr_left
  intro g hg
  exact seenRun_exact (h g (walk_subset _ _ _ g hg))

/-- No stored type is skipped: see `NoGap`. -/
def EdgesNoGap (edges : List GEdge) (types : List Int) : Prop :=
  ∀ x ∈ edges, ∀ y ∈ edges, y.typ ∈ types → (∃ t ∈ types, x.typ < t ∧ t < y.typ) → x.typ ∈ types

theorem filter_flatMap_runs (edges : List GEdge) (types : List Int) :
    ((runs GEdge.typ edges).filter (fun a => decide (a.1 ∈ types))).flatMap (·.2) =
      edges.filter (fun e => decide (e.typ ∈ types)) := by
  conv => rhs; rw [← runs_flatMap GEdge.typ edges]
  have hk := runs_mem GEdge.typ edges
  generalize runs GEdge.typ edges = R at hk
  induction R with
  | nil => rfl
  | cons g gs ih =>
    have ih := ih (fun g hg => hk g (by simp [hg]))
    obtain ⟨_, hg⟩ := hk g (by simp)
    rw [List.flatMap_cons, List.filter_append, ← ih, List.filter_cons]
    split
    · rename_i h
      rw [List.flatMap_cons]
      congr 1
      rw [List.filter_eq_self.2]
      intro e he; rw [hg e he]; exact h
    · rename_i h
      have : g.2.filter (fun e => decide (e.typ ∈ types)) = [] := by
        rw [List.filter_eq_nil_iff]
        intro e he; rw [hg e he]; exact h
      rw [this, List.nil_append]

theorem flatMap_sublist {α β} (f : α → List β) {l k : List α} (h : l.Sublist k) :
    (l.flatMap f).Sublist (k.flatMap f) := by
  induction h with
  | slnil => simp
  | cons a _ ih => simp only [List.flatMap_cons]; exact ih.trans (List.sublist_append_right _ _)
  | cons_cons a _ ih => simp only [List.flatMap_cons]; exact (List.Sublist.refl _).append ih

theorem walkEdges_sublist (edges : List GEdge) (types : List Int) :
    (walkEdges edges types).Sublist (edges.filter (fun e => decide (e.typ ∈ types))) := by
  rw [← filter_flatMap_runs]
  exact flatMap_sublist _ (walk_sublist_filter _ _ _)

theorem walkEdges_eq (edges : List GEdge) (types : List Int)
    (hs : edges.Pairwise (fun x y => x.typ ≤ y.typ)) (ht : types.Pairwise (· < ·))
    (hg : EdgesNoGap edges types) :
    walkEdges edges types = edges.filter (fun e => decide (e.typ ∈ types)) := by
  rw [← filter_flatMap_runs, walkEdges, walk_eq_filter _ _ _ (runs_sorted _ _ hs) ht]
  intro a x y b hl hy he
  have hmem := runs_mem GEdge.typ edges
  have hx : x ∈ runs GEdge.typ edges := by rw [hl]; simp
  have hym : y ∈ runs GEdge.typ edges := by rw [hl]; simp
  have get : ∀ g ∈ runs GEdge.typ edges, ∃ e ∈ edges, e.typ = g.1 := by
    intro g hg
    obtain ⟨hne, hk⟩ := hmem g hg
    obtain ⟨e, he⟩ := List.exists_mem_of_ne_nil _ hne
    refine ⟨e, ?_, hk e he⟩
    rw [← runs_flatMap GEdge.typ edges]; exact List.mem_flatMap.2 ⟨g, hg, he⟩
  obtain ⟨ex, hex, hex'⟩ := get x hx
  obtain ⟨ey, hey, hey'⟩ := get y hym
  rw [← hex']
  rw [← hex', ← hey'] at he
  exact hg ex hex ey hey (by rw [hey']; exact hy) he

variable {m : Meta} {p : Partition} {k : Nat} {edges : List GEdge}
  {xs : List ((Int × List PEdge) × Nat)}

/-- The groups visited for a node. -/
def visited (xs : List ((Int × List PEdge) × Nat)) (types : List Int) :=
  walk (fun x : (Int × List PEdge) × Nat => x.1.1) xs types

theorem walk_toGroup (xs : List ((Int × List PEdge) × Nat)) (types : List Int) :
    walk Group.typ (xs.map toGroup) types = (visited xs types).map toGroup := by
  rw [walk_map]; rfl

theorem mem_visited {types : List Int} {x : (Int × List PEdge) × Nat} (h : x ∈ visited xs types) :
    x ∈ xs := walk_subset _ _ _ x h

/-- The edges of the visited groups. -/
theorem NodeTables.visited_edges (h : NodeTables m p k edges xs) (types : List Int) :
    ((visited xs types).flatMap (·.1.2)).map (·.1) = walkEdges edges types := by
  obtain ⟨o, ho⟩ := h.xruns
  have h1 : (visited xs types).map (·.1) = walk (·.1) (xs.map (·.1)) types := by
    rw [walk_map]; rfl
  have h2 : runs GEdge.typ edges = (runs ptyp (withOffs nfeats o edges)).map
      (fun g => (g.1, g.2.map (·.1))) := by
    conv => lhs; rw [← map_fst_withOffs nfeats o edges]
    rw [runs_map]; rfl
  rw [walkEdges, h2, walk_map, ← ho]
  have h3 : walk (fun a : Int × List PEdge => a.1) (xs.map (·.1)) types = (visited xs types).map (·.1) :=
    h1.symm
  rw [h3, List.flatMap_map, List.flatMap_map, List.map_flatMap]

/-- The edges of the visited groups as reported. -/
theorem NodeTables.visited_seen (h : NodeTables m p k edges xs) (types : List Int) :
    (visited xs types).flatMap (fun x => seenRun (x.1.2.map (·.1))) = walkSeen edges types := by
  obtain ⟨o, ho⟩ := h.xruns
  have h1 : (visited xs types).map (·.1) = walk (·.1) (xs.map (·.1)) types := by
    rw [walk_map]; rfl
  have h2 : runs GEdge.typ edges = (runs ptyp (withOffs nfeats o edges)).map
      (fun g => (g.1, g.2.map (·.1))) := by
    conv => lhs; rw [← map_fst_withOffs nfeats o edges]
    rw [runs_map]; rfl
  rw [walkSeen, h2, walk_map, ← ho]
  have h3 : walk (fun a : Int × List PEdge => a.1) (xs.map (·.1)) types = (visited xs types).map (·.1) :=
    h1.symm
  rw [h3, List.flatMap_map, List.flatMap_map]

theorem NodeTables.typ_of_mem (h : NodeTables m p k edges xs) {x : (Int × List PEdge) × Nat}
    (hx : x ∈ xs) : x.1.2 ≠ [] ∧ ∀ e ∈ x.1.2, e.1.typ = x.1.1 := by
  obtain ⟨o, ho⟩ := h.xruns
  have : x.1 ∈ runs ptyp (withOffs nfeats o edges) := by rw [← ho]; exact List.mem_map_of_mem hx
  exact runs_mem ptyp _ _ this

theorem NodeTables.groupNbrs (h : NodeTables m p k edges xs) {x : (Int × List PEdge) × Nat}
    (hx : x ∈ xs) : p.groupNbrs (toGroup x) = some ((seenRun (x.1.2.map (·.1))).map gnbr) := by
  simp only [Partition.groupNbrs, toGroup, Nat.add_sub_cancel_left]
  have hl : x.1.2.length = (seenRun (x.1.2.map (·.1))).length := by simp [seenRun]
  rw [hl]
  apply mapM_range'
  intro i hi
  have hi' : i < x.1.2.length := by omega
  rw [h.dst x hx i hi', h.weight x hx i hi']
  simp only [Option.bind_eq_bind, Option.bind_some, pure, gnbr, Option.some.injEq, Nbr.mk.injEq,
    seenRun, List.getElem_map, List.getElem_zipIdx, Nat.zero_add, List.map_map, Function.comp_def,
    true_and, and_true]
  exact ((h.typ_of_mem hx).2 _ (List.getElem_mem hi')).symm

theorem walkSeen_length (edges : List GEdge) (types : List Int) :
    (walkSeen edges types).length = (walkEdges edges types).length := by
  simpa using congrArg List.length (walkSeen_noWeight edges types)

theorem NodeTables.fullNeighbor (h : NodeTables m p k edges xs) (types : List Int) :
    p.fullNeighbor k none types =
      some ((walkSeen edges types).map gnbr, (walkSeen edges types).length) := by
  simp only [Partition.fullNeighbor, h.groups, Option.bind_eq_bind, Option.bind_some, walk_toGroup]
  rw [List.mapM_map, mapM_some_map _ (fun x => (seenRun (x.1.2.map (·.1))).map gnbr)]
  · simp only [Option.bind_some, pure, Option.some.injEq, Prod.mk.injEq, ← h.visited_seen types]
    constructor
    · simp [List.flatMap, List.map_flatten, Function.comp_def]
    · simp [List.flatMap, toGroup, Function.comp_def, List.length_flatten, seenRun]
  · intro x hx
    exact h.groupNbrs (mem_visited hx)

theorem NodeTables.neighborCount (h : NodeTables m p k edges xs) (types : List Int) :
    p.neighborCount k types = some (walkEdges edges types).length := by
  simp only [Partition.neighborCount, h.groups, Option.bind_eq_bind, Option.bind_some, walk_toGroup]
  simp only [pure, Option.some.injEq, ← h.visited_edges types]
  simp [List.flatMap, toGroup, Function.comp_def, List.length_flatten]

/-- The liveness test of the temporal queries (partition.cc:787-788). -/
def liveB (ts : Int) (e : GEdge) : Bool := decide (e.created ≤ ts ∧ (e.removed > ts ∨ e.removed = -1))

theorem NodeTables.groupNbrsAt (h : NodeTables m p k edges xs) (hwm : 0 ≤ m.watermark)
    {x : (Int × List PEdge) × Nat} (hx : x ∈ xs) (ts : Int) :
    p.groupNbrsAt ts (toGroup x) =
      some (((seenRun (x.1.2.map (·.1))).filter (liveB ts)).map gnbr) := by
  simp only [Partition.groupNbrsAt, toGroup, Nat.add_sub_cancel_left]
  have hl : x.1.2.length = (seenRun (x.1.2.map (·.1))).length := by simp [seenRun]
  rw [hl]
  rw [mapM_range' _ (fun e : GEdge => if liveB ts e then [gnbr e] else []) (seenRun (x.1.2.map (·.1)))]
  · simp only [Option.bind_eq_bind, Option.bind_some, pure, Option.some.injEq]
    generalize seenRun (x.1.2.map (·.1)) = l
    induction l with
    | nil => rfl
    | cons e es ih =>
      simp only [List.map_cons, List.flatten_cons, List.filter_cons, ih]
      split <;> simp
  · intro i hi
    have hi' : i < x.1.2.length := by omega
    rw [h.ts hwm x hx i hi']
    simp only [Option.bind_eq_bind, Option.bind_some, liveB, decide_eq_true_eq, seenRun,
      List.getElem_map, List.getElem_zipIdx, Nat.zero_add, List.map_map, Function.comp_def]
    split
    · rw [h.dst x hx i hi', h.weight x hx i hi']
      simp only [Option.bind_some, pure, gnbr, Option.some.injEq, List.cons.injEq, Nbr.mk.injEq,
        true_and, and_true]
      exact ((h.typ_of_mem hx).2 _ (List.getElem_mem hi')).symm
    · rfl

theorem NodeTables.fullNeighborAt (h : NodeTables m p k edges xs) (hwm : 0 ≤ m.watermark)
    (types : List Int) (ts : Int) :
    p.fullNeighbor k (some ts) types =
      some (((walkSeen edges types).filter (liveB ts)).map gnbr,
        ((walkSeen edges types).filter (liveB ts)).length) := by
  simp only [Partition.fullNeighbor, h.groups, Option.bind_eq_bind, Option.bind_some, walk_toGroup]
  rw [List.mapM_map, mapM_some_map _ (fun x => ((seenRun (x.1.2.map (·.1))).filter (liveB ts)).map gnbr)]
  · simp only [Option.bind_some, pure, Option.some.injEq, Prod.mk.injEq, ← h.visited_seen types]
    constructor
    · simp [List.flatMap, List.map_flatten, Function.comp_def, List.filter_flatten]
    · simp [List.flatMap, Function.comp_def, List.length_flatten, List.filter_flatten, List.map_flatten]
  · intro x hx
    exact h.groupNbrsAt hwm (mem_visited hx) ts

end DeepGNN
