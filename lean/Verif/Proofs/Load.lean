import Verif.Proofs.Csr
import Verif.Proofs.Walk

namespace DeepGNN

/-- Maximal runs of equal keys. -/
def runs {α} (key : α → Int) : List α → List (Int × List α)
  | [] => []
  | e :: es =>
    match runs key es with
    | [] => [(key e, [e])]
    | (t, r) :: rs => if key e = t then (t, e :: r) :: rs else (key e, [e]) :: (t, r) :: rs

theorem runs_flatMap {α} (key : α → Int) (l : List α) : (runs key l).flatMap (·.2) = l := by
  induction l with
  | nil => rfl
  | cons e es ih =>
    simp only [runs]
    split
    · rename_i h; rw [h] at ih; simp at ih; simp [← ih]
    · rename_i t r rs h; rw [h] at ih
      split <;> simp_all

theorem runs_mem {α} (key : α → Int) (l : List α) :
    ∀ g ∈ runs key l, g.2 ≠ [] ∧ ∀ x ∈ g.2, key x = g.1 := by
  induction l with
  | nil => simp [runs]
  | cons e es ih =>
    simp only [runs]
    split
    · simp
    · rename_i t r rs h; rw [h] at ih
      split
      · rename_i hk
        intro g hg
        rcases List.mem_cons.1 hg with rfl | hg
        · have := ih (t, r) (by simp)
          simp only [ne_eq, reduceCtorEq, not_false_eq_true, List.mem_cons, forall_eq_or_imp, hk, true_and]
          exact this.2
        · exact ih g (by simp [hg])
      · intro g hg
        rcases List.mem_cons.1 hg with rfl | hg
        · simp
        · exact ih g hg

theorem runs_sorted {α} (key : α → Int) (l : List α)
    (hl : l.Pairwise (fun a b => key a ≤ key b)) :
    (runs key l).Pairwise (fun a b => a.1 < b.1) := by
  induction l with
  | nil => simp [runs]
  | cons e es ih =>
    obtain ⟨h1, h2⟩ := List.pairwise_cons.1 hl
    have ih := ih h2
    have hmem := runs_mem key es
    have hflat := runs_flatMap key es
    have hle : ∀ g ∈ runs key es, key e ≤ g.1 := by
      intro g hg
      obtain ⟨hne, hk⟩ := hmem g hg
      obtain ⟨x, hx⟩ := List.exists_mem_of_ne_nil _ hne
      rw [← hk x hx]
      apply h1
      rw [← hflat]; exact List.mem_flatMap.2 ⟨g, hg, hx⟩
    simp only [runs]
    split
    · simp
    · rename_i t r rs h
      rw [h] at ih hle
      split
      · rw [List.pairwise_cons] at ih ⊢; exact ih
      · rename_i hne
        rw [List.pairwise_cons]
        refine ⟨?_, ih⟩
        intro g hg
        have ht := hle (t, r) (by simp)
        simp only at ht ⊢
        rcases List.mem_cons.1 hg with rfl | hg
        · simp only; omega
        · have := (List.pairwise_cons.1 ih).1 g hg
          simp only at this; omega

theorem runs_map {α β} (key : β → Int) (f : α → β) (l : List α) :
    runs key (l.map f) = (runs (fun a => key (f a)) l).map (fun g => (g.1, g.2.map f)) := by
  induction l with
  | nil => rfl
  | cons e es ih =>
    simp only [List.map_cons, runs, ih]
    cases h : runs (fun a => key (f a)) es with
    | nil => simp
    | cons g gs =>
      obtain ⟨t, r⟩ := g
      simp only [List.map_cons]
      split <;> simp

/-- Effect of reading the edges of one run whose type is the current one. -/
theorem scan_run (m : Meta) (t : Int) (es : List EdgeRecord) (h : ∀ e ∈ es, e.typ = t)
    (acc : Int) (p : Partition) :
    es.foldl (scanEdge m) { currType := t, accWeight := acc, p := p } =
      { currType := t, accWeight := fsum acc (es.map (·.weight)),
        p := { p with
          edgeDst := p.edgeDst ++ es.map (·.dst)
          edgeWeights := p.edgeWeights ++ cumsFrom acc (es.map (·.weight))
          edgeFeatureOffset := if m.edgeFeatureCount > 0 then p.edgeFeatureOffset ++ es.map (·.featOff)
                               else p.edgeFeatureOffset } } := by
  induction es generalizing acc p with
  | nil => simp [cumsFrom, fsum]
  | cons e es ih =>
    have he : e.typ = t := h e (by simp)
    rw [List.foldl_cons]
    have : scanEdge m { currType := t, accWeight := acc, p := p } e =
        { currType := t, accWeight := f32 (acc + e.weight),
          p := { p with
            edgeDst := p.edgeDst ++ [e.dst]
            edgeWeights := p.edgeWeights ++ [f32 (acc + e.weight)]
            edgeFeatureOffset := if m.edgeFeatureCount > 0 then p.edgeFeatureOffset ++ [e.featOff]
                                 else p.edgeFeatureOffset } } := by
      simp [scanEdge, he]
    rw [this, ih (fun e he => h e (by simp [he]))]
    simp only [List.map_cons, fsum, List.foldl_cons, cumsFrom, List.append_assoc, List.cons_append,
      List.nil_append]
    by_cases hm : m.edgeFeatureCount > 0 <;> simp [hm]

/-- What reading a node's edges appends, given its runs. -/
def appendRuns (m : Meta) (p : Partition) (rs : List (Int × List EdgeRecord)) : Partition :=
  { p with
    edgeTypes := p.edgeTypes ++ rs.map (·.1)
    edgeTypeOffset := p.edgeTypeOffset ++ starts p.edgeDst.length (rs.map (·.2.length))
    edgeDst := p.edgeDst ++ (rs.flatMap (·.2)).map (·.dst)
    edgeWeights := p.edgeWeights ++ rs.flatMap (fun g => cumsFrom 0 (g.2.map (·.weight)))
    edgeFeatureOffset := if m.edgeFeatureCount > 0
      then p.edgeFeatureOffset ++ (rs.flatMap (·.2)).map (·.featOff) else p.edgeFeatureOffset }

theorem scan_runs (m : Meta) (rs : List (Int × List EdgeRecord))
    (hr : ∀ g ∈ rs, g.2 ≠ [] ∧ ∀ x ∈ g.2, x.typ = g.1) (curr : Int)
    (hs : (curr :: rs.map (·.1)).Pairwise (· < ·)) (acc : Int) (p : Partition) :
    ((rs.flatMap (·.2)).foldl (scanEdge m) { currType := curr, accWeight := acc, p := p }).p =
      appendRuns m p rs := by
  induction rs generalizing curr acc p with
  | nil => simp [appendRuns, starts]
  | cons g gs ih =>
    obtain ⟨t, r⟩ := g
    obtain ⟨hne, hk⟩ := hr (t, r) (by simp)
    cases r with
    | nil => exact absurd rfl hne
    | cons e es =>
      have het : e.typ = t := hk e (by simp)
      have hct : curr < t := (List.pairwise_cons.1 hs).1 t (by simp)
      have hs' := (List.pairwise_cons.1 hs).2
      rw [List.flatMap_cons, List.foldl_append]
      simp only [List.foldl_cons]
      have : scanEdge m { currType := curr, accWeight := acc, p := p } e =
        { currType := t, accWeight := f32 (0 + e.weight),
          p := { p with
            edgeTypes := p.edgeTypes ++ [t]
            edgeTypeOffset := p.edgeTypeOffset ++ [p.edgeDst.length]
            edgeDst := p.edgeDst ++ [e.dst]
            edgeWeights := p.edgeWeights ++ [f32 (0 + e.weight)]
            edgeFeatureOffset := if m.edgeFeatureCount > 0 then p.edgeFeatureOffset ++ [e.featOff]
                                 else p.edgeFeatureOffset } } := by
        have hne : ¬ t = curr := by omega
        simp [scanEdge, het, hne]
      rw [this, scan_run m t es (fun x hx => hk x (by simp [hx])),
        ih (fun g hg => hr g (by simp [hg])) t (by simpa using hs')]
      simp only [appendRuns, List.map_cons, List.flatMap_cons, cumsFrom, starts, List.length_append,
        List.length_cons, List.length_map, List.append_assoc, List.cons_append,
        List.nil_append, List.map_append]
      by_cases hm : m.edgeFeatureCount > 0 <;> simp [hm]

/-- `readEdgeIndex` on the offsets and records of a list of nodes. -/
theorem readEdgeIndex_eq (m : Meta) (bs : List (List EdgeRecord)) (sent : EdgeRecord) (a : Nat)
    (p : Partition) :
    readEdgeIndex m (offsFrom a (bs.map List.length)) (bs.flatten ++ [sent]) p =
      readEdgeIndex m [a + (bs.map List.length).sum] [sent]
        (bs.foldl (readNode m) p) := by
  induction bs generalizing a p with
  | nil => simp [offsFrom_nil]
  | cons b bs ih =>
    rw [List.map_cons, offsFrom_cons]
    have hx : offsFrom (a + b.length) (bs.map List.length) =
        (a + b.length) :: (offsFrom (a + b.length) (bs.map List.length)).tail := by
      cases bs with
      | nil => simp [offsFrom_nil]
      | cons c cs => simp [offsFrom_cons]
    rw [hx, readEdgeIndex, ← hx]
    have h1 : a + b.length - a = b.length := by omega
    simp only [h1, List.flatten_cons, List.append_assoc]
    rw [if_neg (by simp), List.take_left, List.drop_left, ih]
    simp [Nat.add_assoc]

/-- The loaded edge tables of a partition, given the runs of every node. -/
structure LoadedEdges (m : Meta) (p : Partition) (Rs : List (List (Int × List EdgeRecord)))
    (sent : EdgeRecord) : Prop where
  neighborsIndex : p.neighborsIndex = offsFrom 0 (Rs.map List.length)
  edgeTypes : p.edgeTypes = Rs.flatten.map (·.1) ++ [sent.typ]
  edgeTypeOffset : p.edgeTypeOffset = offsFrom 0 (Rs.flatten.map (·.2.length))
  edgeDst : p.edgeDst = (Rs.flatten.flatMap (·.2)).map (·.dst) ++ [sent.dst]
  edgeWeights : p.edgeWeights = Rs.flatten.flatMap (fun g => cumsFrom 0 (g.2.map (·.weight)))
  edgeFeatureOffset : p.edgeFeatureOffset = if m.edgeFeatureCount > 0
    then (Rs.flatten.flatMap (·.2)).map (·.featOff) ++ [sent.featOff] else []

theorem foldl_appendRuns (m : Meta) (Rs : List (List (Int × List EdgeRecord))) (p : Partition) :
    Rs.foldl (fun p rs => appendRuns m
      { p with neighborsIndex := p.neighborsIndex ++ [p.edgeTypes.length] } rs) p =
    { p with
      neighborsIndex := p.neighborsIndex ++ starts p.edgeTypes.length (Rs.map List.length)
      edgeTypes := p.edgeTypes ++ Rs.flatten.map (·.1)
      edgeTypeOffset := p.edgeTypeOffset ++ starts p.edgeDst.length (Rs.flatten.map (·.2.length))
      edgeDst := p.edgeDst ++ (Rs.flatten.flatMap (·.2)).map (·.dst)
      edgeWeights := p.edgeWeights ++ Rs.flatten.flatMap (fun g => cumsFrom 0 (g.2.map (·.weight)))
      edgeFeatureOffset := if m.edgeFeatureCount > 0
        then p.edgeFeatureOffset ++ (Rs.flatten.flatMap (·.2)).map (·.featOff)
        else p.edgeFeatureOffset } := by
  induction Rs generalizing p with
  | nil => simp [starts]
  | cons rs Rs ih =>
    rw [List.foldl_cons, ih]
    simp only [appendRuns, List.map_cons, List.flatten_cons, List.map_append, List.flatMap_append,
      starts, List.append_assoc, List.cons_append, List.nil_append, List.length_append,
      List.length_map, starts_append, List.length_flatMap]
    by_cases hm : m.edgeFeatureCount > 0 <;> simp [hm]

theorem readEdgeIndex_loaded (m : Meta) (bs : List (List EdgeRecord)) (sent : EdgeRecord)
    (hs : ∀ b ∈ bs, b.Pairwise (fun x y => x.typ ≤ y.typ)) (h0 : ∀ b ∈ bs, ∀ e ∈ b, 0 ≤ e.typ)
    (p : Partition) (hp : p.neighborsIndex = [] ∧ p.edgeTypes = [] ∧ p.edgeTypeOffset = [] ∧
      p.edgeDst = [] ∧ p.edgeWeights = [] ∧ p.edgeFeatureOffset = []) :
    ∃ q, readEdgeIndex m (offsFrom 0 (bs.map List.length)) (bs.flatten ++ [sent]) p = some q ∧
      LoadedEdges m q (bs.map (runs EdgeRecord.typ)) sent ∧
      q.nodeTypes = p.nodeTypes ∧ q.nodeIndex = p.nodeIndex ∧
      q.nodeFeatureIndex = p.nodeFeatureIndex ∧ q.nodeFeatures = p.nodeFeatures ∧
      q.edgeFeatureIndex = p.edgeFeatureIndex ∧ q.edgeFeatures = p.edgeFeatures ∧
      q.edgeTimestamps = p.edgeTimestamps := by
  rw [readEdgeIndex_eq]
  have hfold : ∀ (bs : List (List EdgeRecord)) (p : Partition),
      (∀ b ∈ bs, b.Pairwise (fun x y => x.typ ≤ y.typ)) → (∀ b ∈ bs, ∀ e ∈ b, 0 ≤ e.typ) →
      bs.foldl (readNode m) p =
      (bs.map (runs EdgeRecord.typ)).foldl (fun p rs => appendRuns m
        { p with neighborsIndex := p.neighborsIndex ++ [p.edgeTypes.length] } rs) p := by
    intro bs
    induction bs with
    | nil => intro p _ _; rfl
    | cons b bs ih =>
      intro p hs h0
      rw [List.foldl_cons, List.map_cons, List.foldl_cons,
        ih _ (fun b hb => hs b (by simp [hb])) (fun b hb => h0 b (by simp [hb]))]
      congr 1
      have hb := scan_runs m (runs EdgeRecord.typ b) (runs_mem _ b) (-1) (by
        rw [List.pairwise_cons]
        refine ⟨?_, ?_⟩
        · intro t ht
          obtain ⟨g, hg, rfl⟩ := List.mem_map.1 ht
          obtain ⟨hne, hk⟩ := runs_mem _ b g hg
          obtain ⟨x, hx⟩ := List.exists_mem_of_ne_nil _ hne
          rw [← hk x hx]
          have hxb : x ∈ b := by
            rw [← runs_flatMap EdgeRecord.typ b]; exact List.mem_flatMap.2 ⟨g, hg, hx⟩
          have := h0 b (by simp) x hxb
          omega
        · rw [List.pairwise_map]
          exact runs_sorted _ b (hs b (by simp))) 0
        { p with neighborsIndex := p.neighborsIndex ++ [p.edgeTypes.length] }
      rw [runs_flatMap] at hb
      exact hb
  rw [hfold bs p hs h0, foldl_appendRuns, readEdgeIndex]
  obtain ⟨h1, h2, h3, h4, h5, h6⟩ := hp
  refine ⟨_, rfl, ?_, rfl, rfl, rfl, rfl, rfl, rfl, rfl⟩
  constructor
  · simp [h1, h2, offsFrom, List.length_flatten, Function.comp_def]
  · simp [h2]
  · simp [h3, h4, offsFrom, List.length_flatMap]
  · simp [h4]
  · simp [h5]
  · by_cases hm : m.edgeFeatureCount > 0 <;> simp [hm, h6]

end DeepGNN
