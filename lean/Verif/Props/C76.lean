import Verif.Proofs.PyClient
import Verif.Props.C03
import Verif.Props.C04
import Verif.Props.C05
import Verif.Props.C06
import Verif.Props.C07
import Verif.Props.C08
import Verif.Props.C09
import Verif.Props.C10
import Verif.Props.C11
import Verif.Props.C13
import Verif.Props.C15
import Verif.Props.C16
import Verif.Props.C19
import Verif.Props.C42
import Verif.Props.C69

/-
C76: calls of the Python client return the documented arrays.
-/

namespace DeepGNN

open PyClient

variable {C : WeightCodec} {wm : Option Nat} {m : Meta} {parts : List (List (List Rec))} {g : Graph}

/-! Full neighbours and counts -/

/-- `neighbors` without timestamps: for a list of ids and of types in any order, all arrays are written and list the
neighbours of each node.  Missing: gaps in the types (C03), other shapes (`C76_matrix_refuted`), types beyond 32 bits
(`C76_wrap_refuted`). -/
theorem C76_neighbors_partial (h : Built C wm m parts g) (ids types : List Int) {ts : Option (Arr Int)} (hts : Spec.NoTimes ts)
    (h32 : Spec.Int32 types) (hgap : ∀ n ∈ ids, Spec.NoGap parts n types) :
    ∃ answers : List (List Nbr), PyClient.neighbors g (Spec.vector ids) types ts = .ok (Spec.neighborsOf answers) ∧
      answers.length = ids.length ∧ (∀ x ∈ ids.zip answers,
        x.2.map Spec.reported = (Spec.neighbors parts x.1 types).map Spec.reported ∧
        (Spec.ExactWeights parts → x.2 = Spec.neighbors parts x.1 types)) ∧
      neighborCounts g (Spec.vector ids) types ts = .ok (Spec.filled (ids.map fun n => (Spec.neighbors parts n types).length)) := by
  obtain ⟨answers, h1, h2, h3⟩ := C04_count_eq h ids (sortUnique types)
  have key : ∀ n ∈ ids, (answers n).map Spec.reported = (Spec.neighbors parts n types).map Spec.reported ∧
      (Spec.ExactWeights parts → answers n = Spec.neighbors parts n types) := by
    intro n hn
    obtain ⟨nbrs, h4, h5, h6⟩ := C03_complete_partial h n (sortUnique types) (sortUnique_sorted types) (noGap_sortUnique (hgap n hn))
    rw [h1 n] at h4
    obtain ⟨rfl, -⟩ := Prod.mk.inj (Option.some.inj h4)
    rw [neighbors_sortUnique] at h5 h6
    exact ⟨h5, h6⟩
  have hlen : ids.map (fun n => (answers n).length) = ids.map fun n => (Spec.neighbors parts n types).length :=
    List.map_congr_left fun n hn => by simpa using congrArg List.length (key n hn).1
  refine ⟨ids.map answers, ?_, by simp, ?_, ?_⟩
  · simp only [PyClient.neighbors, vector_len, vector_data, span_vector, Res.bind, tsSpan_none hts, etypes_eq h32, h2, native]
    rw [put_empty (by simp)]
    simp [Res.map, Res.bind, Spec.neighborsOf, Spec.vector, List.flatMap_def, Function.comp_def]
  · intro x hx
    obtain ⟨h4, h5⟩ := zip_map_self answers hx
    rw [h5]; exact key x.1 h4
  · simp only [neighborCounts, vector_len, vector_data, span_vector, Res.bind, tsSpan_none hts, etypes_eq h32, Graph.getCounts, h3, native]
    rw [put_empty (by simp), hlen]

/-- `neighbors` with a timestamp per node: the edges that exist then.  Missing in addition: edges removed at time 0 (C05). -/
theorem C76_neighbors_at_partial (h : Built C wm m parts g) (hwm : 0 ≤ m.watermark) (reqs : List (Int × Int)) (types : List Int)
    (h32 : Spec.Int32 types) (hgap : ∀ q ∈ reqs, Spec.NoGap parts q.1 types)
    (hc : ∀ r ∈ Spec.allRecords parts, ∀ c, r.created = some c → 0 ≤ c) (hr : ∀ r ∈ Spec.allRecords parts, r.removed ≠ some 0) :
    ∃ answers : List (List Nbr),
      PyClient.neighbors g (Spec.vector (reqs.map (·.1))) types (some (Spec.vector (reqs.map (·.2)))) = .ok (Spec.neighborsOf answers) ∧
      answers.length = reqs.length ∧ ∀ x ∈ reqs.zip answers,
        x.2.map Spec.reported = (Spec.neighborsAt parts x.1.1 x.1.2 types).map Spec.reported ∧
        (Spec.ExactWeights parts → x.2 = Spec.neighborsAt parts x.1.1 x.1.2 types) := by
  obtain ⟨answers, h1, h2⟩ := C05_batch h hwm reqs (sortUnique types)
  refine ⟨reqs.map answers, ?_, by simp, ?_⟩
  · cases reqs with
    | nil => rfl
    | cons q qs =>
      simp only [PyClient.neighbors, vector_len, vector_data, List.length_map, Res.bind, span_map, tsSpan_map (·.2) (List.cons_ne_nil q qs),
        etypes_eq h32, h2, native]
      rw [put_empty (by simp)]
      simp [Res.map, Res.bind, Spec.neighborsOf, Spec.vector, List.flatMap_def, Function.comp_def]
  · intro x hx
    obtain ⟨h4, h5⟩ := zip_map_self answers hx
    obtain ⟨nbrs, h6, h7, h8⟩ := C05_snapshot_partial h hwm x.1.1 x.1.2 (sortUnique types) (sortUnique_sorted types)
      (noGap_sortUnique (hgap _ h4)) hc hr
    rw [h1 x.1] at h6
    obtain ⟨e, -⟩ := Prod.mk.inj (Option.some.inj h6)
    rw [neighborsAt_sortUnique] at h7 h8
    rw [h5, e]; exact ⟨h7, h8⟩

/-- `neighbor_counts` with timestamps agrees with `neighbors`, for lifetimes in order and timestamps of 32 bits (C06). -/
theorem C76_counts_at_partial (h : Built C wm m parts g) (hwm : 0 ≤ m.watermark) (reqs : List (Int × Int)) (types : List Int)
    (h32 : Spec.Int32 types) (hgap : ∀ q ∈ reqs, Spec.NoGap parts q.1 types) (hts : ∀ q ∈ reqs, -(2 ^ 31) ≤ q.2 ∧ q.2 < 2 ^ 31)
    (ho : ∀ q ∈ reqs, Spec.OrderedLifetimes parts q.1)
    (hc : ∀ r ∈ Spec.allRecords parts, ∀ c, r.created = some c → 0 ≤ c) (hr : ∀ r ∈ Spec.allRecords parts, r.removed ≠ some 0) :
    neighborCounts g (Spec.vector (reqs.map (·.1))) types (some (Spec.vector (reqs.map (·.2)))) =
      .ok (Spec.filled (reqs.map fun q => (Spec.neighborsAt parts q.1 q.2 types).length)) := by
  obtain ⟨answers, h1, h2⟩ := C05_batch h hwm reqs (sortUnique types)
  obtain ⟨nbrs, counts, h3, h4⟩ := C06_count_partial h hwm reqs (sortUnique types) hts ho hc hr
  rw [h2] at h3
  obtain ⟨-, rfl⟩ := Prod.mk.inj (Option.some.inj h3)
  have hlen : reqs.map (fun q => (answers q).length) = reqs.map fun q => (Spec.neighborsAt parts q.1 q.2 types).length := by
    apply List.map_congr_left
    intro q hq
    obtain ⟨nbrs, h6, -, -⟩ := C05_snapshot_partial h hwm q.1 q.2 (sortUnique types) (sortUnique_sorted types)
      (noGap_sortUnique (hgap _ hq)) hc hr
    rw [h1 q, neighborsAt_sortUnique] at h6
    simpa using congrArg (fun x => x.2) (Option.some.inj h6)
  cases reqs with
  | nil => rfl
  | cons q qs =>
    simp only [neighborCounts, vector_len, vector_data, List.length_map, Res.bind, span_map, tsSpan_map (·.2) (List.cons_ne_nil q qs),
      etypes_eq h32, Graph.getCounts, h4, native]
    rw [put_empty (by simp), hlen]

/-- `node_types`: the type of the first record of each node, the default for ids that are not in the graph (C13). -/
theorem C76_node_types_partial (h : Built C wm m parts g) (ids : List Int) (default : Int) :
    ∃ out : List Int, nodeTypes g (Spec.vector ids) default = .ok (Spec.filled out) ∧ out.length = ids.length ∧ ∀ x ∈ ids.zip out,
      (∀ t, (Spec.nodeTypes parts).find? (fun y => y.1 = x.1) = some (x.1, t) → x.2 = t) ∧
      ((∀ r ∈ Spec.allRecords parts, r.src ≠ x.1) → x.2 = default) := by
  obtain ⟨items, hg, -⟩ := h.graphOk
  have h1 := mapM_some_map (g.nodeType1 default) (fun n => (g.nodeType1 default n).getD 0) ids
    (fun n _ => by rw [hg.nodeType1]; rfl)
  refine ⟨ids.map fun n => (g.nodeType1 default n).getD 0, ?_, List.length_map _, ?_⟩
  · simp only [nodeTypes, vector_len, Res.bind, span_vector, h1, native]
    rw [put_empty (by simp)]
  · intro x hx
    obtain ⟨h4, h5⟩ := zip_map_self _ hx
    rw [h5]
    refine ⟨fun t ht => ?_, fun hn => ?_⟩
    · rw [C13_first_record h default x.1 t ht]; rfl
    · rw [C13_default_partial h default x.1 hn]; rfl

/-! Samples -/

/-- `weighted_sample_neighbors` without timestamps, for all random numbers: see C19. -/
theorem C76_weighted_partial (h : Built C wm m parts g) (D : Nat → WDraws) (hD : ∀ i, (D i).Ok) (ids types : List Int)
    {ts : Option (Arr Int)} (hts : Spec.NoTimes ts) (h32 : Spec.Int32 types) (count : Nat) (default : Nbr)
    (hgap : ∀ n ∈ ids, Spec.NoGap parts n types) (hw : ∀ n ∈ ids, C19_weightsOk parts n types) :
    ∃ rows : List (List Nbr), PyClient.weighted g D (Spec.vector ids) types count default ts = .ok (Spec.sampleOf count rows) ∧
      rows.length = ids.length ∧ ∀ x ∈ ids.zip rows, x.2.length = count ∧
        (0 < ((Spec.neighbors parts x.1 types).map (·.weight)).sum → ∀ y ∈ x.2,
          y ∈ Spec.neighbors parts x.1 types ∧ ((∀ i j, 0 < ((D i).real j).1) → 0 < y.weight)) ∧
        (((Spec.neighbors parts x.1 types).map (·.weight)).sum = 0 → x.2 = List.replicate count default) := by
  obtain ⟨rows, s', h1, h2, h3⟩ := C19_sampled_partial h D hD (sortUnique types) count default
    (ids.map fun i => (i, List.replicate count default))
    (by intro q hq; obtain ⟨i, -, rfl⟩ := List.mem_map.1 hq; simp)
    (by intro q hq; obtain ⟨i, hi, rfl⟩ := List.mem_map.1 hq; exact noGap_sortUnique (hgap i hi))
    (by intro q hq; obtain ⟨i, hi, rfl⟩ := List.mem_map.1 hq; simpa only [C19_weightsOk, neighbors_sortUnique] using hw i hi) 0
  rw [List.length_map] at h2
  simp only [neighbors_sortUnique] at h3
  have h4 : ∀ x ∈ ids.zip rows, _ := fun x hx => h3 _ (zip_map_mem (fun i => (i, List.replicate count default)) hx)
  refine ⟨rows, ?_, h2, h4⟩
  simp only [PyClient.weighted, vector_len, vector_data, Res.bind, span_vector, tsSpan_none hts, etypes_eq h32, h1, native]
  exact putNbrs_rows h2 (fun r hr => (zip_right h2 r hr).elim fun a ha => (h4 _ ha).1) default

/-- The same with timestamps: see C69. -/
theorem C76_weighted_at_partial (h : Built C wm m parts g) (hwm : 0 ≤ m.watermark) (D : Nat → WDraws) (hD : ∀ i, (D i).Ok)
    (reqs : List (Int × Int)) (types : List Int) (h32 : Spec.Int32 types) (count : Nat) (default : Nbr)
    (hgap : ∀ q ∈ reqs, Spec.NoGap parts q.1 types) (hts : ∀ q ∈ reqs, -(2 ^ 31) ≤ q.2 ∧ q.2 < 2 ^ 31)
    (ho : ∀ q ∈ reqs, Spec.OrderedLifetimes parts q.1) (hrem : ∀ q ∈ reqs, C69_removals parts q.1)
    (hw : ∀ q ∈ reqs, C69_weightsOk parts q.1 types)
    (hc : ∀ r ∈ Spec.allRecords parts, ∀ c, r.created = some c → 0 ≤ c) (hr : ∀ r ∈ Spec.allRecords parts, r.removed ≠ some 0) :
    ∃ rows : List (List Nbr),
      PyClient.weighted g D (Spec.vector (reqs.map (·.1))) types count default (some (Spec.vector (reqs.map (·.2)))) =
        .ok (Spec.sampleOf count rows) ∧
      rows.length = reqs.length ∧ ∀ x ∈ reqs.zip rows, x.2.length = count ∧
        (0 < ((Spec.neighborsAt parts x.1.1 x.1.2 types).map (·.weight)).sum → ∀ y ∈ x.2,
          y ∈ Spec.neighborsAt parts x.1.1 x.1.2 types ∧ ((∀ i j, 0 < ((D i).real j).1) → 0 < y.weight)) ∧
        (((Spec.neighborsAt parts x.1.1 x.1.2 types).map (·.weight)).sum = 0 → x.2 = List.replicate count default) := by
  obtain ⟨rows, s', h1, h2, h3⟩ := C69_sampled_partial h hwm D hD (sortUnique types) count default
    (reqs.map fun i => (i, List.replicate count default))
    (by intro q hq; obtain ⟨i, -, rfl⟩ := List.mem_map.1 hq; simp)
    (by intro q hq; obtain ⟨i, hi, rfl⟩ := List.mem_map.1 hq; exact noGap_sortUnique (hgap i hi))
    (by intro q hq; obtain ⟨i, hi, rfl⟩ := List.mem_map.1 hq; exact hts i hi)
    (by intro q hq; obtain ⟨i, hi, rfl⟩ := List.mem_map.1 hq; exact ho i hi)
    (by intro q hq; obtain ⟨i, hi, rfl⟩ := List.mem_map.1 hq; exact hrem i hi)
    (by intro q hq; obtain ⟨i, hi, rfl⟩ := List.mem_map.1 hq; simpa only [C69_weightsOk, neighbors_sortUnique] using hw i hi) hc hr 0
  rw [List.length_map] at h2
  simp only [neighborsAt_sortUnique] at h3
  have h4 : ∀ x ∈ reqs.zip rows, _ := fun x hx => h3 _ (zip_map_mem (fun i => (i, List.replicate count default)) hx)
  refine ⟨rows, ?_, h2, h4⟩
  have h5 : ∀ r ∈ rows, r.length = count := fun r hr => (zip_right h2 r hr).elim fun a ha => (h4 _ ha).1
  cases reqs with
  | nil => obtain rfl := List.length_eq_zero_iff.1 h2
           simp [PyClient.weighted, Spec.vector, Arr.len, Res.bind, tsSpan, span, native, Graph.weightedSample, sampleNodes,
             putNbrs, put, full, vol, Res.map, Spec.sampleOf, Spec.table]
  | cons q qs =>
    simp only [PyClient.weighted, vector_len, vector_data, List.length_map, Res.bind, span_map, tsSpan_map (·.2) (List.cons_ne_nil q qs),
      etypes_eq h32, zip_fst_snd, h1, native]
    exact putNbrs_rows h2 h5 default

/-- `uniform_sample_neighbors` with replacement: see C15. -/
theorem C76_uniform_partial (h : Built C wm m parts g) (R : Draws) (temporal : Bool) (ids types : List Int)
    {ts : Option (Arr Int)} (hts : Spec.NoTimes ts) (h32 : Spec.Int32 types) (count : Nat) (default : Int × Int)
    (hgap : ∀ n ∈ ids, Spec.NoGap parts n types) :
    ∃ rows : List (List (Int × Int)), uniform g R false false temporal (Spec.vector ids) types count default ts =
        .ok (Spec.table count (rows.map (·.map (·.1))), Spec.table count (rows.map (·.map (·.2)))) ∧
      rows.length = ids.length ∧ ∀ x ∈ ids.zip rows,
        Spec.Sampled ((Spec.neighbors parts x.1 types).map Spec.reported) count default x.2 := by
  obtain ⟨rows, s', h1, h2, h3⟩ := C15_sampled_partial h R (sortUnique types) count default
    (ids.map fun i => ((i, none), List.replicate count default))
    (by intro q hq; obtain ⟨i, -, rfl⟩ := List.mem_map.1 hq; simp)
    (by intro q hq; obtain ⟨i, hi, rfl⟩ := List.mem_map.1 hq; exact noGap_sortUnique (hgap i hi)) 0
  rw [List.length_map] at h2
  simp only [neighbors_sortUnique] at h3
  have h4 : ∀ x ∈ ids.zip rows, _ := fun x hx => h3 _ (zip_map_mem (fun i => ((i, none), List.replicate count default)) hx)
  refine ⟨rows, ?_, h2, h4⟩
  have h5 : ∀ r ∈ rows, r.length = count := fun r hr => (zip_right h2 r hr).elim fun a ha => (h4 _ ha).1
  simp only [uniform, vector_len, vector_data, Res.bind, span_vector, tsSpan_none hts, etypes_eq h32, Bool.false_and, Bool.false_eq_true,
    false_and, if_false, tsList, zip_none, List.map_map, Function.comp_def, h1, native, put_full_map h2 h5, Res.map]

/-- Without replacement: see C16. -/
theorem C76_without_partial (h : Built C wm m parts g) (R : Draws) (temporal : Bool) (ids types : List Int)
    {ts : Option (Arr Int)} (hts : Spec.NoTimes ts) (h32 : Spec.Int32 types) (count : Nat) (hcount : 0 < count) (default : Int × Int)
    (hgap : ∀ n ∈ ids, Spec.NoGap parts n types) :
    ∃ rows : List (List (Int × Int)), uniform g R true false temporal (Spec.vector ids) types count default ts =
        .ok (Spec.table count (rows.map (·.map (·.1))), Spec.table count (rows.map (·.map (·.2)))) ∧
      rows.length = ids.length ∧ ∀ x ∈ ids.zip rows,
        Spec.Selection ((Spec.neighbors parts x.1 types).map Spec.reported) (List.replicate count default) x.2 := by
  obtain ⟨rows, s', h1, h2, h3⟩ := C16_neighbors_partial h R (sortUnique types) count hcount default
    (ids.map fun i => ((i, none), List.replicate count default))
    (by intro q hq; obtain ⟨i, -, rfl⟩ := List.mem_map.1 hq; simp)
    (by intro q hq; obtain ⟨i, hi, rfl⟩ := List.mem_map.1 hq; exact noGap_sortUnique (hgap i hi)) 0
  rw [List.length_map] at h2
  simp only [neighbors_sortUnique] at h3
  have h4 : ∀ x ∈ ids.zip rows, _ := fun x hx => h3 _ (zip_map_mem (fun i => ((i, none), List.replicate count default)) hx)
  refine ⟨rows, ?_, h2, h4⟩
  have h5 : ∀ r ∈ rows, r.length = count := fun r hr => (zip_right h2 r hr).elim fun a ha => selection_length (h4 _ ha)
  simp only [uniform, vector_len, vector_data, Res.bind, span_vector, tsSpan_none hts, etypes_eq h32, Bool.false_and, Bool.false_eq_true,
    false_and, if_false, tsList, zip_none, List.map_map, Function.comp_def, h1, native, put_full_map h2 h5, Res.map]

/-- With replacement at timestamps: see C15. -/
theorem C76_uniform_at_partial (h : Built C wm m parts g) (hwm : 0 ≤ m.watermark) (R : Draws) (temporal : Bool)
    (reqs : List (Int × Int)) (types : List Int) (h32 : Spec.Int32 types) (count : Nat) (default : Int × Int)
    (hgap : ∀ q ∈ reqs, Spec.NoGap parts q.1 types) (hts : ∀ q ∈ reqs, -(2 ^ 31) ≤ q.2 ∧ q.2 < 2 ^ 31)
    (ho : ∀ q ∈ reqs, Spec.OrderedLifetimes parts q.1)
    (hc : ∀ r ∈ Spec.allRecords parts, ∀ c, r.created = some c → 0 ≤ c) (hr : ∀ r ∈ Spec.allRecords parts, r.removed ≠ some 0) :
    ∃ rows : List (List (Int × Int)),
      uniform g R false false temporal (Spec.vector (reqs.map (·.1))) types count default (some (Spec.vector (reqs.map (·.2)))) =
        .ok (Spec.table count (rows.map (·.map (·.1))), Spec.table count (rows.map (·.map (·.2)))) ∧
      rows.length = reqs.length ∧ ∀ x ∈ reqs.zip rows,
        Spec.Sampled ((Spec.neighborsAt parts x.1.1 x.1.2 types).map Spec.reported) count default x.2 := by
  obtain ⟨rows, s', h1, h2, h3⟩ := C15_temporal_partial h hwm R (sortUnique types) count default
    (reqs.map fun i => (i, List.replicate count default))
    (by intro q hq; obtain ⟨i, -, rfl⟩ := List.mem_map.1 hq; simp)
    (by intro q hq; obtain ⟨i, hi, rfl⟩ := List.mem_map.1 hq; exact noGap_sortUnique (hgap i hi))
    (by intro q hq; obtain ⟨i, hi, rfl⟩ := List.mem_map.1 hq; exact hts i hi)
    (by intro q hq; obtain ⟨i, hi, rfl⟩ := List.mem_map.1 hq; exact ho i hi) hc hr 0
  rw [List.length_map] at h2
  rw [List.map_map] at h1
  simp only [neighborsAt_sortUnique] at h3
  have h4 : ∀ x ∈ reqs.zip rows, _ := fun x hx => h3 _ (zip_map_mem (fun i => (i, List.replicate count default)) hx)
  refine ⟨rows, ?_, h2, h4⟩
  have h5 : ∀ r ∈ rows, r.length = count := fun r hr => (zip_right h2 r hr).elim fun a ha => (h4 _ ha).1
  cases reqs with
  | nil => obtain rfl := List.length_eq_zero_iff.1 h2
           simp [uniform, Spec.vector, Arr.len, Res.bind, tsSpan, span, native, Graph.uniformSample, sampleNodes,
             put, full, vol, Res.map, Spec.table]
  | cons q qs =>
    simp only [uniform, vector_len, vector_data, List.length_map, Res.bind, span_map, tsSpan_map (·.2) (List.cons_ne_nil q qs),
      etypes_eq h32, Bool.false_and, Bool.false_eq_true, false_and, if_false, tsList, zip_times, native]
    simp only [List.map_map, Function.comp_def] at h1 ⊢
    simp only [h1, put_full_map h2 h5, Res.map, Res.bind]

/-- `lastn_neighbors`: see C07. -/
theorem C76_lastn_partial (h : Built C wm m parts g) (hwm : 0 ≤ m.watermark) (reqs : List (Int × Int)) (types : List Int)
    (h32 : Spec.Int32 types) (count : Nat) (hcount : 0 < count) (default : Slot) (created : Bool)
    (hgap : ∀ q ∈ reqs, Spec.NoGap parts q.1 types)
    (hc : ∀ r ∈ Spec.allRecords parts, ∀ c, r.created = some c → 0 ≤ c) (hr : ∀ r ∈ Spec.allRecords parts, r.removed ≠ some 0)
    (hnow : ∀ q ∈ reqs, ∀ e ∈ Spec.allTimedEdges parts, e.src = q.1 → e.removed ≠ some q.2) :
    ∃ rows : List (List Slot),
      lastn g m.watermark (Spec.vector (reqs.map (·.1))) types (Spec.vector (reqs.map (·.2))) count default created =
        .ok { ids := Spec.table count (rows.map (·.map (·.dst))), weights := Spec.table count (rows.map (·.map (·.weight))),
              types := Spec.table count (rows.map (·.map (·.typ))),
              times := if created then some (Spec.table count (rows.map (·.map (·.created)))) else none } ∧
      rows.length = reqs.length ∧ ∀ x ∈ reqs.zip rows, ∃ seen : List Slot,
        seen.map Spec.unweighted = (Spec.liveSlots parts x.1.1 x.1.2 types).map Spec.unweighted ∧
        (Spec.ExactWeights parts → seen = Spec.liveSlots parts x.1.1 x.1.2 types) ∧ Spec.MostRecent count default seen x.2 := by
  obtain ⟨rows, h2, h1, h3⟩ := C07_last_n_partial h hwm reqs (sortUnique types) count hcount default
    (fun q hq => noGap_sortUnique (hgap q hq)) hc hr hnow
  simp only [liveSlots_sortUnique] at h3
  refine ⟨rows, ?_, h2, h3⟩
  have h5 : ∀ r ∈ rows, r.length = count := fun r hr => by
    obtain ⟨a, ha⟩ := zip_right h2 r hr
    obtain ⟨seen, -, -, kept, rest, h6, h7, -, h8⟩ := h3 _ ha
    simp only at h8
    rw [h8, List.length_append, List.length_replicate]
    omega
  have hneg : ¬ m.watermark < 0 := by omega
  simp only [lastn, if_neg hneg, vector_len, vector_data, List.length_map, Res.bind, ne_eq, not_true_eq_false, if_false, span_map,
    etypes_eq h32, h1, native, put_full_map h2 h5, Res.map]

/-- `random_walk` without timestamps: see C42. -/
theorem C76_walk_partial (h : Built C wm m parts g) (hw : Spec.ExactWeights parts) {types : List Int} (h32 : Spec.Int32 types)
    (hgap : ∀ n, Spec.NoGap parts n types) (hpos : ∀ n, ∀ x ∈ Spec.neighbors parts n types, 0 ≤ x.weight) {p q : Rat} (hp : 0 < p)
    (hq : 0 < q) {default : Int} (hdef : ∀ a, ¬ Spec.Edge parts types a default) {D : Nat → Nat → Rat} (hD : ∀ i j, D i j ≤ 1)
    (ids : List Int) (len : Nat) :
    ∃ rows : List (List Int), PyClient.randomWalk g D (Spec.vector ids) types len p q default = .ok (Spec.table (len + 1) rows) ∧
      rows.length = ids.length ∧ ∀ x ∈ ids.zip rows,
        Spec.WalkRow (fun a b => Spec.Edge parts types a b ∨ Spec.Edge parts types b a) default len x.1 x.2 := by
  have he : ∀ a b, Spec.Edge parts (sortUnique types) a b ↔ Spec.Edge parts types a b := by
    intro a b; simp only [Spec.Edge, sortUnique_mem]
  obtain ⟨rows, h1⟩ := C42_returns h hw (fun n => noGap_sortUnique (hgap n))
    (fun n x hx => hpos n x (by rwa [neighbors_sortUnique] at hx)) hp hq default hD ids len
  obtain ⟨h2, h3⟩ := C42_walk_partial h (fun a => by rw [he]; exact hdef a) h1
  simp only [he] at h3
  have h4 : ∀ x ∈ ids.zip rows,
      Spec.WalkRow (fun a b => Spec.Edge parts types a b ∨ Spec.Edge parts types b a) default len x.1 x.2 := by
    intro x hx
    obtain ⟨i, hi⟩ := List.mem_iff_getElem?.1 hx
    rw [List.getElem?_zip_eq_some] at hi
    exact h3 i x.1 x.2 hi.1 hi.2
  refine ⟨rows, ?_, h2, h4⟩
  have h5 : ∀ r ∈ rows, r.length = len + 1 := fun r hr => (zip_right h2 r hr).elim fun a ha => (h4 _ ha).1
  simp only [PyClient.randomWalk, vector_len, vector_data, Res.bind, span_vector, etypes_eq h32, h1, native]
  exact put_table h2 h5 _ rfl (by simp [empty])

/-- The return and in-out parameters act as in node2vec (C42): the last random number of a walk that is longer by one step
chooses its last node in proportion to the node2vec weights. -/
theorem C76_node2vec_partial (h : Built C wm m parts g) (hw : Spec.ExactWeights parts) {types : List Int} (h32 : Spec.Int32 types)
    (hgap : ∀ n, Spec.NoGap parts n types) (hpos : ∀ n, ∀ x ∈ Spec.neighbors parts n types, 0 < x.weight) {p q : Rat} (hp : 0 < p)
    (hq : 0 < q) {default : Int} (hdef : ∀ a, ¬ Spec.Edge parts types a default)
    (hsym : ∀ a b, Spec.edgeWeight parts types a b = Spec.edgeWeight parts types b a)
    (hone : ∀ a, ((Spec.neighbors parts a types).map (·.dst)).Nodup) {D : Nat → Nat → Rat} (hD : ∀ i j, D i j ≤ 1)
    {ids : List Int} {len : Nat} {rows : List (List Int)} (hl : ∀ r ∈ rows, r.length = len + 2)
    (hr : PyClient.randomWalk g D (Spec.vector ids) types (len + 1) p q default = .ok (Spec.table (len + 2) rows)) {j : Nat}
    {pre : List Int} {a b : Int} (hj : rows[j]? = some (pre ++ [a, b])) (hb : b ≠ default) :
    ∃ next : Rat → Int, Spec.Proportional next (Spec.node2vec parts types p q a b) ∧ ∀ u, u ≤ 1 → ∃ rows' : List (List Int),
      PyClient.randomWalk g (fun i k => if i = len + 1 ∧ k = j then u else D i k) (Spec.vector ids) types (len + 2) p q default =
        .ok (Spec.table (len + 3) rows') ∧
      rows'[j]? = some (pre ++ [a, b, next u]) := by
  have he : ∀ a b, Spec.Edge parts (sortUnique types) a b ↔ Spec.Edge parts types a b := by
    intro a b; simp only [Spec.Edge, sortUnique_mem]
  have hpos' : ∀ n, ∀ x ∈ Spec.neighbors parts n (sortUnique types), 0 < x.weight := fun n x hx =>
    hpos n x (by rwa [neighbors_sortUnique] at hx)
  have call : ∀ (D : Nat → Nat → Rat), (∀ i j, D i j ≤ 1) → ∀ len, ∃ rows, RandomWalk.randomWalk g ids (sortUnique types) len p q default D = some rows ∧
      PyClient.randomWalk g D (Spec.vector ids) types len p q default = .ok (Spec.table (len + 1) rows) ∧ ∀ r ∈ rows, r.length = len + 1 := by
    intro D hD len
    obtain ⟨rows, h1⟩ := C42_returns h hw (fun n => noGap_sortUnique (hgap n)) (fun n x hx => Int.le_of_lt (hpos' n x hx)) hp hq default hD ids len
    obtain ⟨h2, h3⟩ := C42_walk_partial h (fun a => by rw [he]; exact hdef a) h1
    have h5 : ∀ r ∈ rows, r.length = len + 1 := by
      intro r hr
      obtain ⟨a, ha⟩ := zip_right h2 r hr
      obtain ⟨i, hi⟩ := List.mem_iff_getElem?.1 ha
      rw [List.getElem?_zip_eq_some] at hi
      exact (h3 i a r hi.1 hi.2).1
    refine ⟨rows, h1, ?_, h5⟩
    simp only [PyClient.randomWalk, vector_len, vector_data, Res.bind, span_vector, etypes_eq h32, h1, native]
    exact put_table h2 h5 _ rfl (by simp [empty])
  obtain ⟨rows0, h1, h2, h3⟩ := call D hD (len + 1)
  rw [h2] at hr
  obtain rfl := table_inj h3 hl (Res.ok.inj hr)
  obtain ⟨next, h4, h5⟩ := C42_node2vec h hw (fun n => noGap_sortUnique (hgap n)) hpos' hp hq (fun a => by rw [he]; exact hdef a)
    (fun a b => by simp only [Spec.edgeWeight, neighbors_sortUnique]; exact hsym a b)
    (fun a => by rw [neighbors_sortUnique]; exact hone a) hD h1 hj hb
  have hn : Spec.node2vec parts (sortUnique types) p q a b = Spec.node2vec parts types p q a b := by
    funext c
    simp only [Spec.node2vec, Spec.edgeWeight, neighbors_sortUnique, he]
  refine ⟨next, by rwa [hn] at h4, fun u hu => ?_⟩
  obtain ⟨rows', h6, h7⟩ := h5 u hu
  obtain ⟨rows1, h8, h9, -⟩ := call (fun i k => if i = len + 1 ∧ k = j then u else D i k) (by
    intro i k
    split
    · exact hu
    · exact hD i k) (len + 2)
  rw [h6] at h8
  obtain rfl := Option.some.inj h8
  exact ⟨rows', h9, h7⟩

/-! Features -/

/-- `node_features` without timestamps: a row per node with the values of the features, cut or filled with zeros to the
requested number of elements of `item` bytes. -/
theorem C76_node_features_partial (h : Built C wm m parts g) (item : Nat) (ids : List Int) (feats : List (Nat × Nat))
    {ts : Option (Arr Int)} (hts : Spec.NoTimes ts) :
    nodeFeatures g item (Spec.vector ids) feats ts = .ok ⟨[ids.length, (feats.map (·.2)).sum, item],
      ids.flatMap fun n => feats.flatMap fun f => Spec.fit (f.2 * item) (Spec.nodeFeature parts n f.1)⟩ := by
  simp only [nodeFeatures, vector_len, span_vector, tsSpan_none hts, Res.bind]
  rw [C08_node_features h ids _ _ (by rw [List.length_replicate, sum_scaled, Nat.mul_comm])]
  simp [native, Res.map, Res.bind, List.flatMap_map]

/-- With timestamps: the latest values not after the timestamps (C10). -/
theorem C76_node_features_at_partial (h : Built C wm m parts g) (item : Nat) (reqs : List (Int × Int)) (feats : List (Nat × Nat))
    (H : Nat → List (Option Bytes) → List (Int × Bytes))
    (hH : ∀ q ∈ reqs, ∀ f ∈ feats, ∀ r ∈ Spec.nodeRecords parts q.1, Spec.HasHist r.features f.1 (H f.1 r.features)) :
    ∃ rows : List Bytes, nodeFeatures g item (Spec.vector (reqs.map (·.1))) feats (some (Spec.vector (reqs.map (·.2)))) =
        .ok ⟨[reqs.length, (feats.map (·.2)).sum, item], rows.flatten⟩ ∧ rows.length = reqs.length ∧
      ∀ x ∈ reqs.zip rows, Spec.Row (feats.map fun f => (f.1, f.2 * item)) (fun fid v =>
        Spec.LatestValue ((Spec.nodeRecords parts x.1.1).flatMap fun r => H fid r.features) x.1.2 v) x.2 := by
  obtain ⟨rows, h1, h2, h3⟩ := C10_node_features h (reqs.map (·.1)) (reqs.map (·.2)) (by simp) (feats.map fun f => (f.1, f.2 * item))
    (List.replicate (reqs.length * ((feats.map (·.2)).sum * item)) 0)
    (by rw [List.length_replicate, sum_scaled, List.length_map, Nat.mul_comm]) H
    (by
      intro n hn f hf r hr
      obtain ⟨q, hq, rfl⟩ := List.mem_map.1 hn
      obtain ⟨f', hf', rfl⟩ := List.mem_map.1 hf
      exact hH q hq f' hf' r hr)
  rw [List.length_map] at h2
  rw [zip_fst_snd] at h3
  refine ⟨rows, ?_, h2, h3⟩
  cases reqs with
  | nil => obtain rfl := List.length_eq_zero_iff.1 h2
           simp [nodeFeatures, Spec.vector, Arr.len, Res.bind, tsSpan, span, native, Graph.nodeFeature, Res.map, tsList]
  | cons q qs =>
    simp only [nodeFeatures, vector_len, List.length_map, Res.bind, span_map, tsSpan_map (·.2) (List.cons_ne_nil q qs), native, h1, Res.map]

/-- `edge_features` of a client for a table of edges: the values of one of the records of the edge (C09). -/
theorem C76_edge_features_partial (h : Built C wm m parts g) (item : Nat) (edges : List (Int × Int × Int))
    (h32 : Spec.Int32 (edges.map (·.2.2))) (feats : List (Nat × Nat)) {ts : Option (Arr Int)} (hts : Spec.NoTimes ts) :
    ∃ val : Int × Int × Int → Nat → Bytes, edgeFeaturesOf g item edges feats ts =
        .ok ⟨[edges.length, (feats.map (·.2)).sum, item], edges.flatMap fun e => feats.flatMap fun f => Spec.fit (f.2 * item) (val e f.1)⟩ ∧
      ∀ e fid, (Spec.edgesBetween parts e.1 e.2.1 e.2.2 = [] → val e fid = []) ∧
        (Spec.edgesBetween parts e.1 e.2.1 e.2.2 ≠ [] →
          ∃ r ∈ Spec.edgesBetween parts e.1 e.2.1 e.2.2, val e fid = Spec.featureOf r fid) := by
  obtain ⟨val, h1, h2⟩ := C09_edge_features h (edges.map fun e => ⟨e.1, e.2.1, e.2.2⟩) (feats.map fun f => (f.1, f.2 * item))
  refine ⟨fun e fid => val ⟨e.1, e.2.1, e.2.2⟩ fid, ?_, fun e fid => h2 ⟨e.1, e.2.1, e.2.2⟩ fid⟩
  have hv : ∀ f : Int × Int × Int → Int, (⟨[edges.length], edges.map f⟩ : Arr Int) = Spec.vector (edges.map f) := by
    intro f; simp [Spec.vector]
  have hz : ((edges.map (·.1)).zip ((edges.map (·.2.1)).zip (edges.map (·.2.2)))).map
      (fun x => (⟨x.1, x.2.1, toI32 x.2.2⟩ : EdgeId)) = edges.map fun e => ⟨e.1, e.2.1, e.2.2⟩ := by
    clear h1 hv
    induction edges with
    | nil => rfl
    | cons e l ih =>
      have := toI32_id (h32 e.2.2 (by simp))
      simp only [List.map_cons, List.zip_cons_cons, this]
      rw [ih fun t ht => h32 t (by simp only [List.map_cons, List.mem_cons]; exact Or.inr ht)]
  simp only [edgeFeaturesOf, edgeFeatures, hv, vector_len, List.length_map, Res.bind, ne_eq, not_true_eq_false, or_self, if_false,
    span_map, tsSpan_none hts, hz, h1, native, Res.map]
  simp [List.flatMap_map]

/-- With timestamps: the latest value in one of the records of the edge (C10). -/
theorem C76_edge_features_at_partial (h : Built C wm m parts g) (item : Nat) (reqs : List ((Int × Int × Int) × Int))
    (h32 : Spec.Int32 (reqs.map (·.1.2.2))) (feats : List (Nat × Nat)) (H : Nat → List (Option Bytes) → List (Int × Bytes))
    (hH : ∀ q ∈ reqs, ∀ f ∈ feats, ∀ r ∈ Spec.edgesBetween parts q.1.1 q.1.2.1 q.1.2.2, Spec.HasHist r.features f.1 (H f.1 r.features)) :
    ∃ rows : List Bytes, edgeFeaturesOf g item (reqs.map (·.1)) feats (some (Spec.vector (reqs.map (·.2)))) =
        .ok ⟨[reqs.length, (feats.map (·.2)).sum, item], rows.flatten⟩ ∧ rows.length = reqs.length ∧
      ∀ x ∈ reqs.zip rows, Spec.Row (feats.map fun f => (f.1, f.2 * item)) (fun fid v =>
        (Spec.edgesBetween parts x.1.1.1 x.1.1.2.1 x.1.1.2.2 = [] ∧ v = []) ∨
        ∃ r ∈ Spec.edgesBetween parts x.1.1.1 x.1.1.2.1 x.1.1.2.2, Spec.LatestValue (H fid r.features) x.1.2 v) x.2 := by
  obtain ⟨items, hg, hc⟩ := h.graphOk
  obtain ⟨rows, h1, h2, h3⟩ := mapM_exists (fun x : (Int × Int × Int) × Int => g.edgeFeature1 (feats.map fun f => (f.1, f.2 * item))
      ⟨x.1.1, x.1.2.1, x.1.2.2⟩ (some x.2) (List.replicate ((feats.map fun f => (f.1, f.2 * item)).map (·.2)).sum 0))
    (fun x row => Spec.Row (feats.map fun f => (f.1, f.2 * item)) (fun fid v =>
        (Spec.edgesBetween parts x.1.1 x.1.2.1 x.1.2.2 = [] ∧ v = []) ∨
        ∃ r ∈ Spec.edgesBetween parts x.1.1 x.1.2.1 x.1.2.2, Spec.LatestValue (H fid r.features) x.2 v) row) reqs (by
      intro q hq
      exact hg.edgeFeatureAt1 (fun it hit => (hc it hit).2) _ ⟨q.1.1, q.1.2.1, q.1.2.2⟩ q.2 H (by
        intro f hf r hr
        obtain ⟨f', hf', rfl⟩ := List.mem_map.1 hf
        exact hH q hq f' hf' r hr))
  refine ⟨rows, ?_, h2, h3⟩
  have hz : ∀ reqs : List ((Int × Int × Int) × Int), Spec.Int32 (reqs.map (·.1.2.2)) →
      (((reqs.map (·.1.1)).zip ((reqs.map (·.1.2.1)).zip (reqs.map (·.1.2.2)))).map
        (fun x => (⟨x.1, x.2.1, toI32 x.2.2⟩ : EdgeId))).zip ((reqs.map (·.2)).map some) =
      reqs.map fun q => ((⟨q.1.1, q.1.2.1, q.1.2.2⟩ : EdgeId), some q.2) := by
    intro reqs h32
    induction reqs with
    | nil => rfl
    | cons e l ih =>
      have := toI32_id (h32 e.1.2.2 (by simp))
      simp only [List.map_cons, List.zip_cons_cons, this]
      rw [ih fun t ht => h32 t (by simp only [List.map_cons, List.mem_cons]; exact Or.inr ht)]
  cases reqs with
  | nil => obtain rfl := List.length_eq_zero_iff.1 h2
           simp [edgeFeaturesOf, edgeFeatures, Arr.len, Res.bind, tsSpan, span, native, Graph.edgeFeature, Res.map, tsList, Spec.vector]
  | cons q qs =>
    have hv : ∀ f : (Int × Int × Int) × Int → Int, (⟨[(q :: qs).length], (q :: qs).map f⟩ : Arr Int) = Spec.vector ((q :: qs).map f) := by
      intro f; simp [Spec.vector]
    simp only [edgeFeaturesOf, edgeFeatures, List.map_map, List.length_map, Function.comp_def]
    simp only [hv, vector_len, List.length_map, Res.bind, ne_eq, not_true_eq_false, or_self, if_false,
      span_map, tsSpan_map (·.2) (List.cons_ne_nil q qs), Graph.edgeFeature, tsList, hz _ h32, List.mapM_map, Function.comp_def, h1,
      Option.map_some, native, Res.map]

/-- Arrays of sources, destinations and types of different lengths are rejected. -/
theorem C76_edge_lengths (g : Graph) (item : Nat) (src dst tp : List Int) (hne : src.length ≠ dst.length ∨ src.length ≠ tp.length)
    (feats : List (Nat × Nat)) (ts : Option (Arr Int)) :
    edgeFeatures g item (Spec.vector src) (Spec.vector dst) (Spec.vector tp) feats ts = .raised := by
  simp only [edgeFeatures, vector_len, Res.bind]
  exact if_pos hne

/-- `node_string_features` without timestamps: the values one after another and their numbers of elements (C11). -/
theorem C76_node_strings_partial (h : Built C wm m parts g) (item : Nat) (ids : List Int) (feats : List Nat)
    {ts : Option (Arr Int)} (hts : Spec.NoTimes ts) (hone : ∀ n ∈ ids, (Spec.nodeRecords parts n).length ≤ 1) :
    ∃ values : Bytes, values = (ids.flatMap fun n => feats.flatMap fun f => Spec.nodeFeature parts n f) ∧
      nodeStrings g item (Spec.vector ids) feats ts = .ok (⟨[values.length / item, item], values⟩,
        ⟨[ids.length, feats.length], ids.flatMap fun n => feats.map fun f => (Spec.nodeFeature parts n f).length / item⟩) := by
  refine ⟨_, rfl, ?_⟩
  have hl : ∀ ids : List Int, (ids.flatMap fun n => feats.map fun f => (Spec.nodeFeature parts n f).length).length = ids.length * feats.length := by
    intro ids
    induction ids with
    | nil => simp
    | cons n l ih => rw [List.flatMap_cons, List.length_append, ih]; simp [Nat.succ_mul, Nat.add_comm]
  simp only [nodeStrings, vector_len, vector_data, span_vector, tsSpan_none hts, Res.bind, tsList, zip_none,
    C11_nodes_partial h ids feats hone, native, Res.map, hl, Nat.sub_self, List.replicate_zero, List.append_nil, List.map_flatMap,
    List.map_map, Function.comp_def]

/-! Types of nodes and edges -/

/-- `get_node_type_count` and `get_edge_type_count`: the number of nodes or edges of the requested types, each counted once
however the types are given. -/
theorem C76_type_count {all perType : List Nat} (h : Spec.CountsOf all perType) {types : List Int} (hne : types ≠ []) :
    typeCount perType types = .ok (all.filter fun t : Nat => decide ((t : Int) ∈ types)).length := by
  simp only [typeCount, if_neg hne]
  have e : ((sortUnique types).filter fun t => decide (0 ≤ t ∧ t < (perType.length : Int))).map (fun t => perType.getD t.toNat 0) =
      ((sortUnique types).filter fun t => decide (0 ≤ t ∧ t < (perType.length : Int))).map fun t => all.count t.toNat := by
    apply List.map_congr_left
    intro t ht
    have := (List.mem_filter.1 ht).2
    simp only [decide_eq_true_eq] at this
    exact getD_counts h (by omega)
  rw [e, count_mem_sum _ _ ((sortUnique_sorted types).filter _) (by
    intro t ht
    have := (List.mem_filter.1 ht).2
    simp only [decide_eq_true_eq] at this
    exact this.1)]
  congr 2
  apply List.filter_congr
  intro t ht
  have := h.2 t ht
  simp only [List.mem_filter, sortUnique_mem, decide_eq_true_eq, decide_eq_decide]
  exact ⟨fun x => x.1, fun x => ⟨x, by omega⟩⟩

/-- A sampler is created for the requested types that exist in the graph, in order and without repetition; -1 stands for all
of them; if there are none the call raises. -/
theorem C76_sampler_types {all perType : List Nat} (h : Spec.CountsOf all perType) (types : Int ⊕ List Int) :
    (∀ l, samplerTypes perType types = .ok l → l.Pairwise (· < ·) ∧
      ∀ t, t ∈ l ↔ (∃ n ∈ all, (n : Int) = t) ∧ (types = .inl (-1) ∨ types = .inl t ∨ ∃ l', types = .inr l' ∧ t ∈ l')) ∧
    (samplerTypes perType types = .raised ↔
      ∀ n ∈ all, ¬ (types = .inl (-1) ∨ types = .inl (n : Int) ∨ ∃ l', types = .inr l' ∧ (n : Int) ∈ l')) ∧
    samplerTypes perType types ≠ .corrupt := by
  have hpos : ∀ t : Int, (0 ≤ t ∧ t < (perType.length : Int) ∧ 0 < perType.getD t.toNat 0) ↔ ∃ n ∈ all, (n : Int) = t := by
    intro t
    constructor
    · rintro ⟨h1, h2, h3⟩
      rw [getD_counts h (by omega), List.count_pos_iff] at h3
      exact ⟨t.toNat, h3, by omega⟩
    · rintro ⟨n, hn, rfl⟩
      have := h.2 n hn
      refine ⟨by omega, by omega, ?_⟩
      rw [getD_counts h (by omega), List.count_pos_iff]
      simpa using hn
  -- the list that is filtered
  obtain ⟨req, hreq, hmem⟩ : ∃ req : List Int, (match types with
      | .inl t => if t = -1 then (List.range perType.length).map Int.ofNat else [t]
      | .inr l => l) = req ∧ ∀ n ∈ all, ((n : Int) ∈ req ↔ (types = .inl (-1) ∨ types = .inl (n : Int) ∨ ∃ l', types = .inr l' ∧ (n : Int) ∈ l')) := by
    refine ⟨_, rfl, ?_⟩
    intro n hn
    have hn' := h.2 n hn
    cases types with
    | inl t =>
      by_cases ht : t = -1
      · subst ht
        simp only [if_true, true_or, iff_true, List.mem_map, List.mem_range]
        exact ⟨n, hn', rfl⟩
      · simp only [if_false, List.mem_singleton, Sum.inl.injEq, ht, false_or, reduceCtorEq, false_and, exists_false, or_false]
        exact eq_comm
    | inr l => simp
  have hl : ∀ t, t ∈ ((sortUnique req).filter fun t => decide (0 ≤ t ∧ t < (perType.length : Int) ∧ 0 < perType.getD t.toNat 0)) ↔
      (∃ n ∈ all, (n : Int) = t) ∧ (types = .inl (-1) ∨ types = .inl t ∨ ∃ l', types = .inr l' ∧ t ∈ l') := by
    intro t
    simp only [List.mem_filter, sortUnique_mem, decide_eq_true_eq, hpos]
    constructor
    · rintro ⟨h1, n, hn, rfl⟩
      exact ⟨⟨n, hn, rfl⟩, (hmem n hn).1 h1⟩
    · rintro ⟨⟨n, hn, rfl⟩, h2⟩
      exact ⟨(hmem n hn).2 h2, n, hn, rfl⟩
  have e : samplerTypes perType types =
      if ((sortUnique req).filter fun t => decide (0 ≤ t ∧ t < (perType.length : Int) ∧ 0 < perType.getD t.toNat 0)) = [] then .raised
      else .ok ((sortUnique req).filter fun t => decide (0 ≤ t ∧ t < (perType.length : Int) ∧ 0 < perType.getD t.toNat 0)) := by
    rw [← hreq]; rfl
  rw [e]
  refine ⟨?_, ?_, ?_⟩
  · intro l hlok
    split at hlok
    · cases hlok
    · obtain rfl := Res.ok.inj hlok
      exact ⟨(sortUnique_sorted req).filter _, hl⟩
  · constructor
    · intro hr n hn hc
      split at hr
      · rename_i hnil
        have := (hl n).2 ⟨⟨n, hn, rfl⟩, hc⟩
        rw [hnil] at this
        simp at this
      · cases hr
    · intro hno
      rw [if_pos]
      rw [List.eq_nil_iff_forall_not_mem]
      intro t ht
      obtain ⟨⟨n, hn, rfl⟩, h2⟩ := (hl t).1 ht
      exact hno n hn h2
  · split <;> simp

/-! The client of local.py -/

/-- `sample_neighbors` by weight. -/
theorem C76_client_weighted_partial (h : Built C wm m parts g) (D : Nat → WDraws) (R : Draws) (hD : ∀ i, (D i).Ok) (ids : List Int)
    (types : SamplerCache.Types) {ts : Option (Arr Int)} (hts : Spec.NoTimes ts) (h32 : Spec.Int32 (SamplerCache.checkTypes types))
    (count : Nat) (default : Nbr) (hgap : ∀ n ∈ ids, Spec.NoGap parts n (SamplerCache.checkTypes types))
    (hw : ∀ n ∈ ids, C19_weightsOk parts n (SamplerCache.checkTypes types)) :
    ∃ rows : List (List Nbr), sampleNeighbors g m.watermark D R (Spec.vector ids) types count .byweight default ts =
        .ok { Spec.sampleOf count rows with times := some (full [ids.length, count] (-1)) } ∧
      rows.length = ids.length ∧ ∀ x ∈ ids.zip rows, x.2.length = count ∧
        (0 < ((Spec.neighbors parts x.1 (SamplerCache.checkTypes types)).map (·.weight)).sum → ∀ y ∈ x.2,
          y ∈ Spec.neighbors parts x.1 (SamplerCache.checkTypes types) ∧ ((∀ i j, 0 < ((D i).real j).1) → 0 < y.weight)) ∧
        (((Spec.neighbors parts x.1 (SamplerCache.checkTypes types)).map (·.weight)).sum = 0 →
          x.2 = List.replicate count ⟨default.dst, -1, default.weight⟩) := by
  obtain ⟨rows, h1, h2, h3⟩ := C76_weighted_partial h D hD ids _ hts h32 count ⟨default.dst, -1, default.weight⟩ hgap hw
  refine ⟨rows, ?_, h2, h3⟩
  simp only [sampleNeighbors, h1, Res.map, Res.bind, Spec.sampleOf, Spec.table, List.length_map, h2]

/-- `sample_neighbors` with uniform sampling: ids and types as in C15, the weights are not specified
(`C76_weights_refuted`). -/
theorem C76_client_random_partial (h : Built C wm m parts g) (D : Nat → WDraws) (R : Draws) (ids : List Int)
    (types : SamplerCache.Types) {ts : Option (Arr Int)} (hts : Spec.NoTimes ts) (h32 : Spec.Int32 (SamplerCache.checkTypes types))
    (count : Nat) (default : Nbr) (hgap : ∀ n ∈ ids, Spec.NoGap parts n (SamplerCache.checkTypes types)) :
    ∃ (rows : List (List (Int × Int))) (r : Sample), sampleNeighbors g m.watermark D R (Spec.vector ids) types count .random default ts = .ok r ∧
      r.ids = Spec.table count (rows.map (·.map (·.1))) ∧ r.types = Spec.table count (rows.map (·.map (·.2))) ∧
      r.times = some (full [ids.length, count] (-1)) ∧ r.weights.shape = [ids.length, count] ∧
      rows.length = ids.length ∧ ∀ x ∈ ids.zip rows,
        Spec.Sampled ((Spec.neighbors parts x.1 (SamplerCache.checkTypes types)).map Spec.reported) count (default.dst, default.typ) x.2 := by
  obtain ⟨rows, h1, h2, h3⟩ := C76_uniform_partial h R (decide (0 ≤ m.watermark)) ids _ hts h32 count (default.dst, default.typ) hgap
  refine ⟨rows, _, by simp only [sampleNeighbors, h1, Res.map, Res.bind]; rfl, rfl, rfl, ?_, ?_, h2, h3⟩
  · simp only [Spec.table, List.length_map, h2]
  · simp only [Spec.table, List.length_map, h2, empty]

/-- `sample_neighbors` without replacement. -/
theorem C76_client_without_partial (h : Built C wm m parts g) (D : Nat → WDraws) (R : Draws) (ids : List Int)
    (types : SamplerCache.Types) {ts : Option (Arr Int)} (hts : Spec.NoTimes ts) (h32 : Spec.Int32 (SamplerCache.checkTypes types))
    (count : Nat) (hcount : 0 < count) (default : Nbr) (hgap : ∀ n ∈ ids, Spec.NoGap parts n (SamplerCache.checkTypes types)) :
    ∃ (rows : List (List (Int × Int))) (r : Sample),
      sampleNeighbors g m.watermark D R (Spec.vector ids) types count .randomwithoutreplacement default ts = .ok r ∧
      r.ids = Spec.table count (rows.map (·.map (·.1))) ∧ r.types = Spec.table count (rows.map (·.map (·.2))) ∧
      r.times = some (full [ids.length, count] (-1)) ∧ r.weights.shape = [ids.length, count] ∧
      rows.length = ids.length ∧ ∀ x ∈ ids.zip rows,
        Spec.Selection ((Spec.neighbors parts x.1 (SamplerCache.checkTypes types)).map Spec.reported)
          (List.replicate count (default.dst, default.typ)) x.2 := by
  obtain ⟨rows, h1, h2, h3⟩ := C76_without_partial h R (decide (0 ≤ m.watermark)) ids _ hts h32 count hcount (default.dst, default.typ) hgap
  refine ⟨rows, _, by simp only [sampleNeighbors, h1, Res.map, Res.bind]; rfl, rfl, rfl, ?_, ?_, h2, h3⟩
  · simp only [Spec.table, List.length_map, h2]
  · simp only [Spec.table, List.length_map, h2, empty]

/-- `sample_neighbors` of the last created neighbours; a call without timestamps raises. -/
theorem C76_client_lastn_partial (h : Built C wm m parts g) (hwm : 0 ≤ m.watermark) (D : Nat → WDraws) (R : Draws)
    (reqs : List (Int × Int)) (types : SamplerCache.Types)
    (h32 : Spec.Int32 (SamplerCache.checkTypes types)) (count : Nat) (hcount : 0 < count) (default : Nbr)
    (hgap : ∀ q ∈ reqs, Spec.NoGap parts q.1 (SamplerCache.checkTypes types))
    (hc : ∀ r ∈ Spec.allRecords parts, ∀ c, r.created = some c → 0 ≤ c) (hr : ∀ r ∈ Spec.allRecords parts, r.removed ≠ some 0)
    (hnow : ∀ q ∈ reqs, ∀ e ∈ Spec.allTimedEdges parts, e.src = q.1 → e.removed ≠ some q.2) :
    (∃ rows : List (List Slot),
      sampleNeighbors g m.watermark D R (Spec.vector (reqs.map (·.1))) types count .lastn default (some (Spec.vector (reqs.map (·.2)))) =
        .ok { ids := Spec.table count (rows.map (·.map (·.dst))), weights := Spec.table count (rows.map (·.map (·.weight))),
              types := Spec.table count (rows.map (·.map (·.typ))) } ∧
      rows.length = reqs.length ∧ ∀ x ∈ reqs.zip rows, ∃ seen : List Slot,
        seen.map Spec.unweighted = (Spec.liveSlots parts x.1.1 x.1.2 (SamplerCache.checkTypes types)).map Spec.unweighted ∧
        (Spec.ExactWeights parts → seen = Spec.liveSlots parts x.1.1 x.1.2 (SamplerCache.checkTypes types)) ∧
        Spec.MostRecent count ⟨default.dst, default.typ, default.weight, -1⟩ seen x.2) ∧
    sampleNeighbors g m.watermark D R (Spec.vector (reqs.map (·.1))) types count .lastn default none = .raised := by
  obtain ⟨rows, h1, h2, h3⟩ := C76_lastn_partial h hwm reqs _ h32 count hcount ⟨default.dst, default.typ, default.weight, -1⟩ false hgap hc hr hnow
  refine ⟨⟨rows, ?_, h2, h3⟩, rfl⟩
  simp only [sampleNeighbors, h1, Bool.false_eq_true, if_false]

/-! Examples -/

/-- The hypotheses of the theorems without timestamps are met, with types in any order and repeated, an id that is not in
the graph, and an empty list of timestamps; and the arrays are what one expects. -/
example : ∃ g, Built intCodec none ⟨0, 0, -1⟩ C02_example g ∧ Spec.NoTimes (some (Spec.vector [])) ∧ Spec.Int32 [2, 0, 1, 0] ∧
    (∀ n ∈ [1, 5, 9], Spec.NoGap C02_example n [2, 0, 1, 0] ∧ C19_weightsOk C02_example n [2, 0, 1, 0]) ∧
    PyClient.neighbors g (Spec.vector [1, 5, 9]) [2, 0, 1, 0] (some (Spec.vector [])) =
      .ok ⟨⟨[4], [2, 3, 7, 1]⟩, ⟨[4], [7, 9, 2, 4]⟩, ⟨[4], [0, 2, 1, 0]⟩, ⟨[3], [some 3, some 1, some 0]⟩⟩ ∧
    neighborCounts g (Spec.vector [1, 5, 9]) [2, 0, 1, 0] none = .ok ⟨[3], [some 3, some 1, some 0]⟩ ∧
    nodeTypes g (Spec.vector [1, 2, 9]) 6 = .ok ⟨[3], [some 3, some 0, some 6]⟩ ∧
    sampleNeighbors g (-1) (fun _ => ⟨fun _ => 0, fun _ => (1, 2)⟩) (fun _ => 0) (Spec.vector [5, 9]) (.array [1, 0]) 2 .byweight ⟨-3, 8, 0⟩ none =
      .ok ⟨⟨[2, 2], [some 1, some 1, some (-3), some (-3)]⟩, ⟨[2, 2], [some 4, some 4, some 0, some 0]⟩,
        ⟨[2, 2], [some 0, some 0, some (-1), some (-1)]⟩, some ⟨[2, 2], [some (-1), some (-1), some (-1), some (-1)]⟩⟩ ∧
    sampleNeighbors g (-1) (fun _ => ⟨fun _ => 0, fun _ => (1, 2)⟩) (fun _ => 0) (Spec.vector [5, 9]) (.int 0) 2 .random ⟨-3, 8, 0⟩ none =
      .ok ⟨⟨[2, 2], [some 1, some 1, some (-3), some (-3)]⟩, ⟨[2, 2], [none, none, none, none]⟩,
        ⟨[2, 2], [some 0, some 0, some 8, some 8]⟩, some ⟨[2, 2], [some (-1), some (-1), some (-1), some (-1)]⟩⟩ := by
  obtain ⟨g, hg, hb⟩ := built_of_check (wm := none) (m := ⟨0, 0, -1⟩) (parts := C02_example) (by decide +kernel)
  refine ⟨g, hb, Or.inr rfl, by unfold Spec.Int32; decide, by unfold C19_weightsOk; decide +kernel, ?_⟩
  have this : (graphOf intCodec none ⟨0, 0, -1⟩ C02_example).map (fun g => decide (
    PyClient.neighbors g (Spec.vector [1, 5, 9]) [2, 0, 1, 0] (some (Spec.vector [])) =
      .ok ⟨⟨[4], [2, 3, 7, 1]⟩, ⟨[4], [7, 9, 2, 4]⟩, ⟨[4], [0, 2, 1, 0]⟩, ⟨[3], [some 3, some 1, some 0]⟩⟩ ∧
    neighborCounts g (Spec.vector [1, 5, 9]) [2, 0, 1, 0] none = .ok ⟨[3], [some 3, some 1, some 0]⟩ ∧
    nodeTypes g (Spec.vector [1, 2, 9]) 6 = .ok ⟨[3], [some 3, some 0, some 6]⟩ ∧
    sampleNeighbors g (-1) (fun _ => ⟨fun _ => 0, fun _ => (1, 2)⟩) (fun _ => 0) (Spec.vector [5, 9]) (.array [1, 0]) 2 .byweight ⟨-3, 8, 0⟩ none =
      .ok ⟨⟨[2, 2], [some 1, some 1, some (-3), some (-3)]⟩, ⟨[2, 2], [some 4, some 4, some 0, some 0]⟩,
        ⟨[2, 2], [some 0, some 0, some (-1), some (-1)]⟩, some ⟨[2, 2], [some (-1), some (-1), some (-1), some (-1)]⟩⟩ ∧
    sampleNeighbors g (-1) (fun _ => ⟨fun _ => 0, fun _ => (1, 2)⟩) (fun _ => 0) (Spec.vector [5, 9]) (.int 0) 2 .random ⟨-3, 8, 0⟩ none =
      .ok ⟨⟨[2, 2], [some 1, some 1, some (-3), some (-3)]⟩, ⟨[2, 2], [none, none, none, none]⟩,
        ⟨[2, 2], [some 0, some 0, some 8, some 8]⟩, some ⟨[2, 2], [some (-1), some (-1), some (-1), some (-1)]⟩⟩)) = some true := by
    decide +kernel
  rw [hg] at this
  exact of_decide_eq_true (Option.some.inj this)

/-- Timestamps: the hypotheses are those of C05, C06, C07 and C69, here for two nodes. -/
example : ∃ g, Built intCodec (some 9) ⟨0, 0, 9⟩ C69_example g ∧
    (∀ q ∈ ([(1, 5), (8, 2)] : List (Int × Int)), Spec.NoGap C69_example q.1 [1, 0] ∧ Spec.OrderedLifetimes C69_example q.1 ∧
      C69_weightsOk C69_example q.1 [1, 0]) ∧
    PyClient.neighbors g (Spec.vector [1, 8]) [1, 0] (some (Spec.vector [5, 2])) =
      .ok ⟨⟨[3], [2, 4, 5]⟩, ⟨[3], [1, 2, 3]⟩, ⟨[3], [0, 1, 0]⟩, ⟨[2], [some 3, some 0]⟩⟩ ∧
    neighborCounts g (Spec.vector [1, 8]) [1, 0] (some (Spec.vector [5, 2])) = .ok ⟨[2], [some 3, some 0]⟩ ∧
    PyClient.lastn g 9 (Spec.vector [8]) [1, 0] (Spec.vector [5]) 2 ⟨-3, 6, 0, -1⟩ true =
      .ok ⟨⟨[1, 2], [some (-3), some (-3)]⟩, ⟨[1, 2], [some 0, some 0]⟩, ⟨[1, 2], [some 6, some 6]⟩,
        some ⟨[1, 2], [some (-1), some (-1)]⟩⟩ := by
  obtain ⟨g, hg, hb⟩ := built_of_check (wm := some 9) (m := ⟨0, 0, 9⟩) (parts := C69_example) (by decide +kernel)
  refine ⟨g, hb, by decide +kernel, ?_⟩
  have this : (graphOf intCodec (some 9) ⟨0, 0, 9⟩ C69_example).map (fun g => decide (
    PyClient.neighbors g (Spec.vector [1, 8]) [1, 0] (some (Spec.vector [5, 2])) =
      .ok ⟨⟨[3], [2, 4, 5]⟩, ⟨[3], [1, 2, 3]⟩, ⟨[3], [0, 1, 0]⟩, ⟨[2], [some 3, some 0]⟩⟩ ∧
    neighborCounts g (Spec.vector [1, 8]) [1, 0] (some (Spec.vector [5, 2])) = .ok ⟨[2], [some 3, some 0]⟩ ∧
    PyClient.lastn g 9 (Spec.vector [8]) [1, 0] (Spec.vector [5]) 2 ⟨-3, 6, 0, -1⟩ true =
      .ok ⟨⟨[1, 2], [some (-3), some (-3)]⟩, ⟨[1, 2], [some 0, some 0]⟩, ⟨[1, 2], [some 6, some 6]⟩,
        some ⟨[1, 2], [some (-1), some (-1)]⟩⟩)) = some true := by decide +kernel
  rw [hg] at this
  exact of_decide_eq_true (Option.some.inj this)

/-- Features of two elements of two bytes. -/
example : ∃ g, Built intCodec none ⟨3, 2, -1⟩ C08_example g ∧
    nodeFeatures g 2 (Spec.vector [3, 1, 9]) [(0, 2), (2, 1)] none =
      .ok ⟨[3, 3, 2], [5, 0, 0, 0, 0, 0, 1, 2, 3, 0, 4, 0, 0, 0, 0, 0, 0, 0]⟩ ∧
    edgeFeaturesOf g 1 [(1, 5, 2), (1, 2, 0), (1, 2, 1)] [(1, 2)] none = .ok ⟨[3, 2, 1], [8, 7, 0, 0, 0, 0]⟩ ∧
    nodeStrings g 1 (Spec.vector [1, 3]) [0, 2] none = .ok (⟨[5, 1], [1, 2, 3, 4, 5]⟩, ⟨[2, 2], [3, 1, 1, 0]⟩) := by
  obtain ⟨g, hg, hb⟩ := built_of_check (wm := none) (m := ⟨3, 2, -1⟩) (parts := C08_example) (by decide +kernel)
  refine ⟨g, hb, ?_⟩
  have this : (graphOf intCodec none ⟨3, 2, -1⟩ C08_example).map (fun g => decide (
    nodeFeatures g 2 (Spec.vector [3, 1, 9]) [(0, 2), (2, 1)] none =
      .ok ⟨[3, 3, 2], [5, 0, 0, 0, 0, 0, 1, 2, 3, 0, 4, 0, 0, 0, 0, 0, 0, 0]⟩ ∧
    edgeFeaturesOf g 1 [(1, 5, 2), (1, 2, 0), (1, 2, 1)] [(1, 2)] none = .ok ⟨[3, 2, 1], [8, 7, 0, 0, 0, 0]⟩ ∧
    nodeStrings g 1 (Spec.vector [1, 3]) [0, 2] none = .ok (⟨[5, 1], [1, 2, 3, 4, 5]⟩, ⟨[2, 2], [3, 1, 1, 0]⟩))) = some true := by decide +kernel
  rw [hg] at this
  exact of_decide_eq_true (Option.some.inj this)

/-- Five nodes, of types 0, 2, 2, 0, 3: three of them have type 2 or 3, and there are samplers for types 0 and 2. -/
example : Spec.CountsOf [0, 2, 2, 0, 3] [2, 0, 2, 1] ∧ typeCount [2, 0, 2, 1] [3, 2, 3, 9, -1] = .ok 3 ∧
    samplerTypes [2, 0, 2, 1] (.inr [2, 1, 0, 7]) = .ok [0, 2] ∧ samplerTypes [2, 0, 2, 1] (.inl (-1)) = .ok [0, 2, 3] ∧
    samplerTypes [2, 0, 2, 1] (.inl 1) = .raised := by
  unfold Spec.CountsOf; decide +kernel

/-- A walk on a graph with edges in both directions, which meets the other hypotheses of `C76_node2vec_partial` (shown in C42). -/
example : ∃ g, Built intCodec none ⟨0, 0, -1⟩ C42_square g ∧
    PyClient.randomWalk g (fun _ _ => 1) (Spec.vector [2, 1]) [0] 1 2 4 (-1) = .ok ⟨[2, 2], [some 2, some 3, some 1, some 3]⟩ := by
  obtain ⟨g, hg, hb⟩ := built_of_check (wm := none) (m := ⟨0, 0, -1⟩) (parts := C42_square) (by decide +kernel)
  refine ⟨g, hb, ?_⟩
  have this : (graphOf intCodec none ⟨0, 0, -1⟩ C42_square).map (fun g => decide (
    PyClient.randomWalk g (fun _ _ => 1) (Spec.vector [2, 1]) [0] 1 2 4 (-1) = .ok ⟨[2, 2], [some 2, some 3, some 1, some 3]⟩)) = some true := by
    decide +kernel
  rw [hg] at this
  exact of_decide_eq_true (Option.some.inj this)

/-- Features of an edge at four timestamps; its record meets the hypothesis (the example of C10). -/
example : ∃ g, Built intCodec (some 30) ⟨1, 1, 30⟩ C10_example g ∧
    edgeFeaturesOf g 1 [(1, 2, 0), (1, 2, 0), (1, 2, 0), (1, 2, 0)] [(0, 1)] (some (Spec.vector [4, 5, 8, 9])) =
      .ok ⟨[4, 1, 1], [0, 7, 7, 8]⟩ ∧
    edgeFeatures g 1 (Spec.vector [1, 1]) (Spec.vector [2, 2]) (Spec.vector [0]) [(0, 1)] none = .raised := by
  obtain ⟨g, hg, hb⟩ := built_of_check (wm := some 30) (m := ⟨1, 1, 30⟩) (parts := C10_example) (by decide +kernel)
  refine ⟨g, hb, ?_⟩
  have this : (graphOf intCodec (some 30) ⟨1, 1, 30⟩ C10_example).map (fun g => decide (
    edgeFeaturesOf g 1 [(1, 2, 0), (1, 2, 0), (1, 2, 0), (1, 2, 0)] [(0, 1)] (some (Spec.vector [4, 5, 8, 9])) =
      .ok ⟨[4, 1, 1], [0, 7, 7, 8]⟩ ∧
    edgeFeatures g 1 (Spec.vector [1, 1]) (Spec.vector [2, 2]) (Spec.vector [0]) [(0, 1)] none = .raised)) = some true := by
    decide +kernel
  rw [hg] at this
  exact of_decide_eq_true (Option.some.inj this)

/-! Disagreements -/

/-- With a table of nodes of at least two columns `neighbor_counts` writes after the end of the array it allocated, on every
graph. -/
theorem C76_matrix_refuted (h : Built C wm m parts g) {rows cols : Nat} (hr : 0 < rows) (hcol : 1 < cols) (ids types : List Int)
    (hids : ids.length = rows * cols) : neighborCounts g ⟨[rows, cols], ids⟩ types none = .corrupt := by
  obtain ⟨answers, -, -, h3⟩ := C04_count_eq h ids (etypes types)
  have hlt : rows < rows * cols := by
    have := Nat.mul_lt_mul_of_pos_left hcol hr
    rwa [Nat.mul_one] at this
  simp only [neighborCounts, Arr.len, Res.bind, span, Nat.le_refl, if_true, List.take_length, tsSpan, Graph.getCounts, h3, native]
  simp only [put, List.length_map, empty, vol, List.foldr_cons, List.foldr_nil, Nat.mul_one, List.length_replicate, hids]
  exact if_neg (by omega)

/-- With such a table `node_features` returns the features of the first nodes only, as many as there are rows. -/
theorem C76_feature_matrix_refuted (g : Graph) (item : Nat) {rows cols : Nat} (hcol : 1 < cols) (ids : List Int)
    (hids : ids.length = rows * cols) (feats : List (Nat × Nat)) :
    nodeFeatures g item ⟨[rows, cols], ids⟩ feats none = nodeFeatures g item (Spec.vector (ids.take rows)) feats none := by
  have hle : rows ≤ ids.length := by rw [hids]; exact Nat.le_mul_of_pos_right rows (by omega)
  simp only [nodeFeatures, Arr.len, Spec.vector, Res.bind, span, if_pos hle, List.length_take, Nat.min_eq_left hle, Nat.le_refl, if_true,
    List.take_take, Nat.min_self]

/-- A list of timestamps that is shorter than the list of nodes is read beyond its end. -/
theorem C76_times_refuted (g : Graph) (ids types t : List Int) (h0 : t ≠ []) (h1 : t.length < ids.length) :
    neighborCounts g (Spec.vector ids) types (some (Spec.vector t)) = .corrupt ∧
    PyClient.neighbors g (Spec.vector ids) types (some (Spec.vector t)) = .corrupt := by
  have e : tsSpan (some (Spec.vector t)) ids.length = .corrupt := by
    have : t.length ≠ 0 := by simpa using h0
    simp only [tsSpan, vector_len, Res.bind, if_neg this, Res.map]
    rw [show span (Spec.vector t) ids.length = .corrupt from if_neg (Nat.not_le.2 h1)]
  constructor
  · simp only [neighborCounts, vector_len, vector_data, Res.bind, span_vector, e]
  · simp only [PyClient.neighbors, vector_len, vector_data, Res.bind, span_vector, e]

/-- The weights that uniform sampling returns are never written. -/
theorem C76_weights_refuted (g : Graph) (watermark : Int) (D : Nat → WDraws) (R : Draws) (nodes : Arr Int) (types : SamplerCache.Types)
    (count : Nat) (default : Nbr) (ts : Option (Arr Int)) (r : Sample)
    (h : sampleNeighbors g watermark D R nodes types count .random default ts = .ok r) : ∀ w ∈ r.weights.data, w = none := by
  simp only [sampleNeighbors, Res.map] at h
  cases hu : uniform g R false false (decide (0 ≤ watermark)) nodes (SamplerCache.checkTypes types) count (default.dst, default.typ) ts with
  | ok a =>
    rw [hu] at h
    obtain rfl := Res.ok.inj h
    intro w hw
    exact (List.mem_replicate.1 hw).2
  | raised => rw [hu] at h; cases h
  | corrupt => rw [hu] at h; cases h

/-- Sampling by weight ignores the default edge type: nodes that are not in the graph get the type -1. -/
theorem C76_default_refuted (h : Built C wm m parts g) (D : Nat → WDraws) (R : Draws) (hD : ∀ i, (D i).Ok) {n : Int}
    (hn : ∀ r ∈ Spec.edgeRecords parts, r.src ≠ n) (t count : Nat) : ∃ r : Sample,
      sampleNeighbors g m.watermark D R (Spec.vector [n]) (.int 0) count .byweight ⟨7, t, 0⟩ none = .ok r ∧
      r.types.data = List.replicate count (some (-1)) := by
  have hnil : Spec.neighbors parts n [0] = [] := by
    simp only [Spec.neighbors, List.map_eq_nil_iff, List.filter_eq_nil_iff, decide_eq_true_eq]
    exact fun r hr hc => hn r hr hc.1
  obtain ⟨rows, h1, h2, h3⟩ := C76_client_weighted_partial h D R hD [n] (.int 0) (Or.inl rfl) (by simp [Spec.Int32, SamplerCache.checkTypes])
    count ⟨7, t, 0⟩ (by
      intro n' hn' x hx _ _ hs
      obtain rfl := List.mem_singleton.1 hn'
      exact (hn x hx hs).elim) (by
      intro n' hn'
      obtain rfl := List.mem_singleton.1 hn'
      simp only [C19_weightsOk, SamplerCache.checkTypes, hnil]
      simp)
  refine ⟨_, h1, ?_⟩
  match rows, h2 with
  | [row], _ =>
    have := (h3 (n, row) (by simp)).2.2 (by simp [SamplerCache.checkTypes, hnil])
    simp only at this
    simp [Spec.sampleOf, Spec.table, this]

/-- A type beyond 32 bits is taken for another type. -/
theorem C76_wrap_refuted (g : Graph) (nodes : Arr Int) (ts : Option (Arr Int)) :
    PyClient.neighbors g nodes [2 ^ 32] ts = PyClient.neighbors g nodes [0] ts := by
  have : etypes [2 ^ 32] = etypes [0] := by decide +kernel
  simp only [PyClient.neighbors, this]

/-- -1 stands for all the types in a sampler, but `sample_nodes` of a client raises. -/
theorem C76_all_types_refuted (perType : List Nat) : sampleNodesTypes perType (.int (-1)) = .raised := by
  simp [sampleNodesTypes, SamplerCache.checkTypes, samplerTypes, sortUnique, insertUnique]

/-- Sampling without replacement with creation times but without timestamps writes through a null pointer. -/
theorem C76_created_refuted (g : Graph) (R : Draws) {ids : List Int} (hids : ids ≠ []) (types : List Int) {count : Nat} (hc : 0 < count)
    (default : Int × Int) : uniform g R true true true (Spec.vector ids) types count default none = .corrupt := by
  simp only [uniform, vector_len, vector_data, Res.bind, span_vector, tsSpan, Bool.and_false, Bool.not_true, Bool.false_eq_true, if_false]
  rw [if_pos]
  obtain ⟨i, hi⟩ := List.exists_mem_of_ne_nil ids hids
  exact ⟨trivial, trivial, hc, i, hi, Or.inr (Or.inl trivial)⟩

end DeepGNN
