import Verif.Proofs.Created
import Verif.Props.C16
import Verif.Proofs.CreatedWeighted

/-
C91 Creation times of edges are returned beside the neighbours they belong to.
`Spec.liveSlots` are the edges of a node in the input that exist at a timestamp, with their creation times.
-/

namespace DeepGNN

variable {C : WeightCodec} {wm : Option Nat} {m : Meta} {parts : List (List (List Rec))} {g : Graph}
  {items : List Item}

theorem found_input (hg : GraphOk C m g items parts) (n : Int) (types : List Int) (ht : types.Pairwise (· < ·))
    (hgap : Spec.NoGap parts n types) : foundEdges items n types = inputEdges parts n types := by
  apply hg.found_eq n types ht
  intro x hx hxn y hy hyn hyt hex
  obtain ⟨r, hr, h1, h2⟩ := mem_input_record hx
  obtain ⟨r', hr', h1', h2'⟩ := mem_input_record hy
  rw [← h2]
  exact hgap r hr r' hr' (by rw [h1, hxn]) (by rw [h1', hyn]) (by rw [h2']; exact hyt) (by rw [h2, h2']; exact hex)

theorem zip_time_columns {α β} (l : List (α × β)) : (l.map (·.1)).zip (l.map (·.2)) = l := by
  induction l with
  | nil => rfl
  | cons a l ih => simp [ih]

/-- All neighbours at timestamps: a row of neighbours with creation times per node, the rows concatenated in the order of the
request, their lengths, and beside every neighbour the creation time of its edge.  Missing: requests with unsorted types or a
gap in the types, see C03; creation times below 0 and removal times 0, see C05; rounded weights. -/
theorem C91_full_partial (h : Built C wm m parts g) (hwm : 0 ≤ m.watermark) (reqs : List (Int × Int)) (types : List Int)
    (ht : types.Pairwise (· < ·)) (hgap : ∀ q ∈ reqs, Spec.NoGap parts q.1 types)
    (hc : ∀ r ∈ Spec.allRecords parts, ∀ c, r.created = some c → 0 ≤ c)
    (hr : ∀ r ∈ Spec.allRecords parts, r.removed ≠ some 0) :
    ∃ rows : Int × Int → List (Nbr × Int),
      g.fullNeighbor (reqs.map (·.1)) (some (reqs.map (·.2))) types =
        some ((reqs.flatMap rows).map (·.1), reqs.map fun q => (rows q).length) ∧
      g.fullCreated m.watermark (reqs.map (·.1)) (some (reqs.map (·.2))) types = some ((reqs.flatMap rows).map (·.2)) ∧
      ∀ q ∈ reqs, (rows q).map Spec.timed = (Spec.liveSlots parts q.1 q.2 types).map Spec.unweighted ∧
        (Spec.ExactWeights parts → rows q = (Spec.liveSlots parts q.1 q.2 types).map Spec.withTime) := by
  obtain ⟨items, hg, -⟩ := h.graphOk
  refine ⟨fun q => ((foundSeen items q.1 types).filter (liveB q.2)).map fun e => (gnbr e, e.created), ?_, ?_, ?_⟩
  · simp only [Graph.fullNeighbor, zip_time_columns]
    rw [mapM_some_map _ (fun q : Int × Int => (((foundSeen items q.1 types).filter (liveB q.2)).map gnbr,
      ((foundSeen items q.1 types).filter (liveB q.2)).length)) reqs
      (fun q _ => hg.fullNeighborAt1 hwm q.1 q.2 types)]
    simp [List.flatMap_def, Function.comp_def, List.map_flatten]
  · simp only [Graph.fullCreated, zip_time_columns, hwm, if_true]
    rw [mapM_some_map _ (fun q : Int × Int => ((foundSeen items q.1 types).filter (liveB q.2)).map (·.created)) reqs
      (fun q _ => hg.fullCreatedAt1 hwm q.1 q.2 types)]
    simp [List.flatMap_def, Function.comp_def, List.map_flatten]
  · intro q hq
    have h1 := found_input hg q.1 types ht (hgap q hq)
    have h3 := inputEdges_liveSlots parts q.1 q.2 types h.acc hc hr
    refine ⟨?_, ?_⟩
    · have h2 := filter_noWeight _ _ q.2 (foundSeen_noWeight items q.1 types)
      rw [h1] at h2
      have := congrArg (List.map fun e : GEdge => (e.dst, e.typ, e.created)) h2
      rw [← h3]
      simpa [Function.comp_def, noWeight, gnbr, Spec.timed, Spec.unweighted, gslot] using this
    · intro hw
      show ((foundSeen items q.1 types).filter (liveB q.2)).map (fun e => (gnbr e, e.created)) = _
      rw [hg.seen_exact hw, h1, ← h3, List.map_map]
      rfl

/-- The same for the reply of a server. -/
theorem C91_reply_partial (h : Built C wm m parts g) (hwm : 0 ≤ m.watermark) (reqs : List (Int × Int)) (types : List Int)
    (ht : types.Pairwise (· < ·)) (hgap : ∀ q ∈ reqs, Spec.NoGap parts q.1 types)
    (hc : ∀ r ∈ Spec.allRecords parts, ∀ c, r.created = some c → 0 ≤ c)
    (hr : ∀ r ∈ Spec.allRecords parts, r.removed ≠ some 0) :
    ∃ rows : Int × Int → List (Nbr × Int),
      g.getTimed m.watermark (reqs.map (·.1)) (some (reqs.map (·.2))) types = some (Spec.timedReply (reqs.map rows)) ∧
      ∀ q ∈ reqs, (rows q).map Spec.timed = (Spec.liveSlots parts q.1 q.2 types).map Spec.unweighted ∧
        (Spec.ExactWeights parts → rows q = (Spec.liveSlots parts q.1 q.2 types).map Spec.withTime) := by
  obtain ⟨rows, h1, h2, h3⟩ := C91_full_partial h hwm reqs types ht hgap hc hr
  refine ⟨rows, ?_, h3⟩
  rw [Graph.getTimed, h1, Option.bind_some, h2]
  simp [Spec.timedReply, List.flatMap_def, Function.comp_def]

/-- In a graph without timestamps every neighbour gets the placeholder -1. -/
theorem C91_timeless (h : Built C wm m parts g) (hwm : m.watermark < 0) (nodes types : List Int) :
    ∃ nbrs counts, g.fullNeighbor nodes none types = some (nbrs, counts) ∧
      g.fullCreated m.watermark nodes none types = some (nbrs.map fun _ => -1) := by
  obtain ⟨items, hg, -⟩ := h.graphOk
  refine ⟨_, _, by
    simp only [Graph.fullNeighbor]
    rw [mapM_some_map _ (fun n => ((foundSeen items n types).map gnbr, (foundSeen items n types).length)) nodes
      (fun n _ => hg.fullNeighbor1 n types)]
    rfl, ?_⟩
  have : ¬0 ≤ m.watermark := by omega
  simp only [Graph.fullCreated, Graph.fullNeighbor, this, if_false]
  rw [mapM_some_map _ (fun n => ((foundSeen items n types).map gnbr, (foundSeen items n types).length)) nodes
      (fun n _ => hg.fullNeighbor1 n types)]
  simp only [Option.bind_eq_bind, Option.bind_some, Option.pure_def, Option.map_some, noTime, Option.some.injEq, List.map_const']

/-- Without timestamps in the request every neighbour gets the placeholder as well, for all graphs: creation times are not
returned although the edges have them. -/
theorem C91_without_timestamps_refuted (h : Built C wm m parts g) (nodes types : List Int) :
    ∃ nbrs counts, g.fullNeighbor nodes none types = some (nbrs, counts) ∧
      g.fullCreated m.watermark nodes none types = some (nbrs.map fun _ => -1) := by
  by_cases hwm : 0 ≤ m.watermark
  · obtain ⟨items, hg, -⟩ := h.graphOk
    refine ⟨_, _, by
      simp only [Graph.fullNeighbor]
      rw [mapM_some_map _ (fun n => ((foundSeen items n types).map gnbr, (foundSeen items n types).length)) nodes
        (fun n _ => hg.fullNeighbor1 n types)]
      rfl, ?_⟩
    simp only [Graph.fullCreated, hwm, if_true]
    rw [mapM_some_map _ (fun n => (foundSeen items n types).map fun _ => noTime) nodes
      (fun n _ => hg.fullCreated1 n types)]
    simp [List.map_flatten, Function.comp_def, noTime]
  · exact C91_timeless h (by omega) nodes types

/-! Samples -/

theorem found_slotsAt (h : Built C wm m parts g) (hg : GraphOk C m g items parts) (n t : Int) (types : List Int)
    (hgap : Spec.NoGap parts n types)
    (hc : ∀ r ∈ Spec.allRecords parts, ∀ c, r.created = some c → 0 ≤ c)
    (hr : ∀ r ∈ Spec.allRecords parts, r.removed ≠ some 0) :
    ((foundEdges items n (sortUnique types)).filter (liveB t)).map edgeTime =
      (Spec.liveSlots parts n t types).map Spec.sampledTime := by
  have h1 : foundEdges items n (sortUnique types) = inputEdges parts n (sortUnique types) := by
    apply hg.found_eq n _ (sortUnique_sorted types)
    intro x hx hxn y hy hyn hyt hex
    obtain ⟨r, hr, h1, h2⟩ := mem_input_record hx
    obtain ⟨r', hr', h1', h2'⟩ := mem_input_record hy
    simp only [sortUnique_mem] at hyt hex ⊢
    rw [← h2]
    exact hgap r hr r' hr' (by rw [h1, hxn]) (by rw [h1', hyn]) (by rw [h2']; exact hyt)
      (by rw [h2, h2']; exact hex)
  have h2 : Spec.liveSlots parts n t (sortUnique types) = Spec.liveSlots parts n t types := by
    simp only [Spec.liveSlots, sortUnique_mem]
  rw [h1, ← h2, ← inputEdges_liveSlots parts n t _ h.acc hc hr, List.map_map]
  rfl

/-- Uniform samples with replacement at timestamps: every entry is an edge that exists, with its creation time; without any such
edge all entries are the default with the placeholder.  Missing: as for C15. -/
theorem C91_with_partial (h : Built C wm m parts g) (hwm : 0 ≤ m.watermark) (R : Draws) (types : List Int)
    (count : Nat) (default : Int × Int) (reqs : List ((Int × Int) × List ((Int × Int) × Int)))
    (hout : ∀ q ∈ reqs, q.2.length = count)
    (hgap : ∀ q ∈ reqs, Spec.NoGap parts q.1.1 types)
    (hts : ∀ q ∈ reqs, -(2 ^ 31) ≤ q.1.2 ∧ q.1.2 < 2 ^ 31)
    (ho : ∀ q ∈ reqs, Spec.OrderedLifetimes parts q.1.1)
    (hc : ∀ r ∈ Spec.allRecords parts, ∀ c, r.created = some c → 0 ≤ c)
    (hr : ∀ r ∈ Spec.allRecords parts, r.removed ≠ some 0) (s : Nat) :
    ∃ outs s', g.createdSample R false types count default reqs s = some (outs, s') ∧
      outs.length = reqs.length ∧ ∀ y ∈ reqs.zip outs,
        Spec.Sampled ((Spec.liveSlots parts y.1.1.1 y.1.1.2 types).map Spec.sampledTime) count (default, -1) y.2 := by
  obtain ⟨items, hg, -⟩ := h.graphOk
  apply sampleNodes_spec (α := Int × Int) _ (fun a _ o =>
    Spec.Sampled ((Spec.liveSlots parts a.1 a.2 types).map Spec.sampledTime) count (default, -1) o)
  intro q hq s
  obtain rfl := hout q hq
  obtain ⟨es, bs, h3, h4, h5⟩ := hg.timedBlocks hwm q.1.1 false q.1.2 (hts q hq) (sortUnique types)
    (h.ordered hg q.1.1 hc hr (ho q hq)) (by simp)
  obtain ⟨o, s', h6, h7, h8, h9⟩ := createdWith_of_blocks R q.1.2 types default q.1.1 q.2 s h3 h4
  rw [h5, found_slotsAt h hg _ _ types (hgap q hq) hc hr] at h8 h9
  exact ⟨o, s', by simpa using h6, h7, h9, h8⟩

/-- Without replacement: distinct edges with their creation times, for nodes with at most `count` neighbours at the timestamp.
Missing: nodes with more neighbours, see `C91_overflow_refuted`, and what C16 misses. -/
theorem C91_without_partial (h : Built C wm m parts g) (hwm : 0 ≤ m.watermark) (R : Draws) (types : List Int)
    (count : Nat) (hcount : 0 < count) (default : Int × Int) (reqs : List ((Int × Int) × List ((Int × Int) × Int)))
    (hout : ∀ q ∈ reqs, q.2.length = count)
    (hfew : ∀ q ∈ reqs, (Spec.liveSlots parts q.1.1 q.1.2 types).length ≤ count)
    (hgap : ∀ q ∈ reqs, Spec.NoGap parts q.1.1 types)
    (hts : ∀ q ∈ reqs, -(2 ^ 31) ≤ q.1.2 ∧ q.1.2 < 2 ^ 31)
    (ho : ∀ q ∈ reqs, Spec.OrderedLifetimes parts q.1.1)
    (hu : ∀ q ∈ reqs, ∀ e ∈ Spec.allTimedEdges parts, e.src = q.1.1 → e.removed = none)
    (hc : ∀ r ∈ Spec.allRecords parts, ∀ c, r.created = some c → 0 ≤ c)
    (hr : ∀ r ∈ Spec.allRecords parts, r.removed ≠ some 0) (s : Nat) :
    ∃ outs s', g.createdSample R true types count default reqs s = some (outs, s') ∧
      outs.length = reqs.length ∧ ∀ y ∈ reqs.zip outs,
        Spec.Selection ((Spec.liveSlots parts y.1.1.1 y.1.1.2 types).map Spec.sampledTime)
          (List.replicate count (default, -1)) y.2 := by
  obtain ⟨items, hg, -⟩ := h.graphOk
  apply sampleNodes_spec (α := Int × Int) _ (fun a _ o =>
    Spec.Selection ((Spec.liveSlots parts a.1 a.2 types).map Spec.sampledTime) (List.replicate count (default, -1)) o)
  intro q hq s
  obtain rfl := hout q hq
  obtain ⟨es, bs, h3, h4, h5⟩ := hg.timedBlocks hwm q.1.1 true q.1.2 (hts q hq) (sortUnique types)
    (h.ordered hg q.1.1 hc hr (ho q hq)) (fun _ => h.unremoved hg q.1.1 hc hr (hu q hq))
  have h6 := (createdWithout_of_blocks R q.1.2 types default q.1.1 q.2 hcount s h3 h4).1
  rw [h5, found_slotsAt h hg _ _ types (hgap q hq) hc hr] at h6
  obtain ⟨o, s', h7, h8⟩ := h6 (by simpa using hfew q hq)
  exact ⟨o, s', by simpa using h7, h8⟩

/-- A node with more neighbours at the timestamp than are requested: the call writes beyond the array of times, for all draws. -/
theorem C91_overflow_refuted (h : Built C wm m parts g) (hwm : 0 ≤ m.watermark) (R : Draws) (types : List Int)
    (default : Int × Int) (n t : Int) (out : List ((Int × Int) × Int)) (hout : 0 < out.length)
    (hmany : out.length < (Spec.liveSlots parts n t types).length)
    (hgap : Spec.NoGap parts n types) (hts : -(2 ^ 31) ≤ t ∧ t < 2 ^ 31) (ho : Spec.OrderedLifetimes parts n)
    (hu : ∀ e ∈ Spec.allTimedEdges parts, e.src = n → e.removed = none)
    (hc : ∀ r ∈ Spec.allRecords parts, ∀ c, r.created = some c → 0 ≤ c)
    (hr : ∀ r ∈ Spec.allRecords parts, r.removed ≠ some 0) (s : Nat) :
    g.createdSample R true types out.length default [((n, t), out)] s = none := by
  obtain ⟨items, hg, -⟩ := h.graphOk
  obtain ⟨es, bs, h3, h4, h5⟩ := hg.timedBlocks hwm n true t hts (sortUnique types)
    (h.ordered hg n hc hr ho) (fun _ => h.unremoved hg n hc hr hu)
  have h6 := (createdWithout_of_blocks R t types default n out hout s h3 h4).2
  rw [h5, found_slotsAt h hg _ _ types hgap hc hr] at h6
  simp [Graph.createdSample, sampleNodes, h6 (by simpa using hmany)]

/-- In a temporal graph without timestamps in the request nothing is written for a node with neighbours: the caller reads what
was in memory before. -/
theorem C91_unwritten_refuted (total : Nat) (ht : 0 < total) (old : List Int) : untimedTimes false total old = old := by
  simp [untimedTimes, ht]

theorem entries_mapM_erase {w : Bool} {ts : Int} {types : List Int} (es : List (Partition × Nat))
    (bs : List (List (List ((Int × Int) × Int)))) (h : es.mapM (fun (x : Partition × Nat) => match x with
      | (p, id) => p.timedBlocks w id ts types) = some bs) :
    es.mapM (fun (x : Partition × Nat) => match x with
      | (p, id) => p.sampleBlocks w id (some ts) types) = some (bs.map (·.map (·.map (·.1)))) := by
  induction es generalizing bs with
  | nil => obtain rfl : [] = bs := by simpa using h
           rfl
  | cons x es ih =>
    rw [List.mapM_cons] at h ⊢
    obtain ⟨b, h1, h2⟩ := Option.bind_eq_some_iff.1 h
    obtain ⟨bs', h3, h4⟩ := Option.bind_eq_some_iff.1 h2
    obtain rfl : b :: bs' = bs := by simpa using h4
    obtain ⟨p, id⟩ := x
    have h5 : p.sampleBlocks w id (some ts) types = some (b.map (·.map (·.1))) := timedBlocks_erase h1
    simp only [ih bs' h3, h5]
    rfl

theorem sum_erase (bs : List (List (List ((Int × Int) × Int)))) :
    ((bs.map (·.map (·.map (·.1)))).flatten.map List.length).sum = (bs.flatten.map List.length).sum := by
  simp [length_flatten2, List.map_flatten, Function.comp_def]

/-- Asking for creation times does not change what is sampled: with the same draws the neighbours are those of the call without
them. -/
theorem C91_same_sample (g : Graph) (R : Draws) (w : Bool) (types : List Int) (count : Nat) (hcount : 0 < count)
    (default : Int × Int) (reqs : List ((Int × Int) × List ((Int × Int) × Int))) (hout : ∀ q ∈ reqs, q.2.length = count) (s : Nat)
    (outs : List (List ((Int × Int) × Int))) (s' : Nat)
    (h : g.createdSample R w types count default reqs s = some (outs, s')) :
    g.uniformSample R w types count default (reqs.map fun q => ((q.1.1, some q.1.2), q.2.map (·.1))) s =
      some (outs.map (·.map (·.1)), s') := by
  induction reqs generalizing s outs with
  | nil =>
    simp only [Graph.createdSample, sampleNodes, Option.some.injEq, Prod.mk.injEq] at h
    obtain ⟨rfl, rfl⟩ := h
    rfl
  | cons q reqs ih =>
    simp only [Graph.createdSample, Graph.uniformSample, sampleNodes, List.map_cons] at h ih ⊢
    obtain ⟨⟨o, s1⟩, h1, h2⟩ := Option.bind_eq_some_iff.1 h
    obtain ⟨⟨os, s2⟩, h3, h4⟩ := Option.bind_eq_some_iff.1 h2
    obtain ⟨rfl, rfl⟩ : o :: os = outs ∧ s2 = s' := by simpa using h4
    have hlen := hout q (by simp)
    have key : (if w = true then g.sampleWithout1 R (some q.1.2) types count default q.1.1 (q.2.map (·.1)) s
        else g.sampleWith1 R (some q.1.2) types count default q.1.1 (q.2.map (·.1)) s) = some (o.map (·.1), s1) := by
      cases w with
      | true =>
        simp only [if_true] at h1 ⊢
        simp only [Graph.createdWithout1, Graph.sampleWithout1] at h1 ⊢
        obtain ⟨es, h5, h6⟩ := Option.bind_eq_some_iff.1 h1
        obtain ⟨bs, h7, h8⟩ := Option.bind_eq_some_iff.1 h6
        obtain ⟨⟨o', a, s3⟩, h9, h10⟩ := Option.bind_eq_some_iff.1 h8
        have hf := foldlM_map_state (fun x : List ((Int × Int) × Int) × AlgL × Nat => (x.1.map (·.1), x.2))
          (fun xs : List ((Int × Int) × Int) => xs.map (·.1)) (fun st xs => AlgL.add R (store xs) xs.length st)
          (fun st xs => AlgL.add R (store xs) xs.length st) (by
            intro st xs
            simpa using AlgL.add_map R (List.map (·.1)) (store xs) (store (xs.map (·.1)))
              (store_map (·.1) xs) xs.length st) bs.flatten (q.2, ({ k := count } : AlgL), s)
        rw [h9] at hf
        have hmf : bs.flatten.map (fun xs : List ((Int × Int) × Int) => xs.map (·.1)) = (bs.map (·.map (·.map (·.1)))).flatten := by
          simp [List.map_flatten]
        rw [hmf] at hf
        simp only [Option.bind_eq_bind] at *
        rw [h5, Option.bind_some, entries_mapM_erase es bs h7, Option.bind_some, hf]
        simp only [Option.map_some, Option.bind_some, sum_erase]
        split at h10
        · exact absurd h10 (by simp)
        · obtain ⟨rfl, rfl⟩ := Prod.mk.inj (Option.some.inj h10)
          have hol : o'.length = count := by
            obtain ⟨o2, a2, s2', e1, e2, -⟩ := AlgL.run_selection R bs.flatten q.2 (by omega) s
            simp only [AlgL.run, hlen] at e1
            rw [e1] at h9
            obtain ⟨rfl, -⟩ : o2 = o' ∧ _ := by simpa using h9
            omega
          simp only [pure, Option.some.injEq, Prod.mk.injEq, and_true]
          split
          · simp [List.map_take]
          · rename_i ha hb
            have : (bs.flatten.map List.length).sum = count := by omega
            rw [this, ← hol]
            simp
      | false =>
        simp only [Bool.false_eq_true, if_false] at h1 ⊢
        simp only [Graph.createdWith1, Graph.sampleWith1] at h1 ⊢
        obtain ⟨es, h5, h6⟩ := Option.bind_eq_some_iff.1 h1
        obtain ⟨bs, h7, h8⟩ := Option.bind_eq_some_iff.1 h6
        obtain ⟨⟨o', a, s3⟩, h9, h10⟩ := Option.bind_eq_some_iff.1 h8
        have hf := foldlM_map_state (fun x : List ((Int × Int) × Int) × Nat × Nat => (x.1.map (·.1), x.2))
          (fun xs : List ((Int × Int) × Int) => xs.map (·.1)) (fun st xs => withReplacementAdd R (store xs) count xs.length st)
          (fun st xs => withReplacementAdd R (store xs) count xs.length st) (by
            intro st xs
            simpa using withReplacementAdd_map R (List.map (·.1)) (store xs) (store (xs.map (·.1)))
              (store_map (·.1) xs) count xs.length st) bs.flatten (q.2, 0, s)
        rw [h9] at hf
        have hmf : bs.flatten.map (fun xs : List ((Int × Int) × Int) => xs.map (·.1)) = (bs.map (·.map (·.map (·.1)))).flatten := by
          simp [List.map_flatten]
        rw [hmf] at hf
        simp only [Option.bind_eq_bind] at *
        rw [h5, Option.bind_some, entries_mapM_erase es bs h7, Option.bind_some, hf]
        simp only [Option.map_some, Option.bind_some, sum_erase]
        split at h10
        · obtain ⟨rfl, rfl⟩ := Prod.mk.inj (Option.some.inj h10)
          rename_i hpos
          rw [if_pos hpos]
          rfl
        · obtain ⟨rfl, rfl⟩ := Prod.mk.inj (Option.some.inj h10)
          rename_i hpos
          have h0 : (bs.flatten.map List.length).sum = 0 := by omega
          have hol : o'.length = count := by
            obtain ⟨o2, a2, s2', e1, e2⟩ := withReplacement_run R count bs.flatten (all := []) (out0 := q.2)
              ⟨rfl, hlen, fun _ => rfl, by simp⟩ s
            rw [show List.foldlM (fun st (xs : List ((Int × Int) × Int)) => withReplacementAdd R (store xs) count xs.length st)
              (q.2, 0, s) bs.flatten = _ from e1] at h9
            obtain ⟨rfl, -⟩ : o2 = o' ∧ _ := by simpa using h9
            exact e2.len
          rw [if_neg hpos, h0]
          by_cases hcz : 0 < count
          · simp [hcz]
          · have : o' = [] := List.length_eq_zero_iff.1 (by omega)
            simp [this, hcz]
    rw [key]
    have := ih (fun q hq => hout q (by simp [hq])) s1 os h3
    simp only [Option.bind_eq_bind] at this ⊢
    simp [this]

/-! Weighted samples -/

theorem sampleNodes_sim {α β γ} (q : α → List β → Nat → Option (List β × Nat)) (q' : α → List γ → Nat → Option (List γ × Nat))
    (f : β → γ) (P : α → List β → Prop) (l : List (α × List β)) (s : Nat)
    (h : ∀ x ∈ l, ∀ s, ∃ o s', q x.1 x.2 s = some (o, s') ∧ q' x.1 (x.2.map f) s = some (o.map f, s') ∧ P x.1 o) :
    ∃ os s', sampleNodes q l s = some (os, s') ∧
      sampleNodes q' (l.map fun x => (x.1, x.2.map f)) s = some (os.map (·.map f), s') ∧ os.length = l.length ∧
      ∀ y ∈ l.zip os, P y.1.1 y.2 := by
  induction l generalizing s with
  | nil => exact ⟨[], s, rfl, rfl, rfl, by simp⟩
  | cons x l ih =>
    obtain ⟨o, s1, h1, h2, h3⟩ := h x (by simp) s
    obtain ⟨os, s2, h4, h5, h6, h7⟩ := ih s1 (fun x hx => h x (by simp [hx]))
    refine ⟨o :: os, s2, by simp [sampleNodes, h1, h4], by simp [sampleNodes, h2, h5], by simp [h6], ?_⟩
    intro y hy
    rw [List.zip_cons_cons] at hy
    rcases List.mem_cons.1 hy with rfl | hy
    · exact h3
    · exact h7 y hy

/-- Weighted samples at timestamps, for all draws: the neighbours are those of the call without creation times, every entry is an
edge that exists, with its weight and its creation time; if the total weight is 0 all entries are the default with the
placeholder.  Missing: as for C69. -/
theorem C91_weighted_partial (h : Built C wm m parts g) (hwm : 0 ≤ m.watermark) (D : Nat → WDraws) (hD : ∀ i, (D i).Ok)
    (types : List Int) (count : Nat) (default : Nbr) (reqs : List ((Int × Int) × List (Nbr × Int)))
    (hout : ∀ q ∈ reqs, q.2.length = count)
    (hgap : ∀ q ∈ reqs, Spec.NoGap parts q.1.1 types) (hts : ∀ q ∈ reqs, -(2 ^ 31) ≤ q.1.2 ∧ q.1.2 < 2 ^ 31)
    (ho : ∀ q ∈ reqs, Spec.OrderedLifetimes parts q.1.1) (hrem : ∀ q ∈ reqs, C69_removals parts q.1.1)
    (hw : ∀ q ∈ reqs, C69_weightsOk parts q.1.1 types)
    (hc : ∀ r ∈ Spec.allRecords parts, ∀ c, r.created = some c → 0 ≤ c)
    (hr : ∀ r ∈ Spec.allRecords parts, r.removed ≠ some 0) (s : Nat) :
    ∃ outs s', g.weightedCreated D types count default reqs s = some (outs, s') ∧
      g.weightedSampleAt D types count default (reqs.map fun q => (q.1, q.2.map (·.1))) s = some (outs.map (·.map (·.1)), s') ∧
      outs.length = reqs.length ∧ ∀ y ∈ reqs.zip outs, y.2.length = count ∧
        (0 < ((Spec.liveSlots parts y.1.1.1 y.1.1.2 types).map (·.weight)).sum →
          ∀ x ∈ y.2, x ∈ (Spec.liveSlots parts y.1.1.1 y.1.1.2 types).map Spec.withTime) ∧
        (((Spec.liveSlots parts y.1.1.1 y.1.1.2 types).map (·.weight)).sum = 0 → y.2 = List.replicate count (default, -1)) := by
  obtain ⟨items, hg, -⟩ := h.graphOk
  apply sampleNodes_sim (fun n out s => g.weightedCreated1 D types count default n out s)
    (fun n out s => g.weightedSampleAt1 D types count default n out s) (·.1) (fun n o => o.length = count ∧
        (0 < ((Spec.liveSlots parts n.1 n.2 types).map (·.weight)).sum →
          ∀ x ∈ o, x ∈ (Spec.liveSlots parts n.1 n.2 types).map Spec.withTime) ∧
        (((Spec.liveSlots parts n.1 n.2 types).map (·.weight)).sum = 0 → o = List.replicate count (default, -1)))
  intro q hq s
  obtain ⟨es, txsss, lsss, h1, h2, h3, h4, h5, h6⟩ := readTimed_spec h hg hwm q.1.1 q.1.2 types (hgap q hq) (hts q hq) (ho q hq)
    (hrem q hq) hc hr (hw q hq)
  have hsum : tsum lsss.flatten.flatten.flatten = ((Spec.liveSlots parts q.1.1 q.1.2 types).map (·.weight)).sum := by
    rw [h4, tsum, nsum, List.map_map, List.map_map]; rfl
  have hle := neighborsAt_le h hc hr q.1.1 q.1.2 types (hw q hq)
  have hnb : Spec.neighborsAt parts q.1.1 q.1.2 types = ((Spec.liveSlots parts q.1.1 q.1.2 types).map Spec.withTime).map (·.1) := by
    rw [← inputEdges_neighborsAt parts q.1.1 q.1.2 _ h.acc hc hr, ← inputEdges_liveSlots parts q.1.1 q.1.2 _ h.acc hc hr,
      List.map_map, List.map_map]
    rfl
  rw [hnb, ← h4] at hle
  cases hnm : g.nodeMap q.1.1 with
  | none =>
    refine ⟨List.replicate count (default, noTime), s, by simp only [Graph.weightedCreated1, hnm],
      by simp only [Graph.weightedSampleAt1, hnm, List.map_replicate], by simp, ?_, fun _ => rfl⟩
    rw [← hsum, h5 hnm]
    intro h; exact absurd h (by simp [tsum])
  | some off =>
    obtain ⟨o, s', e1, e2, e3, e4, e5⟩ := createdEntries_spec D hD q.1.2 (sortUnique types) count default es txsss h2 lsss h3 []
      q.2 0 s (by omega) (by rw [tsum]; omega) (hout q hq) (fun _ hl => absurd hl (h6 (by rw [hnm]; simp)))
      (fun h => by omega)
    rw [Int.zero_add, hsum] at e4 e5
    refine ⟨o, s', by simp only [Graph.weightedCreated1, hnm, h1, Option.bind_some]; exact e1,
      by simp only [Graph.weightedSampleAt1, hnm, h1, Option.bind_some]; exact e2, e3, ?_, e4⟩
    intro hp x hx
    have := e5 hp x hx
    rwa [List.nil_append, h4] at this

/-- Without timestamps in the request, a node with a positive weight in its first partition: nothing is written, the caller reads
what was in memory before. -/
theorem C91_weighted_unwritten_refuted (total : Int) (rest : List Int) (hp : 0 < total) (hn : ∀ x ∈ rest, 0 ≤ x)
    (hle : total + rest.sum ≤ 2 ^ 24) (old : List Int) : untimedWeighted (some (total :: rest)) old = old := by
  have key : ∀ (l : List Int) (acc : Int), 0 < acc → (∀ x ∈ l, 0 ≤ x) → acc + l.sum ≤ 2 ^ 24 →
      (l.foldl (fun (st : List Int × Int) total =>
        let acc := f32 (st.2 + total)
        if total = 0 ∧ acc = 0 then (List.replicate old.length noTime, acc) else (st.1, acc)) (old, acc)).1 = old := by
    intro l
    induction l with
    | nil => intro _ _ _ _; rfl
    | cons a l ih =>
      intro acc h1 h2 h3
      have ha := h2 a (by simp)
      have hs : 0 ≤ l.sum := by
        clear ih h3
        induction l with
        | nil => simp
        | cons b l ih =>
          have := ih (fun x hx => h2 x (by
            rcases List.mem_cons.1 hx with rfl | hx
            · simp
            · simp [hx]))
          have := h2 b (by simp)
          simp; omega
      rw [List.sum_cons] at h3
      rw [List.foldl_cons]
      simp only [f32_small (show (acc + a).natAbs ≤ 2 ^ 24 by omega)]
      rw [if_neg (by omega)]
      exact ih (acc + a) (by omega) (fun x hx => h2 x (by simp [hx])) (by omega)
  have hs : 0 ≤ rest.sum := by
    clear key hle
    induction rest with
    | nil => simp
    | cons b l ih =>
      have := ih (fun x hx => hn x (by simp [hx]))
      have := hn b (by simp)
      simp; omega
  simp only [untimedWeighted, List.foldl_cons]
  simp only [Int.zero_add, f32_small (show total.natAbs ≤ 2 ^ 24 by omega)]
  rw [if_neg (by omega)]
  exact key rest total hp hn hle

/-! Several servers -/

/-- `n` nodes are queried; server `i` answers `answers[i]`, one list of neighbours with creation times per node.  In all orders
of events the client returns, node after node, the answers of the servers in their configured order: every creation time stays
beside its neighbour. -/
theorem C91_merge (n : Nat) (answers : List (List (List (Nbr × Int)))) (hne : answers ≠ []) (evs : List (Ev TimedReply))
    (h : Spec.Schedule (answers.map Spec.timedReply) evs) :
    remoteTimed n evs answers.length =
      some (some ((List.range n).flatMap fun k => answers.flatMap fun l => l.getD k [],
        (List.range n).map fun k => (answers.flatMap fun l => l.getD k []).length)) := by
  have := waitAll_eq (fun rs => mergeTimedNodes 0 n (rs.map fun r => (r, 0))) ⟨[], [], []⟩ (answers.map Spec.timedReply)
    (by simpa using hne) evs h
  rw [List.length_map] at this
  rw [remoteTimed, this]
  congr 1
  rw [List.map_map]
  exact (mergeTimedNodes_eq n 0 answers).trans (by rw [← List.range_eq_range'])

theorem liveSlots_servers (servers : List (List (List (List Rec)) × Graph)) (n t : Int) (types : List Int) :
    Spec.liveSlots (servers.flatMap (·.1)) n t types = servers.flatMap fun s => Spec.liveSlots s.1 n t types := by
  induction servers with
  | nil => rfl
  | cons s servers ih =>
    rw [List.flatMap_cons, List.flatMap_cons, ← ih]
    simp [Spec.liveSlots, Spec.allTimedEdges]

theorem mapM_choose {α β γ} (f : α → Option γ) (F : β → γ) (P : α → β → Prop) (l : List α)
    (h : ∀ a ∈ l, ∃ b, f a = some (F b) ∧ P a b) :
    ∃ bs, l.mapM f = some (bs.map F) ∧ bs.length = l.length ∧ ∀ x ∈ l.zip bs, P x.1 x.2 := by
  induction l with
  | nil => exact ⟨[], rfl, rfl, by simp⟩
  | cons a l ih =>
    obtain ⟨b, h1, h2⟩ := h a (by simp)
    obtain ⟨bs, h3, h4, h5⟩ := ih fun a ha => h a (by simp [ha])
    refine ⟨b :: bs, by simp [List.mapM_cons, h1, h3], by simp [h4], ?_⟩
    intro x hx
    rw [List.zip_cons_cons] at hx
    rcases List.mem_cons.1 hx with rfl | hx
    · exact h2
    · exact h5 x hx

theorem flatMap_zip_map {α β γ δ} (l : List α) (bs : List β) (hl : bs.length = l.length) (F : β → List γ) (G : α → List γ) (f : γ → δ)
    (h : ∀ x ∈ l.zip bs, (F x.2).map f = (G x.1).map f) : (bs.flatMap F).map f = (l.flatMap G).map f := by
  induction l generalizing bs with
  | nil => obtain rfl := List.length_eq_zero_iff.1 hl; rfl
  | cons a l ih =>
    match bs, hl with
    | b :: bs, hl =>
      rw [List.flatMap_cons, List.flatMap_cons, List.map_append, List.map_append, h (a, b) (by simp),
        ih bs (by simpa using hl) fun x hx => h x (by simp [hx])]

/-- Servers that hold the parts of a temporal graph: in all orders of replies the client returns for every node its edges in
the whole input that exist at the timestamp, each with its creation time. -/
theorem C91_remote_partial (servers : List (List (List (List Rec)) × Graph)) (hne : servers ≠ []) (hwm : 0 ≤ m.watermark)
    (hs : ∀ s ∈ servers, Built C wm m s.1 s.2) (reqs : List (Int × Int)) (types : List Int)
    (ht : types.Pairwise (· < ·)) (hgap : ∀ s ∈ servers, ∀ q ∈ reqs, Spec.NoGap s.1 q.1 types)
    (hc : ∀ s ∈ servers, ∀ r ∈ Spec.allRecords s.1, ∀ c, r.created = some c → 0 ≤ c)
    (hr : ∀ s ∈ servers, ∀ r ∈ Spec.allRecords s.1, r.removed ≠ some 0) :
    ∃ replies, servers.mapM (fun s => s.2.getTimed m.watermark (reqs.map (·.1)) (some (reqs.map (·.2))) types) = some replies ∧
      ∀ evs, Spec.Schedule replies evs → ∃ rows : List (List (Nbr × Int)),
        remoteTimed reqs.length evs servers.length = some (some (rows.flatten, rows.map List.length)) ∧
        rows.map (·.map Spec.timed) =
          reqs.map fun q => (Spec.liveSlots (servers.flatMap (·.1)) q.1 q.2 types).map Spec.unweighted := by
  obtain ⟨answers, h1, h2, h3⟩ := mapM_choose
    (fun s : List (List (List Rec)) × Graph => s.2.getTimed m.watermark (reqs.map (·.1)) (some (reqs.map (·.2))) types)
    Spec.timedReply (fun s l => l.map (·.map Spec.timed) = reqs.map fun q => (Spec.liveSlots s.1 q.1 q.2 types).map Spec.unweighted)
    servers (by
      intro s hsm
      obtain ⟨rows, e1, e2⟩ := C91_reply_partial (hs s hsm) hwm reqs types ht (hgap s hsm) (hc s hsm) (hr s hsm)
      refine ⟨_, e1, ?_⟩
      rw [List.map_map]
      exact List.map_congr_left fun q hq => (e2 q hq).1)
  refine ⟨_, h1, fun evs hev => ?_⟩
  have hane : answers ≠ [] := by
    intro e; rw [e] at h2
    exact hne (List.length_eq_zero_iff.1 h2.symm)
  have hm := C91_merge reqs.length answers hane evs hev
  rw [h2] at hm
  refine ⟨(List.range reqs.length).map fun k => answers.flatMap fun l => l.getD k [], ?_, ?_⟩
  · rw [hm, List.flatMap_def, List.map_map]
    rfl
  · apply List.ext_getElem (by simp)
    intro k hk1 hk2
    have hk : k < reqs.length := by simpa using hk2
    simp only [List.getElem_map, List.getElem_range]
    clear hk1
    generalize hq : reqs[k] = q
    rw [liveSlots_servers, List.map_flatMap, List.map_flatMap]
    clear hk2 hm hane hev h1 hne hs hgap hc hr
    induction servers generalizing answers with
    | nil => obtain rfl := List.length_eq_zero_iff.1 h2; rfl
    | cons s servers ih =>
      match answers, h2, h3 with
      | l :: answers, h2, h3 =>
        rw [List.flatMap_cons, List.flatMap_cons, ih answers (by simpa using h2) fun x hx => h3 x (by simp [hx])]
        congr 1
        have := congrArg (fun l => l[k]?) (h3 (s, l) (by simp))
        simp only [List.getElem?_map, List.getElem?_eq_getElem hk, hq, Option.map_some] at this
        obtain ⟨r, e1, e2⟩ := Option.map_eq_some_iff.1 this
        simp [List.getD, e1, e2]

/-! Examples -/

/-- Edges of node 1 from two files, one of them removed at 4. -/
def C91_example : List (List (List Rec)) :=
  [[[⟨1, -1, 0, 1, none, none, []⟩, ⟨1, 2, 0, 1, some 0, none, []⟩, ⟨1, 3, 0, 2, some 3, some 4, []⟩]],
   [[⟨1, -1, 0, 1, none, none, []⟩, ⟨1, 5, 1, 3, some 2, none, []⟩]]]

/-- Non-vacuity: node 1 at times 3 and 4. -/
example : ∃ g, Built intCodec (some 9) ⟨0, 0, 9⟩ C91_example g ∧
    g.fullNeighbor [1, 1] (some [3, 4]) [0, 1] =
      some ([⟨2, 0, 1⟩, ⟨3, 0, 2⟩, ⟨5, 1, 3⟩, ⟨2, 0, 1⟩, ⟨5, 1, 3⟩], [3, 2]) ∧
    g.fullCreated 9 [1, 1] (some [3, 4]) [0, 1] = some [0, 3, 2, 0, 2] := by
  obtain ⟨g, -, hb⟩ := built_of_check (wm := some 9) (m := ⟨0, 0, 9⟩) (parts := C91_example) (by decide +kernel)
  obtain ⟨rows, h1, h2, h3⟩ := C91_full_partial hb (by decide) [(1, 3), (1, 4)] [0, 1] (by decide) (by decide +kernel) (by
      intro r hr c hc
      have : ∀ r ∈ Spec.allRecords C91_example, 0 ≤ r.created.getD 0 := by decide +kernel
      simpa [hc] using this r hr) (by decide +kernel)
  have e : Spec.ExactWeights C91_example := by
    refine C02_exact_of_small _ (by decide +kernel) fun n t => ?_
    have : Spec.edgeRecords C91_example = [⟨1, 2, 0, 1, some 0, none, []⟩, ⟨1, 3, 0, 2, some 3, some 4, []⟩,
      ⟨1, 5, 1, 3, some 2, none, []⟩] := by decide +kernel
    rw [this]
    simp only [List.filter_cons, List.filter_nil]
    repeat' split
    all_goals simp
  have e1 := (h3 (1, 3) (by simp)).2 e
  have e2 := (h3 (1, 4) (by simp)).2 e
  have f1 : (Spec.liveSlots C91_example 1 3 [0, 1]).map Spec.withTime =
    [(⟨2, 0, 1⟩, 0), (⟨3, 0, 2⟩, 3), (⟨5, 1, 3⟩, 2)] := by decide +kernel
  have f2 : (Spec.liveSlots C91_example 1 4 [0, 1]).map Spec.withTime = [(⟨2, 0, 1⟩, 0), (⟨5, 1, 3⟩, 2)] := by decide +kernel
  rw [f1] at e1
  rw [f2] at e2
  refine ⟨g, hb, ?_, ?_⟩
  · simpa [e1, e2] using h1
  · simpa [e1, e2] using h2

/-- Non-vacuity of the statements about samples: the edges of `C16_forever` at time 3, and too few places at time 5. -/
example (R : Draws) : ∃ g, Built intCodec (some 9) ⟨0, 0, 9⟩ C16_forever g ∧
    (∃ outs s', g.createdSample R false [0] 2 (-1, -1) [((1, 3), [((9, 9), 9), ((9, 9), 9)])] 0 = some (outs, s') ∧
      ∃ o, outs = [o] ∧ Spec.Sampled [((2, 0), 0), ((3, 0), 1)] 2 ((-1, -1), -1) o) ∧
    (∃ outs s', g.createdSample R true [0] 2 (-1, -1) [((1, 3), [((9, 9), 9), ((9, 9), 9)])] 0 = some (outs, s') ∧
      ∃ o, outs = [o] ∧ Spec.Selection [((2, 0), 0), ((3, 0), 1)] [((-1, -1), -1), ((-1, -1), -1)] o) ∧
    g.createdSample R true [0] 2 (-1, -1) [((1, 5), [((9, 9), 9), ((9, 9), 9)])] 0 = none := by
  obtain ⟨g, -, hb⟩ := built_of_check (wm := some 9) (m := ⟨0, 0, 9⟩) (parts := C16_forever) (by decide +kernel)
  have hc : ∀ r ∈ Spec.allRecords C16_forever, ∀ c, r.created = some c → 0 ≤ c := by
    intro r hr c hc
    have : ∀ r ∈ Spec.allRecords C16_forever, 0 ≤ r.created.getD 0 := by decide +kernel
    simpa [hc] using this r hr
  have f : (Spec.liveSlots C16_forever 1 3 [0]).map Spec.sampledTime = [((2, 0), 0), ((3, 0), 1)] := by decide +kernel
  refine ⟨g, hb, ?_, ?_, ?_⟩
  · obtain ⟨outs, s', h1, h2, h3⟩ := C91_with_partial hb (by decide) R [0] 2 (-1, -1)
      [((1, 3), [((9, 9), 9), ((9, 9), 9)])] (by decide) (by decide +kernel) (by decide) (by decide +kernel) hc (by decide +kernel) 0
    refine ⟨outs, s', h1, ?_⟩
    match outs, h2, h3 with
    | [a], _, h3 =>
      have := h3 (((1, 3), [((9, 9), 9), ((9, 9), 9)]), a) (by simp)
      rw [f] at this
      exact ⟨a, rfl, this⟩
  · obtain ⟨outs, s', h1, h2, h3⟩ := C91_without_partial hb (by decide) R [0] 2 (by decide) (-1, -1)
      [((1, 3), [((9, 9), 9), ((9, 9), 9)])] (by decide) (by decide +kernel) (by decide +kernel) (by decide) (by decide +kernel)
      (by decide +kernel) hc (by decide +kernel) 0
    refine ⟨outs, s', h1, ?_⟩
    match outs, h2, h3 with
    | [a], _, h3 =>
      have := h3 (((1, 3), [((9, 9), 9), ((9, 9), 9)]), a) (by simp)
      rw [f] at this
      exact ⟨a, rfl, this⟩
  · exact C91_overflow_refuted hb (by decide) R [0] (-1, -1) 1 5 [((9, 9), 9), ((9, 9), 9)] (by decide) (by decide +kernel)
      (by decide +kernel) (by decide) (by decide +kernel) (by decide +kernel) hc (by decide +kernel) 0

/-- Non-vacuity of the statement without timestamps: two edges with creation times 0 and 2 at time 4. -/
example : ∃ g, Built intCodec (some 9) ⟨0, 0, 9⟩ C91_example g ∧
    (Spec.liveSlots C91_example 1 4 [0, 1]).map (·.created) = [0, 2] ∧
    g.fullCreated 9 [1] none [0, 1] = some [-1, -1, -1] := by
  obtain ⟨g, hg, hb⟩ := built_of_check (wm := some 9) (m := ⟨0, 0, 9⟩) (parts := C91_example) (by decide +kernel)
  refine ⟨g, hb, by decide +kernel, ?_⟩
  have : (graphOf intCodec (some 9) ⟨0, 0, 9⟩ C91_example).bind (fun g => g.fullCreated 9 [1] none [0, 1]) =
    some [-1, -1, -1] := by decide +kernel
  rw [hg] at this
  exact this

/-- Two servers; the second one answers first. -/
example : remoteTimed 1 [Ev.recv 1 ⟨[1], [⟨5, 1, 3⟩], [2]⟩, Ev.run 1, Ev.recv 0 ⟨[2], [⟨2, 0, 1⟩, ⟨3, 0, 2⟩], [0, 3]⟩, Ev.run 0] 2 =
    some (some ([(⟨2, 0, 1⟩, 0), (⟨3, 0, 2⟩, 3), (⟨5, 1, 3⟩, 2)], [3])) :=
  C91_merge 1 [[[(⟨2, 0, 1⟩, 0), (⟨3, 0, 2⟩, 3)]], [[(⟨5, 1, 3⟩, 2)]]] (by decide) _ ⟨by decide, by decide⟩

/-- Non-vacuity: at time 5 the edges of node 1 to 2, 4 and 5 exist, created at 2, 4 and 3. -/
example (D : Nat → WDraws) (hD : ∀ i, (D i).Ok) :
    ∃ g, Built intCodec (some 9) ⟨0, 0, 9⟩ C69_example g ∧
    ∃ o s', g.weightedCreated D [0, 1] 2 ⟨0, -1, 0⟩ [((1, 5), [(⟨9, 9, 9⟩, 7), (⟨9, 9, 9⟩, 7)])] 0 = some ([o], s') ∧ o.length = 2 ∧
      ∀ x ∈ o, x = (⟨2, 0, 1⟩, 2) ∨ x = (⟨4, 1, 2⟩, 4) ∨ x = (⟨5, 0, 3⟩, 3) := by
  obtain ⟨g, -, hb⟩ := built_of_check (wm := some 9) (m := ⟨0, 0, 9⟩) (parts := C69_example) (by decide +kernel)
  obtain ⟨outs, s', h1, -, h2, h3⟩ := C91_weighted_partial hb (by decide) D hD [0, 1] 2 ⟨0, -1, 0⟩
    [((1, 5), [(⟨9, 9, 9⟩, 7), (⟨9, 9, 9⟩, 7)])]
    (by decide) (by decide +kernel) (by decide) (by decide +kernel) (by
      intro q _
      exact C69_removals_of (parts := C69_example) (by decide +kernel)) (by decide +kernel)
    (C69_created_of (parts := C69_example) (by decide +kernel)) (by decide +kernel) 0
  match outs, h2, h3 with
  | [o], _, h3 =>
    refine ⟨g, hb, o, s', h1, ?_⟩
    obtain ⟨e1, e2, -⟩ := h3 (((1, 5), [(⟨9, 9, 9⟩, 7), (⟨9, 9, 9⟩, 7)]), o) (by simp)
    refine ⟨e1, fun x hx => ?_⟩
    have := e2 (show 0 < ((Spec.liveSlots C69_example 1 5 [0, 1]).map (·.weight)).sum by decide +kernel) x hx
    simp only [] at this
    rw [show (Spec.liveSlots C69_example 1 5 [0, 1]).map Spec.withTime = [(⟨2, 0, 1⟩, 2), (⟨4, 1, 2⟩, 4), (⟨5, 0, 3⟩, 3)] by
      decide +kernel] at this
    simpa using this

/-- A node of weight 3 keeps what was in memory; a node without weight and an unknown node get placeholders. -/
example : untimedWeighted (some [3, 0]) [77, 78] = [77, 78] ∧ untimedWeighted (some [0]) [77, 78] = [-1, -1] ∧
    untimedWeighted none [77] = [-1] := by decide +kernel

end DeepGNN
