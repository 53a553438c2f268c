import Verif.Proofs.LastN
import Verif.Spec.Recent
import Verif.Props.C06

/-
C07 Last-N neighbours are the N most recent ones.
-/

namespace DeepGNN

/-- The neighbours of one node that a graph finds: what it keeps are the most recent of the live edges. -/
theorem Built.lastNState {C : WeightCodec} {wm : Option Nat} {m : Meta}
    {parts : List (List (List Rec))} {g : Graph} (h : Built C wm m parts g) (hwm : 0 ≤ m.watermark)
    (q : Int × Int) (types : List Int) (N : Nat) (hN : 0 < N)
    (hgap : ∀ x ∈ Spec.edgeRecords parts, ∀ y ∈ Spec.edgeRecords parts, x.src = q.1 →
      y.src = q.1 → y.typ ∈ types → (∃ t ∈ types, x.typ < t ∧ t < y.typ) → x.typ ∈ types)
    (hc : ∀ r ∈ Spec.allRecords parts, ∀ c, r.created = some c → 0 ≤ c)
    (hr : ∀ r ∈ Spec.allRecords parts, r.removed ≠ some 0)
    (hnow : ∀ e ∈ Spec.allTimedEdges parts, e.src = q.1 → e.removed ≠ some q.2) :
    ∃ es s d, ∃ seen : List Slot, g.entries q.1 = some es ∧
      es.foldlM (fun s (x : Partition × Nat) => x.1.lastN x.2 q.2 (sortUnique types) N s) ({} : LastN) = some s ∧
      seen.map Spec.unweighted = (Spec.liveSlots parts q.1 q.2 types).map Spec.unweighted ∧
      (Spec.ExactWeights parts → seen = Spec.liveSlots parts q.1 q.2 types) ∧ LastNInv N s d seen := by
  obtain ⟨items, hg, -⟩ := h.graphOk
  obtain ⟨es, he, hfold⟩ := hg.lastN_fold hwm q.1 q.2 (sortUnique types) N {}
  obtain ⟨s, d, hs, hinv⟩ := LastN.foldl_inv hN q.2
    ((foundSeen items q.1 (sortUnique types)).map fun e => (gslot e, e.removed)) (LastNInv.init N)
  have h1 : foundEdges items q.1 (sortUnique types) = inputEdges parts q.1 (sortUnique types) := by
    apply hg.found_eq q.1 _ (sortUnique_sorted types)
    intro x hx hxn y hy hyn hyt hex
    obtain ⟨r, hr, h1, h2⟩ := mem_input_record hx
    obtain ⟨r', hr', h1', h2'⟩ := mem_input_record hy
    obtain ⟨t, ht, hex⟩ := hex
    rw [sortUnique_mem] at ht hyt ⊢
    rw [← h2]
    exact hgap r hr r' hr' (by rw [h1, hxn]) (by rw [h1', hyn]) (by rw [h2']; exact hyt)
      ⟨t, ht, by rw [h2, h2']; exact hex⟩
  -- the live edges of the input
  have hlive : ∀ l : List GEdge, ((l.map fun e => (gslot e, e.removed)).filter (lastLive q.2)).map (·.1) =
      (l.filter fun e => lastLive q.2 (gslot e, e.removed)).map gslot := by
    intro l; rw [List.filter_map, List.map_map]; rfl
  have hspec : ((inputEdges parts q.1 (sortUnique types)).filter
      (fun e => lastLive q.2 (gslot e, e.removed))).map gslot = Spec.liveSlots parts q.1 q.2 types := by
    simp only [inputEdges, Spec.liveSlots, Spec.allTimedEdges]
    have hk := timed_calls parts.flatten h.acc hc hr
    simp only [Spec.allTimedEdges, hk] at hnow ⊢
    rw [List.filter_map, List.filter_map, List.filter_filter, List.map_map, List.map_map]
    have hcongr : ∀ a ∈ parts.flatten.flatMap (effEdges 0 (-1)),
        (((fun e => lastLive q.2 (gslot e, e.removed)) ∘ fun x : Int × GEdge => x.2) a &&
          decide (a.1 = q.1 ∧ a.2.typ ∈ sortUnique types)) =
        ((fun e : Spec.TimedEdge => decide (e.src = q.1 ∧ e.typ ∈ types ∧ e.aliveAt q.2 = true)) ∘
          toTimed) a := by
      intro a ha
      have h2 := toTimed_alive a q.2
      simp only [Function.comp, h2]
      by_cases hsrc : a.1 = q.1
      · have h3 := hnow (toTimed a) (List.mem_map_of_mem ha) hsrc
        have h4 : lastLive q.2 (gslot a.2, a.2.removed) = liveB q.2 a.2 := by
          simp only [toTimed] at h3
          rw [Bool.eq_iff_iff]
          rw [lastLive_iff]
          simp only [liveB, gslot, decide_eq_true_eq]
          by_cases hm : a.2.removed = -1
          · constructor <;> intro hh <;> omega
          · simp only [hm, if_false] at h3
            have h3' : a.2.removed ≠ q.2 := fun e => h3 (by rw [e])
            constructor <;> intro hh <;> omega
        rw [h4]
        simp only [toTimed, hsrc, sortUnique_mem]
        cases liveB q.2 a.2 <;> simp
      · simp [hsrc, toTimed]
    rw [List.filter_congr hcongr]
    rfl
  have hnw : ∀ l : List GEdge,
      ((l.filter fun e => lastLive q.2 (gslot e, e.removed)).map gslot).map Spec.unweighted =
      ((l.map noWeight).filter fun e => lastLive q.2 (gslot e, e.removed)).map
        (fun e => Spec.unweighted (gslot e)) := by
    intro l
    rw [List.filter_map, List.map_map, List.map_map]
    rfl
  refine ⟨es, s, d, ((foundSeen items q.1 (sortUnique types)).filter fun e => lastLive q.2 (gslot e, e.removed)).map gslot,
    he, ?_, ?_, ?_, ?_⟩
  · exact hfold.trans hs
  · rw [← hspec, hnw, hnw, foundSeen_noWeight, h1]
  · intro hw
    rw [hg.seen_exact hw, h1, hspec]
  · rw [List.nil_append, hlive] at hinv
    exact hinv

/-- Answers for several nodes are concatenated; each is made of the `N` most recently created
neighbours at the timestamp and defaults.  The weights are those reported by the engine (`seen`),
equal to the given ones if sums are exact.  Missing for the full property: edges removed exactly at
the timestamp (`C07_removed_now_refuted`), gaps in the types (as in C03), removal at time 0 (as in
C05), inexact weights (as in C02). -/
theorem C07_last_n_partial {C : WeightCodec} {wm : Option Nat} {m : Meta}
    {parts : List (List (List Rec))} {g : Graph} (h : Built C wm m parts g) (hwm : 0 ≤ m.watermark)
    (reqs : List (Int × Int)) (types : List Int) (N : Nat) (hN : 0 < N) (default : Slot)
    (hgap : ∀ q ∈ reqs, ∀ x ∈ Spec.edgeRecords parts, ∀ y ∈ Spec.edgeRecords parts, x.src = q.1 →
      y.src = q.1 → y.typ ∈ types → (∃ t ∈ types, x.typ < t ∧ t < y.typ) → x.typ ∈ types)
    (hc : ∀ r ∈ Spec.allRecords parts, ∀ c, r.created = some c → 0 ≤ c)
    (hr : ∀ r ∈ Spec.allRecords parts, r.removed ≠ some 0)
    (hnow : ∀ q ∈ reqs, ∀ e ∈ Spec.allTimedEdges parts, e.src = q.1 → e.removed ≠ some q.2) :
    ∃ answers : List (List Slot), answers.length = reqs.length ∧
      g.lastN (reqs.map (·.1)) (reqs.map (·.2)) types N default = some answers.flatten ∧
      ∀ x ∈ reqs.zip answers, ∃ seen : List Slot,
        seen.map Spec.unweighted = (Spec.liveSlots parts x.1.1 x.1.2 types).map Spec.unweighted ∧
        (Spec.ExactWeights parts → seen = Spec.liveSlots parts x.1.1 x.1.2 types) ∧
        Spec.MostRecent N default seen x.2 := by
  have hz : (reqs.map (·.1)).zip (reqs.map (·.2)) = reqs := by
    clear hgap hnow
    induction reqs with
    | nil => rfl
    | cons a l ih => simp [ih]
  -- one request
  have key : ∀ q ∈ reqs, ∃ ans, g.lastN1 types N default q.1 q.2 = some ans ∧ ∃ seen : List Slot,
      seen.map Spec.unweighted = (Spec.liveSlots parts q.1 q.2 types).map Spec.unweighted ∧
      (Spec.ExactWeights parts → seen = Spec.liveSlots parts q.1 q.2 types) ∧
      Spec.MostRecent N default seen ans := by
    intro q hq
    obtain ⟨es, s, d, seen, he, hfold, h1, h2, hinv⟩ := h.lastNState hwm q types N hN (hgap q hq) hc hr (hnow q hq)
    refine ⟨s.out ++ List.replicate (N - s.out.length) default, ?_, seen, h1, h2, ?_⟩
    · simp only [Graph.lastN1, he, Option.bind_eq_bind, Option.bind_some]
      have hfold' : es.foldlM (fun s (x : Partition × Nat) =>
        match x with | (p, id) => p.lastN id q.2 (sortUnique types) N s) ({} : LastN) = _ := hfold
      rw [hfold']; rfl
    · refine ⟨s.out, d, hinv.perm, ?_, hinv.recent, rfl⟩
      have hp := hinv.perm.length_eq
      rw [List.length_append] at hp
      have := hinv.le
      rcases List.eq_nil_or_concat d with h0 | ⟨_, _, h0⟩
      · rw [h0] at hp; simp only [List.length_nil] at hp; omega
      · have := hinv.full (by rw [h0]; simp)
        omega
  clear hgap hnow
  simp only [Graph.lastN, hz]
  clear hz
  induction reqs with
  | nil => exact ⟨[], rfl, rfl, by simp⟩
  | cons q reqs ih =>
    obtain ⟨ans, h1, h2⟩ := key q (by simp)
    obtain ⟨answers, h3, h4, h5⟩ := ih (fun q hq => key q (by simp [hq]))
    refine ⟨ans :: answers, by simp [h3], ?_, ?_⟩
    · simp only [Option.bind_eq_bind, Option.bind_eq_some_iff, pure, Option.some.injEq] at h4 ⊢
      obtain ⟨rs, h6, h7⟩ := h4
      refine ⟨ans :: rs, ?_, by simp [h7]⟩
      simp only [List.mapM_cons, h1, h6, Option.bind_eq_bind, Option.bind_some, pure]
    · intro x hx
      rw [List.zip_cons_cons, List.mem_cons] at hx
      rcases hx with rfl | hx
      · exact h2
      · exact h5 x hx

/-- Non-vacuity: the two last created neighbours of node 1 at time 4 in the example of C06. -/
example : ∃ g, Built intCodec (some 9) ⟨0, 0, 9⟩ C06_example g ∧
    ∃ answers : List (List Slot), g.lastN [1] [4] [1, 0] 2 ⟨-1, -1, 0, -1⟩ = some answers.flatten ∧
      answers = [[⟨4, 1, 5, 4⟩, ⟨2, 0, 7, 2⟩]] := by
  obtain ⟨g, hg, hb⟩ := built_of_check (wm := some 9) (m := ⟨0, 0, 9⟩) (parts := C06_example)
    (by decide +kernel)
  obtain ⟨answers, h1, h2, h3⟩ := C07_last_n_partial hb (by decide) [(1, 4)] [1, 0] 2 (by decide)
    ⟨-1, -1, 0, -1⟩ (by decide +kernel) (by
      intro r hr c hc
      have : ∀ r ∈ Spec.allRecords C06_example, 0 ≤ r.created.getD 0 := by decide +kernel
      simpa [hc] using this r hr) (by decide +kernel) (by decide +kernel)
  refine ⟨g, hb, answers, h2, ?_⟩
  have : (graphOf intCodec (some 9) ⟨0, 0, 9⟩ C06_example).bind
      (fun g => g.lastN [1] [4] [1, 0] 2 ⟨-1, -1, 0, -1⟩) = some [⟨4, 1, 5, 4⟩, ⟨2, 0, 7, 2⟩] := by
    decide +kernel
  rw [hg] at this
  have h4 := Option.some.inj (h2.symm.trans this)
  match answers, h1 with
  | [a], _ => simpa using h4

/-- At time 5 the edge of node 1 with lifetime [1, 5) does not exist any more, but it is returned. -/
theorem C07_removed_now_refuted : ∃ g, Built intCodec (some 9) ⟨0, 0, 9⟩ C06_example g ∧
    (Spec.liveSlots C06_example 1 5 [0]).map (·.dst) = [2] ∧
    g.fullNeighbor [1] (some [5]) [0] = some ([⟨2, 0, 7⟩], [1]) ∧
    g.lastN [1] [5] [0] 2 ⟨-1, -1, 0, -1⟩ = some [⟨3, 0, 9, 1⟩, ⟨2, 0, 7, 2⟩] := by
  obtain ⟨g, hg, hb⟩ := built_of_check (wm := some 9) (m := ⟨0, 0, 9⟩) (parts := C06_example)
    (by decide +kernel)
  refine ⟨g, hb, by decide +kernel, ?_⟩
  have : (graphOf intCodec (some 9) ⟨0, 0, 9⟩ C06_example).map
      (fun g => (g.fullNeighbor [1] (some [5]) [0], g.lastN [1] [5] [0] 2 ⟨-1, -1, 0, -1⟩)) =
      some (some ([⟨2, 0, 7⟩], [1]), some [⟨3, 0, 9, 1⟩, ⟨2, 0, 7, 2⟩]) := by decide +kernel
  rw [hg] at this
  exact Prod.mk.inj (Option.some.inj this)

end DeepGNN
