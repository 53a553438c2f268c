import Verif.Props.C73Text

namespace DeepGNN

open Datasets Samplers Spec

/-- What the samplers over ranges, CSV files and the graph are given, apart from what only some of them have. -/
theorem plain_args (graph : Option Int) (call : Args) (sig : Sig) {workers n batch epochs : Nat} {dl : Bool}
    (hsig : sig = rangeSig ∨ sig = csvSig ∨ sig = geNodeSig ∨ sig = geEdgeSig) (hc : Asked call batch epochs dl)
    (hg : Key.graph ∈ sig.map (·.1) → graph.isSome = true)
    (hr : ∀ p ∈ sig, p.2 = none → p.1 = .first ∨ p.1 = .last ∨ p.1 = .backfillId ∨ p.1 = .sampleFile ∨ p.1 = .nodeTypes ∨ p.1 = .edgeTypes →
      (call p.1).isSome = true) (w i : Nat) (hi : i < max n 1) :
    ∃ a, argsOf graph call sig workers n w i = some a ∧ a .batchSize = batch ∧ a .parallelNum = (max n 1 : Nat) ∧
      a .parallelIndex = i ∧ ∀ k ∈ sig.map (·.1), a k = (given graph call workers n w i k).getD (((sig.lookup k).getD none).getD 0) := by
  obtain ⟨a, e, ha⟩ := argsOf_eq graph call sig workers n w i hg (by
    intro p hp h2
    have := hr p hp h2
    rcases hsig with rfl | rfl | rfl | rfl
    · simp only [rangeSig, List.mem_cons, List.not_mem_nil, or_false] at hp
      rcases hp with rfl | rfl | rfl | rfl | rfl | rfl | rfl | rfl <;> first | rfl | (cases h2; done) | exact this (by simp)
    · simp only [csvSig, List.mem_cons, List.not_mem_nil, or_false] at hp
      rcases hp with rfl | rfl | rfl | rfl | rfl <;> first | rfl | (cases h2; done) | exact this (by simp)
    · have hg := hg (by decide)
      simp only [geNodeSig, List.mem_cons, List.not_mem_nil, or_false] at hp
      rcases hp with rfl | rfl | rfl | rfl | rfl | rfl | rfl | rfl | rfl <;> first | rfl | exact hg | (cases h2; done) | exact this (by simp)
    · have hg := hg (by decide)
      simp only [geEdgeSig, List.mem_cons, List.not_mem_nil, or_false] at hp
      rcases hp with rfl | rfl | rfl | rfl | rfl | rfl | rfl | rfl | rfl <;> first | rfl | exact hg | (cases h2; done) | exact this (by simp))
  have hnum : (given graph call workers n w i .parallelNum).getD 1 = (max n 1 : Nat) := by
    rw [given]
    split
    · rename_i h; rw [hc.num, h]; rfl
    · rw [Nat.max_eq_left (by omega)]; rfl
  have hidx : (given graph call workers n w i .parallelIndex).getD 0 = (i : Int) := by
    rw [given]
    split
    · rename_i h; rw [hc.index]; simp; omega
    · rfl
  have hbat : (given graph call workers n w i .batchSize) = some (batch : Int) := by rw [given, hc.batch]; rfl
  refine ⟨a, e, ?_, ?_, ?_, ha⟩
  all_goals rcases hsig with rfl | rfl | rfl | rfl
  all_goals first
    | (rw [ha _ (by decide), hbat]; rfl)
    | (rw [ha _ (by decide)]; exact hnum)
    | (rw [ha _ (by decide)]; exact hidx)

/-- Ranges of ids; a loader has at most one process.  A worker without an id fails. -/
theorem C73_range_partial {β : Type} (query : List Int → β) (graph : Option Int) {call : Args} {workers batch epochs : Nat}
    {n : Nat} (hn : n ≤ 1) {dl : Bool} (hw : 0 < workers) (hb : 0 < batch) (hc : Asked call batch epochs dl) {first last : Nat}
    (h1 : call .first = some (first : Int)) (h2 : call .last = some (last : Int)) {bf : Int} (h3 : call .backfillId = some bf) :
    ∃ outs : Nat → Nat → List (List Int),
      (∀ w < workers, ∀ i < max n 1, ∃ a, argsOf graph call rangeSig workers n w i = some a ∧
        ((rangeNodes a).isSome = true ↔ first + w * batch < last) ∧
        ∀ p, rangeNodes a = some p → Yields (queried query p.1.next) p.2 ((outs w i).map query)) ∧
      Divided false workers (max n 1) batch (batch - 1) bf outs ((List.range' first (last - first)).map Int.ofNat) := by
  obtain ⟨outs, q1, q2, k, q3, q4⟩ := C34_nodes_partial ⟨first, last, batch, workers, bf, 1⟩ hb hw rfl
  have hN : max n 1 = 1 := by omega
  refine ⟨fun w _ => outs w, fun w hww i hi => ?_, fun w hww i _ => q2 w hww, k, by have : k < batch := q3; omega, ?_⟩
  · obtain ⟨a, e, a1, a2, a3, ha⟩ := plain_args graph call rangeSig (workers := workers) (n := n) (.inl rfl) hc
      (fun h => absurd h (by decide)) (by
        intro p hp h4 h5
        simp only [rangeSig, List.mem_cons, List.not_mem_nil, or_false] at hp
        rcases hp with rfl | rfl | rfl | rfl | rfl | rfl | rfl | rfl <;>
          first | (rw [h1]; rfl) | (rw [h2]; rfl) | (rw [h3]; rfl) | (cases h4; done) | (simp at h5; done)) w i hi
    have b1 : a .first = (first : Int) := by rw [ha _ (by decide)]; show (call .first).getD _ = _; rw [h1]; rfl
    have b2 : a .last = (last : Int) := by rw [ha _ (by decide)]; show (call .last).getD _ = _; rw [h2]; rfl
    have b3 : a .backfillId = bf := by rw [ha _ (by decide)]; show (call .backfillId).getD _ = _; rw [h3]; rfl
    have b4 : a .numWorkers = (workers : Int) := by rw [ha _ (by decide)]; rfl
    have b5 : a .workerIndex = (w : Int) := by rw [ha _ (by decide)]; rfl
    have hi0 : i = 0 := by omega
    subst hi0
    have hr : rangeNodes a = ((RangeIter.mk first last batch workers bf 1).start w 0).map fun s =>
        (RangeIter.mk first last batch workers bf 1, s) := by
      simp only [rangeNodes, a1, a2, a3, b1, b2, b3, b4, b5, hN, Int.toNat_natCast]
    refine ⟨a, e, ?_, fun p hp => ?_⟩
    · rw [hr, Option.isSome_map, RangeIter.start]
      split
      · rename_i h; simpa using h
      · rename_i h; simpa using h
    · rw [hr, Option.map_eq_some_iff] at hp
      obtain ⟨s, h5, rfl⟩ := hp
      exact yields_queried query (q1 w hww s h5).1
  · rw [everything, hN]
    simpa using q4

/-- CSV files: the loader processes of every training worker see all rows once. -/
theorem C73_csv_partial {α β : Type} (query : List α → β) (graph : Option Int) {call : Args} {workers batch epochs : Nat}
    (n : Nat) {dl : Bool} (hb : 0 < batch) (hc : Asked call batch epochs dl) (hf : (call .sampleFile).isSome = true) (rows : List α)
    (w : Nat) :
    ∃ outs : Nat → List (List α),
      (∀ i < max n 1, ∃ a, argsOf graph call csvSig workers n w i = some a ∧
        Yields (queried query (csvNodes rows a).next) 0 ((outs i).map query)) ∧
      (∀ i < max n 1, ∀ b ∈ outs i, b ≠ [] ∧ b.length ≤ batch) ∧
      ((List.range (max n 1)).flatMap fun i => (outs i).flatten).Perm rows := by
  obtain ⟨outs, h1, h2, h3⟩ := C35_rows rows ((call .epoch).getD 1).toNat hb (num := max n 1) (by omega)
  refine ⟨outs, fun i hi => ?_, h2, h3⟩
  obtain ⟨a, e, a1, a2, a3, ha⟩ := plain_args graph call csvSig (workers := workers) (n := n) (.inr (.inl rfl)) hc
    (fun h => absurd h (by decide)) (by
      intro p hp h4 h5
      simp only [csvSig, List.mem_cons, List.not_mem_nil, or_false] at hp
      rcases hp with rfl | rfl | rfl | rfl | rfl <;> first | exact hf | (cases h4; done) | (simp at h5; done)) w i hi
  have b1 : a .epoch = (call .epoch).getD 1 := by rw [ha _ (by decide)]; rfl
  refine ⟨a, e, yields_queried query ?_⟩
  have : csvNodes rows a = ⟨rows, batch, ((call .epoch).getD 1).toNat, max n 1, i⟩ := by
    simp only [csvNodes, a1, a2, a3, b1, Int.toNat_natCast]
  rw [this]
  exact h1 i hi

theorem yields_ge {α : Type} (draw : Nat → List α) : ∀ c : Nat, Yields (geNext draw) c ((List.range c).reverse.map draw)
  | 0 => .stop rfl
  | c + 1 => by
    rw [List.range_succ, List.reverse_append]
    exact .more rfl (yields_ge draw c)

theorem ceilDiv_bounds (x : Nat) {m : Nat} (hm : 0 < m) : x ≤ ceilDiv x m * m ∧ ceilDiv x m * m < x + m := by
  have h := Nat.div_add_mod (x + m - 1) m
  have h1 := Nat.mod_lt (x + m - 1) hm
  have h2 : ceilDiv x m * m = m * ((x + m - 1) / m) := by rw [ceilDiv, Nat.mul_comm]
  omega

/-- Samples of the graph: every loader process sees as many batches as its sampler says, together they are enough for the
epochs, with less than one batch for each loader process to spare. -/
theorem C73_graph_partial {α β : Type} (query : List α → β) (g : Int) {call : Args} {sig : Sig}
    (hsig : sig = geNodeSig ∧ (call .nodeTypes).isSome = true ∨ sig = geEdgeSig ∧ (call .edgeTypes).isSome = true)
    {workers batch epochs : Nat} (n : Nat) {dl : Bool} (hw : 0 < workers) (hb : 0 < batch) (hc : Asked call batch epochs dl)
    (total : Nat) {wanted : Nat} (hs : call .sampleNum = none ∧ wanted = total ∨ call .sampleNum = some (wanted : Int))
    (draw : Nat → Nat → Nat → List α) :
    ∃ count,
      (∀ w < workers, ∀ i < max n 1, ∃ a, argsOf (some g) call sig workers n w i = some a ∧ a .graph = g ∧ geCount total a = count ∧
        Yields (queried query (geNext (draw w i))) (geCount total a) ((List.range count).reverse.map fun c => query (draw w i c))) ∧
      epochs * wanted ≤ workers * max n 1 * count * batch ∧
      workers * max n 1 * count * batch < epochs * wanted + workers * max n 1 * batch := by
  have hN : 0 < max n 1 := by omega
  have hm : 0 < batch * workers * max n 1 := Nat.mul_pos (Nat.mul_pos hb hw) hN
  refine ⟨ceilDiv (epochs * wanted) (batch * workers * max n 1), fun w hww i hi => ?_, ?_⟩
  · have hsig' : sig = rangeSig ∨ sig = csvSig ∨ sig = geNodeSig ∨ sig = geEdgeSig := by
      rcases hsig with h | h
      · exact .inr (.inr (.inl h.1))
      · exact .inr (.inr (.inr h.1))
    obtain ⟨a, e, a1, a2, a3, ha⟩ := plain_args (some g) call sig (workers := workers) (n := n) hsig' hc (fun _ => rfl) (by
      intro p hp h4 h5
      rcases hsig with ⟨rfl, h⟩ | ⟨rfl, h⟩
      · simp only [geNodeSig, List.mem_cons, List.not_mem_nil, or_false] at hp
        rcases hp with rfl | rfl | rfl | rfl | rfl | rfl | rfl | rfl | rfl <;> first | exact h | (cases h4; done) | (simp at h5; done)
      · simp only [geEdgeSig, List.mem_cons, List.not_mem_nil, or_false] at hp
        rcases hp with rfl | rfl | rfl | rfl | rfl | rfl | rfl | rfl | rfl <;> first | exact h | (cases h4; done) | (simp at h5; done)) w i hi
    have hk : ∀ k, k = .graph ∨ k = .epochs ∨ k = .numWorkers ∨ k = .sampleNum → k ∈ sig.map (·.1) := by
      intro k hk
      rcases hsig with ⟨rfl, -⟩ | ⟨rfl, -⟩ <;> rcases hk with rfl | rfl | rfl | rfl <;> decide
    have b0 : a .graph = g := by rw [ha _ (hk _ (by simp))]; rfl
    have b1 : a .epochs = (epochs : Int) := by
      rw [ha _ (hk _ (by simp))]
      show ((some ((call .epochs).getD 1)).getD _ : Int) = _
      rw [hc.epochs]; rfl
    have b2 : a .numWorkers = (workers : Int) := by rw [ha _ (hk _ (by simp))]; rfl
    have b3 : (if a .sampleNum = -1 then total else (a .sampleNum).toNat) = wanted := by
      have hd : ((sig.lookup .sampleNum).getD none).getD 0 = -1 := by
        rcases hsig with ⟨rfl, -⟩ | ⟨rfl, -⟩ <;> rfl
      have : a .sampleNum = (call .sampleNum).getD (-1) := by
        rw [ha _ (hk _ (by simp)), hd]; rfl
      rw [this]
      rcases hs with ⟨h, h'⟩ | h
      · rw [h, h']; rfl
      · rw [h, Option.getD_some, if_neg (by omega)]; rfl
    have hcount : geCount total a = ceilDiv (epochs * wanted) (batch * workers * max n 1) := by
      simp only [geCount, b3, a1, a2, b1, b2, Int.toNat_natCast]
    refine ⟨a, e, b0, hcount, ?_⟩
    rw [hcount]
    have := yields_queried query (yields_ge (draw w i) (ceilDiv (epochs * wanted) (batch * workers * max n 1)))
    rw [List.map_map] at this
    exact this
  · obtain ⟨h1, h2⟩ := ceilDiv_bounds (epochs * wanted) hm
    have e1 : workers * max n 1 * ceilDiv (epochs * wanted) (batch * workers * max n 1) * batch =
        ceilDiv (epochs * wanted) (batch * workers * max n 1) * (batch * workers * max n 1) := by
      generalize ceilDiv (epochs * wanted) (batch * workers * max n 1) = c
      generalize max n 1 = N
      rw [Nat.mul_comm batch workers, Nat.mul_assoc workers batch N, Nat.mul_comm batch N, ← Nat.mul_assoc workers N batch,
        ← Nat.mul_assoc c, Nat.mul_comm c]
    have e2 : workers * max n 1 * batch = batch * workers * max n 1 := by
      rw [Nat.mul_comm batch workers, Nat.mul_assoc workers batch, Nat.mul_comm batch, ← Nat.mul_assoc]
    rw [e1, e2]
    exact ⟨h1, h2⟩

end DeepGNN
