import Verif.Proofs.Distribute
import Verif.Props.C23
import Verif.Props.C06

/-
C25 Serving a graph from several servers changes nothing.
`servers`: the partitions of every server and its graph.
-/

namespace DeepGNN

variable {C : WeightCodec} {wm : Option Nat} {m : Meta} {parts : List (List (List Rec))} {g : Graph}

/-- The neighbours of node number `k` in a result with the counts `counts`. -/
def C25_segment (counts : List Nat) (nbrs : List Nbr) (k : Nat) : List Nbr :=
  (nbrs.drop (counts.take k).sum).take (counts.getD k 0)

theorem segment_flatten (ls : List (List Nbr)) (k : Nat) :
    C25_segment (ls.map List.length) ls.flatten k = ls.getD k [] := by
  rw [C25_segment, ← List.map_take, ← List.length_flatten]
  by_cases hk : k < ls.length
  · have h2 : ls.flatten = (ls.take k).flatten ++ (ls[k] ++ (ls.drop (k + 1)).flatten) := by
      rw [← List.flatten_cons, ← List.flatten_append, List.getElem_cons_drop, List.take_append_drop]
    rw [h2, List.drop_left]
    simp [hk]
  · simp [List.getElem?_eq_none_iff.2 (Nat.le_of_not_lt hk)]

theorem bind_pure_map {α β : Type} (o : Option α) (f : α → β) : (do let x ← o; pure (f x)) = o.map f := by
  cases o <;> rfl

theorem bind_bind_pure_map {α β γ : Type} (o : Option α) (q : α → Option β) (f : β → γ) :
    (do let x ← o; let y ← q x; pure (f y)) = (o.bind q).map f := by
  cases o with
  | none => rfl
  | some x => exact bind_pure_map (q x) f

/-- Requests: a node and, in temporal queries, its timestamp. -/
def C25_reqs (nodes : List Int) : Option (List Int) → List (Int × Option Int)
  | none => nodes.map fun n => (n, none)
  | some ts => (nodes.zip ts).map fun x => (x.1, some x.2)

theorem fullNeighbor_reqs (g : Graph) (nodes : List Int) (ts : Option (List Int)) (types : List Int) :
    g.fullNeighbor nodes ts types = ((C25_reqs nodes ts).mapM fun x => g.fullNeighbor1 x.2 types x.1).map fun rs =>
      ((rs.map (·.1)).flatten, rs.map (·.2)) := by
  cases ts with
  | none =>
    simp only [Graph.fullNeighbor, C25_reqs, List.mapM_map]
    exact bind_pure_map _ _
  | some ts =>
    simp only [Graph.fullNeighbor, C25_reqs, List.mapM_map]
    exact bind_pure_map _ _

/-- What a graph answers for one request. -/
theorem Built.fullNeighbor1 (h : Built C wm m parts g) (x : Int × Option Int) (hx : x.2 ≠ none → 0 ≤ m.watermark)
    (types : List Int) : ∃ l, g.fullNeighbor1 x.2 types x.1 = some (l, l.length) := by
  obtain ⟨items, hg, -⟩ := h.graphOk
  obtain ⟨n, t⟩ := x
  cases t with
  | none => exact ⟨_, by rw [hg.fullNeighbor1, List.length_map]⟩
  | some t => exact ⟨_, by rw [hg.fullNeighborAt1 (hx (by simp)), List.length_map]⟩

theorem distribute_neighbors (h : Built C wm m parts g) (servers : List (List (List (List Rec)) × Graph))
    (hs : ∀ s ∈ servers, Built C wm m s.1 s.2) (hp : (servers.flatMap (·.1)).Perm parts) (x : Int × Option Int)
    (hx : x.2 ≠ none → 0 ≤ m.watermark) (types : List Int) {l : List Nbr}
    (hl : g.fullNeighbor1 x.2 types x.1 = some (l, l.length)) :
    ∃ ans : List (List (List Rec)) × Graph → List Nbr,
      (∀ s ∈ servers, s.2.fullNeighbor1 x.2 types x.1 = some (ans s, (ans s).length)) ∧ (servers.flatMap ans).Perm l := by
  have hq : ∀ g' : Graph, g'.fullNeighbor1 x.2 types x.1 =
      ((g'.entries x.1).bind fun es => es.mapM fun e => e.1.fullNeighbor e.2 x.2 types).map fun rs =>
        ((rs.map (·.1)).flatten, (rs.map (·.2)).sum) := by
    intro g'
    simp only [Graph.fullNeighbor1]
    exact bind_bind_pure_map _ _ _
  rw [hq] at hl
  obtain ⟨rs, h1, h2⟩ := Option.map_eq_some_iff.1 hl
  obtain ⟨ans, h3, h4⟩ := distribute (fun e => e.1.fullNeighbor e.2 x.2 types) h servers hs hp x.1 h1
  refine ⟨fun s => ((ans s.1).map (·.1)).flatten, ?_, ?_⟩
  · intro s hsm
    obtain ⟨l', h5⟩ := (hs s hsm).fullNeighbor1 x hx types
    have h6 := h5
    rw [hq, h3 s hsm, Option.map_some, Option.some.injEq, Prod.mk.injEq] at h6
    rw [h5, ← h6.1]
  · rw [← (Prod.mk.inj h2).1]
    have := h4.flatMap_right (fun r : List Nbr × Nat => r.1)
    rw [List.flatMap_assoc] at this
    simpa [List.flatMap_def] using this

/-- For every way of distributing the partitions over servers and every order of replies: the query succeeds
remotely as it does locally, the counts are the same, and every node gets the same neighbours (with types and weights) up
to their order. -/
theorem C25_neighbors (h : Built C wm m parts g) (servers : List (List (List (List Rec)) × Graph)) (hne : servers ≠ [])
    (hs : ∀ s ∈ servers, Built C wm m s.1 s.2) (hp : (servers.flatMap (·.1)).Perm parts) (nodes : List Int)
    (ts : Option (List Int)) (hts : ∀ l, ts = some l → l.length = nodes.length ∧ 0 ≤ m.watermark) (types : List Int) :
    ∃ nbrs counts replies, g.fullNeighbor nodes ts types = some (nbrs, counts) ∧
      servers.mapM (fun s => s.2.getNeighbors nodes ts types) = some replies ∧
      ∀ evs, Spec.Schedule replies evs → ∃ nbrs',
        remoteNeighbors nodes.length evs servers.length = some (some (nbrs', counts)) ∧
        ∀ k, (C25_segment counts nbrs' k).Perm (C25_segment counts nbrs k) := by
  have hx : ∀ x ∈ C25_reqs nodes ts, x.2 ≠ none → 0 ≤ m.watermark := by
    intro x hx hx2
    cases ts with
    | none =>
      obtain ⟨n, -, rfl⟩ := List.mem_map.1 hx
      exact absurd rfl hx2
    | some l => exact (hts l rfl).2
  have hlen : (C25_reqs nodes ts).length = nodes.length := by
    cases ts with
    | none => simp [C25_reqs]
    | some l => simp [C25_reqs, (hts l rfl).1]
  generalize hreq : C25_reqs nodes ts = reqs at *
  -- the answers, request by request
  have key : ∀ reqs : List (Int × Option Int), (∀ x ∈ reqs, x.2 ≠ none → 0 ≤ m.watermark) →
      ∃ (loc : List (List Nbr)) (rem : List (List (List (List Rec)) × Graph → List Nbr)),
        loc.length = reqs.length ∧ rem.length = reqs.length ∧
        reqs.mapM (fun x => g.fullNeighbor1 x.2 types x.1) = some (loc.map fun l => (l, l.length)) ∧
        (∀ s ∈ servers, reqs.mapM (fun x => s.2.fullNeighbor1 x.2 types x.1) =
          some (rem.map fun f => (f s, (f s).length))) ∧
        ∀ k, (servers.flatMap fun s => (rem.map fun f => f s).getD k []).Perm (loc.getD k []) := by
    intro reqs hx
    induction reqs with
    | nil => exact ⟨[], [], rfl, rfl, rfl, fun _ _ => rfl, fun k => by simp⟩
    | cons x reqs ih =>
      obtain ⟨loc, rem, h0, h0', h1, h2, h3⟩ := ih fun y hy => hx y (by simp [hy])
      obtain ⟨l, hl⟩ := h.fullNeighbor1 x (hx x (by simp)) types
      obtain ⟨ans, h4, h5⟩ := distribute_neighbors h servers hs hp x (hx x (by simp)) types hl
      refine ⟨l :: loc, ans :: rem, by simp [h0], by simp [h0'], ?_, ?_, ?_⟩
      · rw [List.mapM_cons, hl, h1]; rfl
      · intro s hsm
        rw [List.mapM_cons, h4 s hsm, h2 s hsm]; rfl
      · intro k
        cases k with
        | zero => simpa using h5
        | succ k => simpa using h3 k
  obtain ⟨loc, rem, h0, h0', h1, h2, h3⟩ := key reqs hx
  refine ⟨loc.flatten, loc.map List.length, servers.map fun s => Spec.replyOf (rem.map fun f => f s), ?_, ?_, ?_⟩
  · rw [fullNeighbor_reqs, hreq, h1]
    simp [Function.comp_def]
  · apply mapM_some_map
    intro s hsm
    rw [Graph.getNeighbors, fullNeighbor_reqs, hreq, h2 s hsm]
    simp [Function.comp_def, Spec.replyOf]
  · intro evs hev
    have hc := C23_neighbors nodes.length (servers.map fun s => rem.map fun f => f s) (by simpa using hne) evs (by
      rw [List.map_map]; exact hev)
    rw [List.length_map] at hc
    have hans : ∀ k, ((servers.map fun s => rem.map fun f => f s).flatMap fun l => l.getD k []) =
        servers.flatMap fun s => (rem.map fun f => f s).getD k [] := by
      intro k; rw [List.flatMap_map]
    have hcount : ((List.range nodes.length).map fun k =>
        ((servers.map fun s => rem.map fun f => f s).flatMap fun l => l.getD k []).length) = loc.map List.length := by
      apply List.ext_getElem
      · simp [h0, hlen]
      · intro k hk _
        have hk' : k < loc.length := by simp at hk; omega
        rw [List.getElem_map, List.getElem_range, hans, (h3 k).length_eq, List.getElem_map]
        simp [hk']
    refine ⟨_, by rw [hc, hcount], ?_⟩
    intro k
    rw [segment_flatten]
    have hseg := segment_flatten ((List.range nodes.length).map fun k =>
      (servers.map fun s => rem.map fun f => f s).flatMap fun l => l.getD k []) k
    rw [List.map_map] at hseg
    have hcount' : (List.range nodes.length).map (List.length ∘ fun k =>
        (servers.map fun s => rem.map fun f => f s).flatMap fun l => l.getD k []) = loc.map List.length := hcount
    rw [hcount', ← List.flatMap_def] at hseg
    rw [hseg]
    by_cases hk : k < nodes.length
    · have : ((List.range nodes.length).map fun k =>
        (servers.map fun s => rem.map fun f => f s).flatMap fun l => l.getD k []).getD k [] =
          (servers.map fun s => rem.map fun f => f s).flatMap fun l => l.getD k [] := by simp [hk]
      rw [this, hans]
      exact h3 k
    · have e1 : loc.getD k [] = [] := by simp [List.getElem?_eq_none_iff.2 (show loc.length ≤ k by omega)]
      have e2 : ((List.range nodes.length).map fun k =>
        (servers.map fun s => rem.map fun f => f s).flatMap fun l => l.getD k []).getD k [] = [] := by
        simp [List.getElem?_eq_none_iff.2 (show (List.range nodes.length).length ≤ k by simp; omega)]
      rw [e1, e2]

theorem sum_flatMap_nat {α : Type} (l : List α) (f : α → List Nat) : (l.flatMap f).sum = (l.map fun a => (f a).sum).sum := by
  induction l with
  | nil => rfl
  | cons a l ih => rw [List.flatMap_cons, List.sum_append, ih, List.map_cons, List.sum_cons]

/-- The same for the number of neighbours, whenever the local query succeeds. -/
theorem C25_counts (h : Built C wm m parts g) (servers : List (List (List (List Rec)) × Graph)) (hne : servers ≠ [])
    (hs : ∀ s ∈ servers, Built C wm m s.1 s.2) (hp : (servers.flatMap (·.1)).Perm parts) (nodes : List Int)
    (ts : Option (List Int)) (hts : ∀ l, ts = some l → l.length = nodes.length) (types : List Int) (counts : List Nat)
    (hl : g.getCounts nodes ts types = some counts) :
    ∃ replies, servers.mapM (fun s => s.2.getCounts nodes ts types) = some replies ∧
      ∀ evs, Spec.Schedule replies evs → remoteCounts nodes.length evs servers.length = some counts := by
  -- a query of one request, by entries
  let q : Option Int → Partition × Nat → Option Nat := fun t e =>
    match t with
    | none => e.1.neighborCount e.2 types
    | some t => e.1.neighborCountAt e.2 t types
  let one : Graph → Int × Option Int → Option Nat := fun g' x =>
    ((g'.entries x.1).bind fun es => es.mapM (q x.2)).map List.sum
  have hone : ∀ g' : Graph, g'.getCounts nodes ts types = (C25_reqs nodes ts).mapM (one g') := by
    intro g'
    cases ts with
    | none =>
      simp only [Graph.getCounts, Graph.neighborCount, C25_reqs, List.mapM_map]
      congr 1
      funext n
      simp only [Graph.neighborCount1, Function.comp, one, q]
      exact bind_bind_pure_map _ _ _
    | some ts =>
      simp only [Graph.getCounts, Graph.neighborCountAt, C25_reqs, List.mapM_map]
      congr 1
      funext x
      simp only [Graph.neighborCountAt1, Function.comp, one, q]
      exact bind_bind_pure_map _ _ _
  have hlen : (C25_reqs nodes ts).length = nodes.length := by
    cases ts with
    | none => simp [C25_reqs]
    | some l => simp [C25_reqs, hts l rfl]
  rw [hone] at hl
  have key : ∀ (reqs : List (Int × Option Int)) (counts : List Nat), reqs.mapM (one g) = some counts →
      counts.length = reqs.length ∧ ∃ rem : List (List (List (List Rec)) × Graph → Nat),
        (∀ s ∈ servers, reqs.mapM (one s.2) = some (rem.map fun f => f s)) ∧
        ∀ k, (servers.map fun s => (rem.map fun f => f s).getD k 0).sum = counts.getD k 0 := by
    intro reqs
    induction reqs with
    | nil =>
      intro counts hc
      obtain rfl : [] = counts := by simpa using hc
      refine ⟨rfl, [], fun _ _ => rfl, fun k => ?_⟩
      simp only [List.map_nil, List.getD_nil, List.map_const']
      exact (List.sum_replicate_nat ..).trans (Nat.mul_zero _)
    | cons x reqs ih =>
      intro counts hc
      rw [List.mapM_cons] at hc
      obtain ⟨c, h1, h2⟩ := Option.bind_eq_some_iff.1 hc
      obtain ⟨cs, h3, h4⟩ := Option.bind_eq_some_iff.1 h2
      obtain rfl : c :: cs = counts := by simpa using h4
      obtain ⟨h5, rem, h6, h7⟩ := ih cs h3
      obtain ⟨rs, h8, rfl⟩ := Option.map_eq_some_iff.1 h1
      obtain ⟨ans, h9, h10⟩ := distribute (q x.2) h servers hs hp x.1 h8
      refine ⟨by simp [h5], (fun s => (ans s.1).sum) :: rem, ?_, ?_⟩
      · intro s hsm
        rw [List.mapM_cons, h6 s hsm]
        simp only [one, h9 s hsm]
        rfl
      · intro k
        cases k with
        | zero =>
          have := sum_flatMap_nat servers fun s => ans s.1
          simpa [this] using h10.sum_nat
        | succ k => simpa using h7 k
  obtain ⟨h0, rem, h1, h2⟩ := key _ _ hl
  refine ⟨servers.map fun s => rem.map fun f => f s, ?_, ?_⟩
  · apply mapM_some_map
    intro s hsm
    rw [hone, h1 s hsm]
  · intro evs hev
    have hc := C23_counts nodes.length (servers.map fun s => rem.map fun f => f s) (by simpa using hne) evs hev
    rw [List.length_map] at hc
    rw [hc]
    congr 1
    apply List.ext_getElem
    · simp; omega
    · intro k hk _
      simp only [List.getElem_map, List.getElem_range, List.map_map, Function.comp_def]
      have := h2 k
      have hk' : k < counts.length := by simp at hk; omega
      simpa [hk'] using this

/-! Example: node 1 has edges in both partitions; each server has one partition, in reversed order. -/

def C25_a : List (List Rec) := [[⟨1, -1, 0, 1, none, none, []⟩, ⟨1, 2, 0, 3, none, none, []⟩, ⟨1, 3, 1, 4, none, none, []⟩]]
def C25_b : List (List Rec) := [[⟨1, 5, 0, 7, none, none, []⟩], [⟨2, -1, 0, 1, none, none, []⟩, ⟨2, 1, 1, 2, none, none, []⟩]]

example : ∃ g g1 g2, Built intCodec none ⟨0, 0, -1⟩ [C25_a, C25_b] g ∧
    (∀ s ∈ [([C25_b], g1), ([C25_a], g2)], Built intCodec none ⟨0, 0, -1⟩ s.1 s.2) ∧
    ([([C25_b], g1), ([C25_a], g2)].flatMap (·.1)).Perm [C25_a, C25_b] ∧
    g.getCounts [1, 2] none [0, 1] = some [3, 1] ∧
    g1.fullNeighbor [1, 2] none [0, 1] = some ([⟨5, 0, 7⟩, ⟨1, 1, 2⟩], [1, 1]) := by
  obtain ⟨g, hg, hb⟩ := built_of_check (wm := none) (m := ⟨0, 0, -1⟩) (parts := [C25_a, C25_b]) (by decide +kernel)
  obtain ⟨g1, hg1, hb1⟩ := built_of_check (wm := none) (m := ⟨0, 0, -1⟩) (parts := [C25_b]) (by decide +kernel)
  obtain ⟨g2, -, hb2⟩ := built_of_check (wm := none) (m := ⟨0, 0, -1⟩) (parts := [C25_a]) (by decide +kernel)
  refine ⟨g, g1, g2, hb, by simp [hb1, hb2], List.Perm.swap _ _ _, ?_, ?_⟩
  · have : (graphOf intCodec none ⟨0, 0, -1⟩ [C25_a, C25_b]).bind (fun g => g.getCounts [1, 2] none [0, 1]) =
        some [3, 1] := by decide +kernel
    rw [hg] at this; exact this
  · have : (graphOf intCodec none ⟨0, 0, -1⟩ [C25_b]).bind (fun g => g.fullNeighbor [1, 2] none [0, 1]) =
        some ([⟨5, 0, 7⟩, ⟨1, 1, 2⟩], [1, 1]) := by decide +kernel
    rw [hg1] at this; exact this

end DeepGNN
