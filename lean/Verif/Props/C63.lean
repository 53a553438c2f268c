import Verif.Proofs.ServerUniform

/-
C63 Uniform sampling from several servers is sampling from all their neighbours.
A server is given by the records it was built from and the graph.  A request is a node with its timestamp if the query is temporal.
-/

namespace DeepGNN

open Spec

variable {C : WeightCodec} {wm : Option Nat} {m : Meta} {parts : List (List (List Rec))} {g : Graph}

theorem Built.offers (h : Built C wm m parts g) (w : Bool) (types : List Int) (n : Int) (hgap : Spec.NoGap parts n types) :
    Offers g w types (n, none) ((neighbors parts n types).map reported) := by
  obtain ⟨items, hg, -⟩ := h.graphOk
  obtain ⟨es, bs, h3, h4, h5⟩ := hg.sampleBlocks n w (sortUnique types)
  exact ⟨es, bs, h3, h4, by rw [h5, found_reported hg n types hgap]⟩

theorem Built.offersAt (h : Built C wm m parts g) (hwm : 0 ≤ m.watermark) (w : Bool) (types : List Int) (n t : Int)
    (hgap : Spec.NoGap parts n types) (hts : -(2 ^ 31) ≤ t ∧ t < 2 ^ 31) (ho : OrderedLifetimes parts n)
    (hu : w = true → ∀ e ∈ allTimedEdges parts, e.src = n → e.removed = none)
    (hc : ∀ r ∈ allRecords parts, ∀ c, r.created = some c → 0 ≤ c) (hr : ∀ r ∈ allRecords parts, r.removed ≠ some 0) :
    Offers g w types (n, some t) ((neighborsAt parts n t types).map reported) := by
  obtain ⟨items, hg, -⟩ := h.graphOk
  obtain ⟨es, bs, h3, h4, h5⟩ := hg.sampleBlocksAt hwm n w t hts (sortUnique types) (h.ordered hg n hc hr ho)
    (fun hw => h.unremoved hg n hc hr (hu hw))
  exact ⟨es, bs, h3, h4, by rw [h5, found_reportedAt h hg _ _ types hgap hc hr]⟩

/-- Without replacement: for all draws of the servers and of the client, and for nodes spread over any number of servers, every row
consists of neighbours at distinct positions of the list of all neighbours on all servers, as many as there are, then defaults.
Missing: gaps in the types (`C15_gap_refuted`). -/
theorem C63_without_partial (servers : List (List (List (List Rec)) × Graph)) (hb : ∀ x ∈ servers, ∃ wm m, Built C wm m x.1 x.2)
    (Rs : List Draws) (hlen : Rs.length = servers.length) (R : Draws) (types : List Int) (count : Nat) (hc : 0 < count)
    (default : Int × Int) (nodes : List Int) (hgap : ∀ x ∈ servers, ∀ n ∈ nodes, Spec.NoGap x.1 n types) (s : Nat) :
    ∃ outs s', uniformServers ((servers.map (·.2)).zip Rs) R true types count default (nodes.map fun n => (n, none)) s =
        some (outs, s') ∧ outs.length = nodes.length ∧ ∀ y ∈ nodes.zip outs,
      Selection ((servers.flatMap fun x => neighbors x.1 y.1 types).map reported) (List.replicate count default) y.2 := by
  have h := uniformServers_without (types := types)
    (servers.map fun x => (x.2, fun q : Int × Option Int => (neighbors x.1 q.1 types).map reported))
    (nodes.map fun n => (n, none)) (by
      intro x hx q hq
      obtain ⟨y, hy, rfl⟩ := List.mem_map.1 hx
      obtain ⟨n, hn, rfl⟩ := List.mem_map.1 hq
      obtain ⟨wm, m, hb⟩ := hb y hy
      exact hb.offers true types n (hgap y hy n hn)) Rs (by simpa using hlen) R count hc default s
  obtain ⟨outs, s', h1, h2, h3⟩ := h
  rw [List.map_map] at h1
  refine ⟨outs, s', h1, by simpa using h2, ?_⟩
  intro y hy
  have := h3 ((y.1, none), y.2) (by
    rw [List.zip_map_left]
    exact List.mem_map.2 ⟨y, hy, rfl⟩)
  rw [List.flatMap_map] at this
  rw [List.map_flatMap]
  exact this

/-- With replacement: every row consists of `count` neighbours on the servers; defaults if there are none.  Missing: as above. -/
theorem C63_with_partial (servers : List (List (List (List Rec)) × Graph)) (hb : ∀ x ∈ servers, ∃ wm m, Built C wm m x.1 x.2)
    (Rs : List Draws) (hlen : Rs.length = servers.length) (R : Draws) (types : List Int) (count : Nat)
    (default : Int × Int) (nodes : List Int) (hgap : ∀ x ∈ servers, ∀ n ∈ nodes, Spec.NoGap x.1 n types) (s : Nat) :
    ∃ outs s', uniformServers ((servers.map (·.2)).zip Rs) R false types count default (nodes.map fun n => (n, none)) s =
        some (outs, s') ∧ outs.length = nodes.length ∧ ∀ y ∈ nodes.zip outs,
      Sampled ((servers.flatMap fun x => neighbors x.1 y.1 types).map reported) count default y.2 := by
  have h := uniformServers_with (types := types)
    (servers.map fun x => (x.2, fun q : Int × Option Int => (neighbors x.1 q.1 types).map reported))
    (nodes.map fun n => (n, none)) (by
      intro x hx q hq
      obtain ⟨y, hy, rfl⟩ := List.mem_map.1 hx
      obtain ⟨n, hn, rfl⟩ := List.mem_map.1 hq
      obtain ⟨wm, m, hb⟩ := hb y hy
      exact hb.offers false types n (hgap y hy n hn)) Rs (by simpa using hlen) R count default s
  obtain ⟨outs, s', h1, h2, h3⟩ := h
  rw [List.map_map] at h1
  refine ⟨outs, s', h1, by simpa using h2, ?_⟩
  intro y hy
  have := h3 ((y.1, none), y.2) (by
    rw [List.zip_map_left]
    exact List.mem_map.2 ⟨y, hy, rfl⟩)
  rw [List.flatMap_map] at this
  rw [List.map_flatMap]
  exact this

/-- At timestamps: only edges that exist then are sampled.  Missing: as in C15 and C16 for a single graph (`C16_removed_refuted`). -/
theorem C63_temporal_partial (servers : List (List (List (List Rec)) × Graph))
    (hb : ∀ x ∈ servers, ∃ wm m, 0 ≤ m.watermark ∧ Built C wm m x.1 x.2)
    (Rs : List Draws) (hlen : Rs.length = servers.length) (R : Draws) (withoutReplacement : Bool) (types : List Int) (count : Nat)
    (hcount : 0 < count) (default : Int × Int) (reqs : List (Int × Int))
    (hgap : ∀ x ∈ servers, ∀ q ∈ reqs, Spec.NoGap x.1 q.1 types)
    (hts : ∀ q ∈ reqs, -(2 ^ 31) ≤ q.2 ∧ q.2 < 2 ^ 31) (ho : ∀ x ∈ servers, ∀ q ∈ reqs, OrderedLifetimes x.1 q.1)
    (hu : withoutReplacement = true → ∀ x ∈ servers, ∀ q ∈ reqs, ∀ e ∈ allTimedEdges x.1, e.src = q.1 → e.removed = none)
    (hc : ∀ x ∈ servers, ∀ r ∈ allRecords x.1, ∀ c, r.created = some c → 0 ≤ c)
    (hr : ∀ x ∈ servers, ∀ r ∈ allRecords x.1, r.removed ≠ some 0) (s : Nat) :
    ∃ outs s', uniformServers ((servers.map (·.2)).zip Rs) R withoutReplacement types count default
        (reqs.map fun q => (q.1, some q.2)) s = some (outs, s') ∧ outs.length = reqs.length ∧ ∀ y ∈ reqs.zip outs,
      if withoutReplacement then
        Selection ((servers.flatMap fun x => neighborsAt x.1 y.1.1 y.1.2 types).map reported) (List.replicate count default) y.2
      else Sampled ((servers.flatMap fun x => neighborsAt x.1 y.1.1 y.1.2 types).map reported) count default y.2 := by
  have hoff : ∀ x ∈ servers.map fun x => (x.2, fun q : Int × Option Int => (neighborsAt x.1 q.1 (q.2.getD 0) types).map reported),
      ∀ q ∈ reqs.map fun q : Int × Int => (q.1, some q.2), Offers x.1 withoutReplacement types q (x.2 q) := by
    intro x hx q hq
    obtain ⟨y, hy, rfl⟩ := List.mem_map.1 hx
    obtain ⟨n, hn, rfl⟩ := List.mem_map.1 hq
    obtain ⟨wm, m, hwm, hb⟩ := hb y hy
    exact hb.offersAt hwm withoutReplacement types n.1 n.2 (hgap y hy n hn) (hts n hn) (ho y hy n hn)
      (fun hw => hu hw y hy n hn) (hc y hy) (hr y hy)
  cases withoutReplacement with
  | true =>
    obtain ⟨outs, s', h1, h2, h3⟩ := uniformServers_without _ _ hoff Rs (by simpa using hlen) R count hcount default s
    rw [List.map_map] at h1
    refine ⟨outs, s', h1, by simpa using h2, ?_⟩
    intro y hy
    have := h3 ((y.1.1, some y.1.2), y.2) (by
      rw [List.zip_map_left]
      exact List.mem_map.2 ⟨y, hy, rfl⟩)
    rw [List.flatMap_map] at this
    rw [List.map_flatMap, if_pos rfl]
    exact this
  | false =>
    obtain ⟨outs, s', h1, h2, h3⟩ := uniformServers_with _ _ hoff Rs (by simpa using hlen) R count default s
    rw [List.map_map] at h1
    refine ⟨outs, s', h1, by simpa using h2, ?_⟩
    intro y hy
    have := h3 ((y.1.1, some y.1.2), y.2) (by
      rw [List.zip_map_left]
      exact List.mem_map.2 ⟨y, hy, rfl⟩)
    rw [List.flatMap_map] at this
    rw [List.map_flatMap, if_neg (by simp)]
    exact this

theorem mergeAdd_seen {σ : Type} {R : Draws} {up : σ → Nat → Nat → Option σ} {k n : Nat} {o o' : σ} {seen seen' s s' : Nat}
    (h : mergeAdd R up k n (o, seen, s) = some (o', seen', s')) (hn : k < seen + n) : seen' = seen := by
  simp only [mergeAdd] at h
  rw [if_neg (by omega)] at h
  obtain ⟨x, -, h⟩ := Option.bind_eq_some_iff.1 h
  obtain ⟨y, -, h⟩ := Option.bind_eq_some_iff.1 h
  obtain ⟨z, -, h⟩ := Option.map_eq_some_iff.1 h
  simp only [Prod.mk.injEq] at h
  exact h.2.1.symm

/-- A merge of more neighbours than fit into an empty reservoir. -/
theorem addRow_all (R : Draws) (count : Nat) (x : Nat × List (Int × Int)) (hx : x.2.length = count) (hn : count < x.1)
    (o : List (Int × Int)) (ho : o.length = count) (s : Nat) :
    ∃ o' s', addRow R true count (o, 0, s) x = some (o', 0, s') ∧ o'.length = count ∧ ∀ z ∈ o', z ∈ x.2 := by
  obtain ⟨out, seen, s', h1, h2, h3⟩ := C18_distinct R [(x.1, x.2.take (min x.1 count))] o (by
    intro y hy
    simp only [List.mem_singleton] at hy
    subst hy
    simp only [List.length_take, hx, ho]
    omega) s
  rw [ho] at h1
  rw [List.foldlM_cons] at h1
  obtain ⟨z, h4, h5⟩ := Option.bind_eq_some_iff.1 h1
  obtain rfl : z = (out, seen, s') := Option.some.inj h5
  dsimp only at h4
  have h6 := mergeAdd_mono R (rowUpdate_take hx) _ _ _ _ h4
  obtain rfl : seen = 0 := mergeAdd_seen h6 (by omega)
  refine ⟨out, s', h6, by omega, ?_⟩
  obtain ⟨chosen, ps, e1, e2, -, e4⟩ := h3
  simp only [List.flatMap_cons, List.flatMap_nil, List.append_nil, List.length_take, hx, ho] at e2 e4
  have hc : o.drop chosen.length = [] := List.drop_eq_nil_of_le (by omega)
  rw [hc, List.append_nil] at e1
  subst e1
  intro z hz
  have : some z ∈ ps.map fun p => (x.2.take (min x.1 count))[p]? := by rw [e4]; exact List.mem_map_of_mem hz
  obtain ⟨p, -, hp⟩ := List.mem_map.1 this
  exact List.mem_of_mem_take (List.mem_of_getElem? hp)

/-- Two servers with more neighbours of a node than requested: for all draws, the row has neighbours of the second server only. -/
theorem C63_lost (a b : List (List (List Rec)) × Graph) (hb : ∀ x ∈ [a, b], ∃ wm m, Built C wm m x.1 x.2)
    (Ra Rb R : Draws) (types : List Int) (count : Nat) (hc : 0 < count) (default : Int × Int) (n : Int)
    (hgap : ∀ x ∈ [a, b], Spec.NoGap x.1 n types) (ha : count < (neighbors a.1 n types).length)
    (hn : count < (neighbors b.1 n types).length) (s : Nat) :
    ∃ row s', uniformServers [(a.2, Ra), (b.2, Rb)] R true types count default [(n, none)] s = some ([row], s') ∧
      ∀ z ∈ row, z ∈ (neighbors b.1 n types).map reported := by
  have hoff : ∀ x ∈ [a, b].map fun x => (x.2, fun q : Int × Option Int => (neighbors x.1 q.1 types).map reported),
      ∀ q ∈ [((n, none) : Int × Option Int)], Offers x.1 true types q (x.2 q) := by
    intro x hx q hq
    obtain ⟨y, hy, rfl⟩ := List.mem_map.1 hx
    obtain rfl : q = (n, none) := by simpa using hq
    obtain ⟨wm, m, hb⟩ := hb y hy
    exact hb.offers true types n (hgap y hy)
  obtain ⟨asL, h1, h2⟩ := mapM_uniform (w := true) (fun g => g) (fun _ ts p id => p.sampleBlocks true id ts (sortUnique types)) _ _ hoff [Ra, Rb] rfl count (fun _ => hc) default
  obtain ⟨h3, h4⟩ := uniform_answers (G := fun g => g) h2
  simp only [uniformServers, Graph.serverUniform]
  simp only [List.map_cons, List.map_nil, List.zip_cons_cons, List.zip_nil_right] at h1 h2 h3 ⊢
  rw [h1, Option.bind_some]
  cases h2 with
  | cons p1 h2 =>
    rename_i xs asL
    cases h2 with
    | cons p2 h2 =>
      rename_i ys asL
      cases h2
      obtain ⟨l1, k1⟩ := p1
      obtain ⟨l2, k2⟩ := p2
      obtain ⟨x, rfl⟩ := List.length_eq_one_iff.1 l1
      obtain ⟨y, rfl⟩ := List.length_eq_one_iff.1 l2
      have o1 := k1 ((n, none), x) (by simp)
      have o2 := k2 ((n, none), y) (by simp)
      dsimp only at o1 o2
      cases x with
      | none => have := o1.none rfl; rw [List.map_eq_nil_iff] at this; rw [this] at ha; simp at ha
      | some x =>
        cases y with
        | none => have := o2.none rfl; rw [List.map_eq_nil_iff] at this; rw [this] at hn; simp at hn
        | some y =>
          obtain ⟨x1, x2, -⟩ := o1.some x rfl
          obtain ⟨y1, y2, y3, -⟩ := o2.some y rfl
          rw [List.length_map] at x1 y1
          rw [remoteUniform_start]
          obtain ⟨outs, s', e1, e2, e3⟩ := uniformNodes_eq R true count default
            (fun _ out => ∀ z ∈ out, z ∈ y.2) [n] ([[some x], [some y]].map fun as => Srv.mk [] as) (by
              intro v hv
              obtain ⟨as, has, rfl⟩ := List.mem_map.1 hv
              exact ⟨h3 as has, by simp, h4 as has⟩) s (by
              intro p hp s
              rw [srv_answers]
              have hp0 : p = 0 := by simpa using hp
              subst hp0
              obtain ⟨o1, s1, f1, f2, -⟩ := addRow_all R count x x2 (by omega) (List.replicate count default) (by simp) s
              obtain ⟨o2, s2, g1, g2, g3⟩ := addRow_all R count y y2 (by omega) o1 f2 s1
              refine ⟨o2, 0, s2, ?_, g3⟩
              show List.foldlM (addRow R true count) (List.replicate count default, 0, s) [x, y] = _
              simp [f1, g1])
          match outs, e2 with
          | [row], _ =>
            refine ⟨row, s', e1, ?_⟩
            intro z hz
            have hz2 := e3 0 row rfl z hz
            obtain ⟨chosen, ps, q1, q2, -, q4⟩ := y3 rfl
            rw [List.length_replicate, List.length_map] at q2
            rw [List.drop_eq_nil_of_le (by simp; omega), List.append_nil] at q1
            rw [q1] at hz2
            have : some z ∈ ps.map fun p => ((neighbors b.1 n types).map reported)[p]? := by rw [q4]; exact List.mem_map_of_mem hz2
            obtain ⟨p, -, hp⟩ := List.mem_map.1 this
            exact List.mem_of_getElem? hp

/-- Node 1 has two neighbours on each of two servers. -/
def C63_first : List (List (List Rec)) := [[[⟨1, -1, 0, 1, none, none, []⟩, ⟨1, 2, 0, 1, none, none, []⟩, ⟨1, 3, 0, 1, none, none, []⟩]]]

def C63_second : List (List (List Rec)) := [[[⟨1, 4, 0, 1, none, none, []⟩, ⟨1, 5, 0, 1, none, none, []⟩]]]

theorem C63_graphs : ∃ g k, Built intCodec none ⟨0, 0, -1⟩ C63_first g ∧ Built intCodec none ⟨0, 0, -1⟩ C63_second k := by
  obtain ⟨g, -, hb⟩ := built_of_check (wm := none) (m := ⟨0, 0, -1⟩) (parts := C63_first) (by decide +kernel)
  obtain ⟨k, -, hk⟩ := built_of_check (wm := none) (m := ⟨0, 0, -1⟩) (parts := C63_second) (by decide +kernel)
  exact ⟨g, k, hb, hk⟩

/-- Every neighbour should be sampled for some draws.  One sample without replacement of node 1, which has two neighbours on each of two
servers: for all draws of servers and client it comes from the second server. -/
theorem C63_reachable_refuted : ∃ g k, Built intCodec none ⟨0, 0, -1⟩ C63_first g ∧ Built intCodec none ⟨0, 0, -1⟩ C63_second k ∧
    (neighbors C63_first 1 [0]).map reported = [(2, 0), (3, 0)] ∧ ∀ (Ra Rb R : Draws) (s : Nat), ∃ row s',
      uniformServers [(g, Ra), (k, Rb)] R true [0] 1 (-1, -1) [(1, none)] s = some ([row], s') ∧ ∀ z ∈ row, z = (4, 0) ∨ z = (5, 0) := by
  obtain ⟨g, k, hb, hk⟩ := C63_graphs
  refine ⟨g, k, hb, hk, by decide +kernel, ?_⟩
  intro Ra Rb R s
  obtain ⟨row, s', h1, h2⟩ := C63_lost (C := intCodec) (C63_first, g) (C63_second, k) (by
    intro x hx
    simp only [List.mem_cons, List.not_mem_nil, or_false] at hx
    rcases hx with rfl | rfl
    · exact ⟨_, _, hb⟩
    · exact ⟨_, _, hk⟩) Ra Rb R [0] 1 (by decide) (-1, -1) 1 (by
    intro x hx
    simp only [List.mem_cons, List.not_mem_nil, or_false] at hx
    rcases hx with rfl | rfl <;> (unfold Spec.NoGap; dsimp only; decide +kernel)) (by dsimp only; decide +kernel)
    (by dsimp only; decide +kernel) s
  refine ⟨row, s', h1, ?_⟩
  intro z hz
  have := h2 z hz
  rw [show (neighbors C63_second 1 [0]).map reported = [(4, 0), (5, 0)] by decide +kernel] at this
  simpa using this

/-- Non-vacuity: three of the four neighbours of node 1, nothing for node 9. -/
example (Ra Rb R : Draws) : ∃ g k, Built intCodec none ⟨0, 0, -1⟩ C63_first g ∧ Built intCodec none ⟨0, 0, -1⟩ C63_second k ∧
    ∃ a s', uniformServers [(g, Ra), (k, Rb)] R true [0] 3 (-1, -1) [(1, none), (9, none)] 0 =
      some ([a, [(-1, -1), (-1, -1), (-1, -1)]], s') ∧
      Selection [(2, 0), (3, 0), (4, 0), (5, 0)] (List.replicate 3 (-1, -1)) a := by
  obtain ⟨g, k, hb, hk⟩ := C63_graphs
  obtain ⟨outs, s', h1, h2, h3⟩ := C63_without_partial (C := intCodec) [(C63_first, g), (C63_second, k)] (by
    intro x hx
    simp only [List.mem_cons, List.not_mem_nil, or_false] at hx
    rcases hx with rfl | rfl
    · exact ⟨_, _, hb⟩
    · exact ⟨_, _, hk⟩) [Ra, Rb] rfl R [0] 3 (by decide) (-1, -1) [1, 9] (by
    intro x hx n hn
    simp only [List.mem_cons, List.not_mem_nil, or_false] at hx hn
    rcases hx with rfl | rfl <;> rcases hn with rfl | rfl <;> (unfold Spec.NoGap; dsimp only; decide +kernel)) 0
  match outs, h2 with
  | [a, b], _ =>
    have ha := h3 (1, a) (by simp)
    have hb' := h3 (9, b) (by simp)
    simp only [List.flatMap_cons, List.flatMap_nil, List.append_nil] at ha hb'
    rw [show (neighbors C63_first 1 [0] ++ neighbors C63_second 1 [0]).map reported = [(2, 0), (3, 0), (4, 0), (5, 0)] by
      decide +kernel] at ha
    rw [show (neighbors C63_first 9 [0] ++ neighbors C63_second 9 [0]).map reported = [] by decide +kernel] at hb'
    obtain ⟨chosen, ps, e1, e2, -⟩ := hb'
    obtain rfl : chosen = [] := List.eq_nil_of_length_eq_zero (by simpa using e2)
    refine ⟨g, k, hb, hk, a, s', ?_, ha⟩
    simp only [List.nil_append, List.length_nil, List.drop_zero] at e1
    subst e1
    exact h1

/-- Non-vacuity with replacement. -/
example (Ra Rb R : Draws) : ∃ g k, Built intCodec none ⟨0, 0, -1⟩ C63_first g ∧ Built intCodec none ⟨0, 0, -1⟩ C63_second k ∧
    ∃ a s', uniformServers [(g, Ra), (k, Rb)] R false [0] 3 (-1, -1) [(1, none)] 0 = some ([a], s') ∧ a.length = 3 ∧
      ∀ z ∈ a, z ∈ [(2, 0), (3, 0), (4, 0), (5, 0)] := by
  obtain ⟨g, k, hb, hk⟩ := C63_graphs
  obtain ⟨outs, s', h1, h2, h3⟩ := C63_with_partial (C := intCodec) [(C63_first, g), (C63_second, k)] (by
    intro x hx
    simp only [List.mem_cons, List.not_mem_nil, or_false] at hx
    rcases hx with rfl | rfl
    · exact ⟨_, _, hb⟩
    · exact ⟨_, _, hk⟩) [Ra, Rb] rfl R [0] 3 (-1, -1) [1] (by
    intro x hx n hn
    simp only [List.mem_cons, List.not_mem_nil, or_false] at hx hn
    rcases hx with rfl | rfl <;> rcases hn with rfl <;> (unfold Spec.NoGap; dsimp only; decide +kernel)) 0
  match outs, h2 with
  | [a], _ =>
    have ha := h3 (1, a) (by simp)
    simp only [List.flatMap_cons, List.flatMap_nil, List.append_nil] at ha
    rw [show (neighbors C63_first 1 [0] ++ neighbors C63_second 1 [0]).map reported = [(2, 0), (3, 0), (4, 0), (5, 0)] by
      decide +kernel] at ha
    exact ⟨g, k, hb, hk, a, s', h1, ha.1, ha.2.1 (by simp)⟩

/-- Non-vacuity at a timestamp: two servers with the edges of `C06_example`. -/
example (Ra Rb R : Draws) : ∃ g, Built intCodec (some 9) ⟨0, 0, 9⟩ C06_example g ∧
    ∃ a s', uniformServers [(g, Ra), (g, Rb)] R false [0, 1] 2 (-1, -1) [(1, some 5)] 0 = some ([a], s') ∧ a.length = 2 ∧
      ∀ z ∈ a, z = (2, 0) ∨ z = (4, 1) := by
  obtain ⟨g, -, hb⟩ := built_of_check (wm := some 9) (m := ⟨0, 0, 9⟩) (parts := C06_example) (by decide +kernel)
  have hs : ∀ x ∈ [(C06_example, g), (C06_example, g)], x = (C06_example, g) := by simp
  obtain ⟨outs, s', h1, h2, h3⟩ := C63_temporal_partial (C := intCodec) [(C06_example, g), (C06_example, g)]
    (fun x hx => by rw [hs x hx]; exact ⟨_, _, by decide, hb⟩) [Ra, Rb] rfl R false [0, 1] 2 (by decide) (-1, -1) [(1, 5)]
    (fun x hx => by rw [hs x hx]; dsimp only; decide +kernel) (by decide) (fun x hx => by rw [hs x hx]; dsimp only; decide +kernel)
    (by simp) (fun x hx => by
      rw [hs x hx]
      intro r hr c hc
      have : ∀ r ∈ Spec.allRecords C06_example, 0 ≤ r.created.getD 0 := by decide +kernel
      simpa [hc] using this r hr) (fun x hx => by rw [hs x hx]; dsimp only; decide +kernel) 0
  match outs, h2 with
  | [a], _ =>
    have ha := h3 ((1, 5), a) (by simp)
    rw [if_neg (by simp)] at ha
    simp only [List.flatMap_cons, List.flatMap_nil, List.append_nil] at ha
    rw [show (neighborsAt C06_example 1 5 [0, 1] ++ neighborsAt C06_example 1 5 [0, 1]).map reported =
      [(2, 0), (4, 1), (2, 0), (4, 1)] by decide +kernel] at ha
    refine ⟨g, hb, a, s', h1, ha.1, fun z hz => ?_⟩
    have := ha.2.1 (by simp) z hz
    simp only [List.mem_cons, List.not_mem_nil, or_false] at this
    rcases this with h | h | h | h <;> simp [h]

end DeepGNN
