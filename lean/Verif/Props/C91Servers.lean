import Verif.Props.C63
import Verif.Props.C91

/-
C91 Creation times of uniform samples merged from several servers.
A server is given by the records it was built from, the graph and the watermark of its metadata.
-/

namespace DeepGNN

open Spec

variable {C : WeightCodec} {wm : Option Nat} {m : Meta} {parts : List (List (List Rec))} {g : Graph}

theorem Built.offersCreated (h : Built C wm m parts g) (hwm : 0 ≤ m.watermark) (w : Bool) (types : List Int) (n t : Int)
    (hgap : Spec.NoGap parts n types) (hts : -(2 ^ 31) ≤ t ∧ t < 2 ^ 31) (ho : OrderedLifetimes parts n)
    (hu : w = true → ∀ e ∈ allTimedEdges parts, e.src = n → e.removed = none)
    (hc : ∀ r ∈ allRecords parts, ∀ c, r.created = some c → 0 ≤ c) (hr : ∀ r ∈ allRecords parts, r.removed ≠ some 0) :
    OffersBy g (fun ts p id => p.offered m.watermark w id ts (sortUnique types)) (n, some t)
      ((liveSlots parts n t types).map sampledTime) := by
  obtain ⟨items, hg, -⟩ := h.graphOk
  obtain ⟨es, bs, h3, h4, h5⟩ := hg.timedBlocks hwm n w t hts (sortUnique types) (h.ordered hg n hc hr ho)
    (fun hw => h.unremoved hg n hc hr (hu hw))
  refine ⟨es, bs, h3, ?_, by rw [h5, found_slotsAt h hg _ _ types hgap hc hr]⟩
  simpa only [Partition.offered, hwm, if_true] using h4

theorem mapM_after {α β γ : Type} (f : α → Option β) (k : β → γ) (l : List α) :
    l.mapM (fun x => (f x).map k) = (l.mapM f).map (·.map k) := by
  induction l with
  | nil => rfl
  | cons x l ih =>
    rw [List.mapM_cons, List.mapM_cons, ih]
    cases f x with
    | none => rfl
    | some y => cases l.mapM f <;> rfl

theorem Built.offersUntimed (h : Built C wm m parts g) (watermark : Int) (w : Bool) (types : List Int) (n : Int)
    (hgap : Spec.NoGap parts n types) :
    OffersBy g (fun ts p id => p.offered watermark w id ts (sortUnique types)) (n, none)
      ((neighbors parts n types).map fun e => (reported e, -1)) := by
  obtain ⟨es, bs, h3, h4, h5⟩ := h.offers w types n hgap
  refine ⟨es, bs.map (·.map (·.map fun x => (x, noTime))), h3, ?_, ?_⟩
  · simp only [Partition.offered]
    rw [mapM_after, h4]
    rfl
  · rw [← List.map_flatten, ← List.map_flatten, h5, List.map_map]
    rfl

/-- Uniform samples at timestamps from any number of servers, for all draws of servers and client: every sampled neighbour comes with
the creation time of its own edge, and entries without a neighbour with the placeholder.  Without replacement the edges are at
distinct positions, also if a node has more neighbours than are requested.  Missing: as in `C63_temporal_partial`. -/
theorem C91_servers_partial (servers : List (List (List (List Rec)) × (Graph × Int)))
    (hb : ∀ x ∈ servers, ∃ wm m, m.watermark = x.2.2 ∧ 0 ≤ m.watermark ∧ Built C wm m x.1 x.2.1)
    (Rs : List Draws) (hlen : Rs.length = servers.length) (R : Draws) (withoutReplacement : Bool) (types : List Int) (count : Nat)
    (hcount : 0 < count) (default : Int × Int) (reqs : List (Int × Int))
    (hgap : ∀ x ∈ servers, ∀ q ∈ reqs, Spec.NoGap x.1 q.1 types)
    (hts : ∀ q ∈ reqs, -(2 ^ 31) ≤ q.2 ∧ q.2 < 2 ^ 31) (ho : ∀ x ∈ servers, ∀ q ∈ reqs, OrderedLifetimes x.1 q.1)
    (hu : withoutReplacement = true → ∀ x ∈ servers, ∀ q ∈ reqs, ∀ e ∈ allTimedEdges x.1, e.src = q.1 → e.removed = none)
    (hc : ∀ x ∈ servers, ∀ r ∈ allRecords x.1, ∀ c, r.created = some c → 0 ≤ c)
    (hr : ∀ x ∈ servers, ∀ r ∈ allRecords x.1, r.removed ≠ some 0) (s : Nat) :
    ∃ outs s', createdServers ((servers.map (·.2)).zip Rs) R withoutReplacement types count default
        (reqs.map fun q => (q.1, some q.2)) s = some (outs, s') ∧ outs.length = reqs.length ∧ ∀ y ∈ reqs.zip outs,
      if withoutReplacement then
        Selection ((servers.flatMap fun x => liveSlots x.1 y.1.1 y.1.2 types).map sampledTime)
          (List.replicate count (default, -1)) y.2
      else Sampled ((servers.flatMap fun x => liveSlots x.1 y.1.1 y.1.2 types).map sampledTime) count (default, -1) y.2 := by
  have hoff : ∀ x ∈ servers.map fun x => (x.2, fun q : Int × Option Int => (liveSlots x.1 q.1 (q.2.getD 0) types).map sampledTime),
      ∀ q ∈ reqs.map fun q : Int × Int => (q.1, some q.2),
        OffersBy x.1.1 (fun ts p id => p.offered x.1.2 withoutReplacement id ts (sortUnique types)) q (x.2 q) := by
    intro x hx q hq
    obtain ⟨y, hy, rfl⟩ := List.mem_map.1 hx
    obtain ⟨n, hn, rfl⟩ := List.mem_map.1 hq
    obtain ⟨wm, m, hm, hwm, hb⟩ := hb y hy
    have := hb.offersCreated hwm withoutReplacement types n.1 n.2 (hgap y hy n hn) (hts n hn) (ho y hy n hn)
      (fun hw => hu hw y hy n hn) (hc y hy) (hr y hy)
    rw [hm] at this
    exact this
  cases withoutReplacement with
  | true =>
    obtain ⟨outs, s', h1, h2, h3⟩ := createdServers_without _ _ hoff Rs (by simpa using hlen) R count hcount default s
    rw [List.map_map] at h1
    refine ⟨outs, s', h1, by simpa using h2, ?_⟩
    intro y hy
    have := h3 ((y.1.1, some y.1.2), y.2) (by
      rw [List.zip_map_left]
      exact List.mem_map.2 ⟨y, hy, rfl⟩)
    rw [List.flatMap_map] at this
    rw [if_pos rfl, List.map_flatMap]
    exact this
  | false =>
    obtain ⟨outs, s', h1, h2, h3⟩ := createdServers_with _ _ hoff Rs (by simpa using hlen) R count default s
    rw [List.map_map] at h1
    refine ⟨outs, s', h1, by simpa using h2, ?_⟩
    intro y hy
    have := h3 ((y.1.1, some y.1.2), y.2) (by
      rw [List.zip_map_left]
      exact List.mem_map.2 ⟨y, hy, rfl⟩)
    rw [List.flatMap_map] at this
    rw [if_neg (by simp), List.map_flatMap]
    exact this

/-- Without timestamps in the request the client gets the placeholder -1 for every neighbour, whatever the servers are: creation
times are not returned although the edges have them. -/
theorem C91_servers_untimed_refuted (servers : List (List (List (List Rec)) × (Graph × Int)))
    (hb : ∀ x ∈ servers, ∃ wm m, Built C wm m x.1 x.2.1) (Rs : List Draws) (hlen : Rs.length = servers.length)
    (R : Draws) (types : List Int) (count : Nat) (default : Int × Int) (nodes : List Int)
    (hgap : ∀ x ∈ servers, ∀ n ∈ nodes, Spec.NoGap x.1 n types) (s : Nat) :
    ∃ outs s', createdServers ((servers.map (·.2)).zip Rs) R false types count default (nodes.map fun n => (n, none)) s =
        some (outs, s') ∧ outs.length = nodes.length ∧ ∀ y ∈ nodes.zip outs,
      Sampled ((servers.flatMap fun x => neighbors x.1 y.1 types).map fun e => (reported e, -1)) count (default, -1) y.2 := by
  obtain ⟨outs, s', h1, h2, h3⟩ := createdServers_with (types := types)
    (servers.map fun x => (x.2, fun q : Int × Option Int => (neighbors x.1 q.1 types).map fun e => (reported e, -1)))
    (nodes.map fun n => (n, none)) (by
      intro x hx q hq
      obtain ⟨y, hy, rfl⟩ := List.mem_map.1 hx
      obtain ⟨n, hn, rfl⟩ := List.mem_map.1 hq
      obtain ⟨wm, m, hb⟩ := hb y hy
      exact hb.offersUntimed y.2.2 false types n (hgap y hy n hn)) Rs (by simpa using hlen) R count default s
  rw [List.map_map] at h1
  refine ⟨outs, s', h1, by simpa using h2, ?_⟩
  intro y hy
  have := h3 ((y.1, none), y.2) (by
    rw [List.zip_map_left]
    exact List.mem_map.2 ⟨y, hy, rfl⟩)
  rw [List.flatMap_map] at this
  rw [List.map_flatMap]
  exact this

/-! The neighbours do not depend on the times. -/

theorem replaceSlots_map {σ τ : Type} (f : σ → τ) (up : σ → Nat → Nat → Option σ) (up' : τ → Nat → Nat → Option τ)
    (hup : ∀ o i j, up' (f o) i j = (up o i j).map f) (is kept new : List Nat) (o : σ) :
    replaceSlots up' is kept new (f o) = (replaceSlots up is kept new o).map f := by
  induction is generalizing kept new o with
  | nil => rfl
  | cons i is ih =>
    simp only [replaceSlots]
    split
    · exact ih _ _ _
    · cases new with
      | nil => rfl
      | cons j js =>
        simp only [hup]
        cases up o i j with
        | none => rfl
        | some o' => exact ih _ _ _

theorem mergeAdd_map {σ τ : Type} (R : Draws) (f : σ → τ) (up : σ → Nat → Nat → Option σ) (up' : τ → Nat → Nat → Option τ)
    (hup : ∀ o i j, up' (f o) i j = (up o i j).map f) (k n : Nat) (st : σ × Nat × Nat) :
    mergeAdd R up' k n (f st.1, st.2) = (mergeAdd R up k n st).map fun x => (f x.1, x.2) := by
  obtain ⟨o, seen, s⟩ := st
  simp only [mergeAdd]
  split
  · have := foldlM_map_state f id (fun o i => up o (seen + i) i) (fun o i => up' o (seen + i) i) (fun o i => hup o (seen + i) i)
      (List.range n) o
    rw [List.map_id] at this
    rw [this, Option.map_map, Option.map_map]
    rfl
  · simp only [replaceSlots_map f up up' hup, Option.map_bind, Option.map_map, Function.comp_def]

/-- A reply without the times. -/
def eraseReply {α β : Type} (f : α → β) (r : UReply α) : UReply β := { nodes := r.nodes, counts := r.counts, nbrs := r.nbrs.map f }

theorem replyUpdate_map {α β : Type} (f : α → β) (count : Nat) (r : UReply α) (it : Nat) (out : List α) (i j : Nat) :
    replyUpdate count (eraseReply f r) it (out.map f) i j = (replyUpdate count r it out i j).map (List.map f) := by
  simp only [replyUpdate, eraseReply, List.length_map, List.getElem?_map]
  split
  · cases r.nbrs[count * it + j % count]? with
    | none => rfl
    | some a => simp [List.map_set]
  · rfl

theorem uniformReply_map {α β : Type} (f : α → β) (R : Draws) (w : Bool) (count : Nat) (n : Int) (x : UReply α × Nat)
    (st : List α × Nat × Nat) :
    uniformReply R w count n (eraseReply f x.1, x.2) (st.1.map f, st.2) =
      (uniformReply R w count n x st).map fun y => ((eraseReply f y.1.1, y.1.2), (y.2.1.map f, y.2.2)) := by
  have h1 := fun c => mergeAdd_map R (List.map f) (replyUpdate count x.1 x.2) (replyUpdate count (eraseReply f x.1) x.2)
    (replyUpdate_map f count x.1 x.2) count c st
  have h2 := fun c => withReplacementAdd_map R (List.map f) (replyUpdate count x.1 x.2) (replyUpdate count (eraseReply f x.1) x.2)
    (replyUpdate_map f count x.1 x.2) count c st
  simp only [uniformReply]
  have e1 : (eraseReply f x.1).nodes = x.1.nodes := rfl
  have e2 : (eraseReply f x.1).counts = x.1.counts := rfl
  rw [e1, e2]
  split
  · cases x.1.counts[x.2]? with
    | none => rfl
    | some c =>
      simp only [Option.bind_some, h1, h2]
      cases w <;> simp only [if_true, Bool.false_eq_true, if_false, Option.map_map, Function.comp_def]
  · rfl

theorem uniformReplies_map {α β : Type} (f : α → β) (R : Draws) (w : Bool) (count : Nat) (n : Int) (xs : List (UReply α × Nat))
    (st : List α × Nat × Nat) :
    uniformReplies R w count n (xs.map fun x => (eraseReply f x.1, x.2)) (st.1.map f, st.2) =
      (uniformReplies R w count n xs st).map fun y => (y.1.map fun x => (eraseReply f x.1, x.2), (y.2.1.map f, y.2.2)) := by
  induction xs generalizing st with
  | nil => rfl
  | cons x xs ih =>
    rw [List.map_cons, uniformReplies, uniformReplies, uniformReply_map]
    cases uniformReply R w count n x st with
    | none => rfl
    | some y =>
      simp only [Option.map_some, Option.bind_some, ih, Option.map_map]
      cases uniformReplies R w count n xs y.2 <;> rfl

theorem uniformNodes_map {α β : Type} (f : α → β) (R : Draws) (w : Bool) (count : Nat) (default : α) (ns : List Int)
    (xs : List (UReply α × Nat)) (s : Nat) :
    uniformNodes R w count (f default) ns (xs.map fun x => (eraseReply f x.1, x.2)) s =
      (uniformNodes R w count default ns xs s).map fun z => (z.1.map (·.map f), z.2) := by
  induction ns generalizing xs s with
  | nil => rfl
  | cons n ns ih =>
    have := uniformReplies_map f R w count n xs (List.replicate count default, 0, s)
    rw [List.map_replicate] at this
    rw [uniformNodes, uniformNodes, this]
    cases uniformReplies R w count n xs (List.replicate count default, 0, s) with
    | none => rfl
    | some y =>
      simp only [Option.map_some, Option.bind_some, ih, Option.map_map]
      cases uniformNodes R w count default ns y.1 y.2.2.2 <;> rfl

theorem remoteUniform_map {α β : Type} (f : α → β) (R : Draws) (w : Bool) (count : Nat) (default : α) (ns : List Int)
    (rs : List (UReply α)) (s : Nat) :
    remoteUniform R w count (f default) ns (rs.map (eraseReply f)) s =
      (remoteUniform R w count default ns rs s).map fun z => (z.1.map (·.map f), z.2) := by
  rw [remoteUniform, remoteUniform, ← uniformNodes_map]
  simp only [List.map_map, Function.comp_def]

theorem offered_erase {p : Partition} {wmk : Int} {w : Bool} {id : Nat} {ts : Option Int} {types : List Int}
    {bs : List (List ((Int × Int) × Int))} (h : p.offered wmk w id ts types = some bs) :
    p.sampleBlocks w id ts types = some (bs.map (·.map (·.1))) := by
  have key : ∀ {bs}, (p.sampleBlocks w id ts types).map (fun bs => bs.map (·.map fun x => (x, noTime))) = some bs →
      p.sampleBlocks w id ts types = some (bs.map (·.map (·.1))) := by
    intro bs h
    obtain ⟨cs, h1, rfl⟩ := Option.map_eq_some_iff.1 h
    rw [h1]
    simp [Function.comp_def]
  cases ts with
  | none => exact key h
  | some t =>
    simp only [Partition.offered] at h
    split at h
    · exact timedBlocks_erase h
    · exact key h

theorem serverCreated1_erase {g : Graph} {wmk : Int} {R : Draws} {w : Bool} {ts : Option Int} {types : List Int} {count : Nat}
    {default : Int × Int} {n : Int} {s : Nat} {a : Option (Nat × List ((Int × Int) × Int)) × Nat}
    (h : g.serverUniform1 R w (fun p id => p.offered wmk w id ts types) count (default, noTime) n s = some a) :
    g.serverUniform1 R w (fun p id => p.sampleBlocks w id ts types) count default n s =
      some (a.1.map fun x => (x.1, x.2.map (·.1)), a.2) := by
  simp only [Graph.serverUniform1] at h ⊢
  cases hn : g.nodeMap n with
  | none =>
    rw [hn] at h
    simp only [Option.some.injEq] at h ⊢
    rw [← h]
    rfl
  | some k =>
    rw [hn] at h
    simp only at h ⊢
    obtain ⟨es, h5, h6⟩ := Option.bind_eq_some_iff.1 h
    obtain ⟨bs, h7, h8⟩ := Option.bind_eq_some_iff.1 h6
    have hb : es.mapM (fun e : Partition × Nat => e.1.sampleBlocks w e.2 ts types) = some (bs.map (·.map (·.map (·.1)))) := by
      clear h h5 h6 h8
      induction es generalizing bs with
      | nil => obtain rfl : [] = bs := by simpa using h7
               rfl
      | cons e es ih =>
        rw [List.mapM_cons] at h7 ⊢
        obtain ⟨b, h1, h2⟩ := Option.bind_eq_some_iff.1 h7
        obtain ⟨cs, h3, h4⟩ := Option.bind_eq_some_iff.1 h2
        obtain rfl : b :: cs = bs := by simpa using h4
        rw [offered_erase h1, ih cs h3]
        rfl
    have hmf : bs.flatten.map (fun xs : List ((Int × Int) × Int) => xs.map (·.1)) = (bs.map (·.map (·.map (·.1)))).flatten := by
      simp [List.map_flatten]
    rw [h5, Option.bind_some, hb, Option.bind_some, sum_erase, ← hmf]
    have hrep : (List.replicate count (default, noTime)).map (·.1) = List.replicate count default := by simp
    cases w with
    | true =>
      have hf := foldlM_map_state (fun x : List ((Int × Int) × Int) × AlgL × Nat => (x.1.map (·.1), x.2))
        (fun xs : List ((Int × Int) × Int) => xs.map (·.1)) (fun st xs => AlgL.add R (store xs) xs.length st)
        (fun st xs => AlgL.add R (store xs) xs.length st) (by
          intro st xs
          simpa using AlgL.add_map R (List.map (·.1)) (store xs) (store (xs.map (·.1)))
            (store_map (·.1) xs) xs.length st) bs.flatten (List.replicate count (default, noTime), ({ k := count } : AlgL), s)
      simp only [hrep] at hf
      simp only [if_true] at h8 ⊢
      rw [hf]
      obtain ⟨z, h9, h10⟩ := Option.map_eq_some_iff.1 h8
      obtain ⟨z', h11, rfl⟩ := Option.map_eq_some_iff.1 h9
      rw [h11, ← h10]
      rfl
    | false =>
      have hf := foldlM_map_state (fun x : List ((Int × Int) × Int) × Nat × Nat => (x.1.map (·.1), x.2))
        (fun xs : List ((Int × Int) × Int) => xs.map (·.1)) (fun st xs => withReplacementAdd R (store xs) count xs.length st)
        (fun st xs => withReplacementAdd R (store xs) count xs.length st) (by
          intro st xs
          simpa using withReplacementAdd_map R (List.map (·.1)) (store xs) (store (xs.map (·.1)))
            (store_map (·.1) xs) count xs.length st) bs.flatten (List.replicate count (default, noTime), 0, s)
      simp only [hrep] at hf
      simp only [Bool.false_eq_true, if_false] at h8 ⊢
      rw [hf]
      obtain ⟨z, h9, h10⟩ := Option.map_eq_some_iff.1 h8
      obtain ⟨z', h11, rfl⟩ := Option.map_eq_some_iff.1 h9
      rw [h11, ← h10]
      rfl

theorem serverCreatedLoop_erase {g : Graph} {wmk : Int} {R : Draws} {w : Bool} {types : List Int} {count : Nat}
    {default : Int × Int} (reqs : List (Int × Option Int)) (s : Nat) (r r' : UReply ((Int × Int) × Int))
    (h : g.serverUniformLoop R w (fun ts p id => p.offered wmk w id ts types) count (default, noTime) reqs s r = some r') :
    g.serverUniformLoop R w (fun ts p id => p.sampleBlocks w id ts types) count default reqs s (eraseReply (·.1) r) =
      some (eraseReply (·.1) r') := by
  induction reqs generalizing s r with
  | nil =>
    simp only [Graph.serverUniformLoop, Option.some.injEq] at h ⊢
    rw [h]
  | cons q reqs ih =>
    simp only [Graph.serverUniformLoop] at h ⊢
    obtain ⟨a, h1, h2⟩ := Option.bind_eq_some_iff.1 h
    rw [serverCreated1_erase h1, Option.bind_some, ← ih _ _ h2]
    obtain ⟨x, t⟩ := a
    cases x with
    | none => rfl
    | some x => simp [eraseReply]

/-- Asking for creation times does not change what is sampled from several servers: with the same draws the neighbours are those of
the request without them. -/
theorem C91_servers_same (servers : List ((Graph × Int) × Draws)) (R : Draws) (w : Bool) (types : List Int) (count : Nat)
    (default : Int × Int) (reqs : List (Int × Option Int)) (s : Nat) (outs : List (List ((Int × Int) × Int))) (s' : Nat)
    (h : createdServers servers R w types count default reqs s = some (outs, s')) :
    uniformServers (servers.map fun x => (x.1.1, x.2)) R w types count default reqs s = some (outs.map (·.map (·.1)), s') := by
  simp only [createdServers, uniformServers] at h ⊢
  obtain ⟨rs, h1, h2⟩ := Option.bind_eq_some_iff.1 h
  have key : (servers.map fun x => (x.1.1, x.2)).mapM (fun x : Graph × Draws =>
      x.1.serverUniform x.2 w (sortUnique types) count default reqs) = some (rs.map (eraseReply (·.1))) := by
    clear h h2
    induction servers generalizing rs with
    | nil => obtain rfl : [] = rs := by simpa using h1
             rfl
    | cons x xs ih =>
      rw [List.mapM_cons] at h1
      obtain ⟨b, h3, h4⟩ := Option.bind_eq_some_iff.1 h1
      obtain ⟨cs, h5, h6⟩ := Option.bind_eq_some_iff.1 h4
      obtain rfl : b :: cs = rs := by simpa using h6
      have h7 : x.1.1.serverUniform x.2 w (sortUnique types) count default reqs = some (eraseReply (·.1) b) :=
        serverCreatedLoop_erase reqs 0 ⟨[], [], []⟩ b h3
      rw [List.map_cons, List.mapM_cons, h7, ih cs h5]
      rfl
  rw [key, Option.bind_some, remoteUniform_map (fun x : (Int × Int) × Int => x.1) R w count (default, noTime), h2]
  rfl

/-- Non-vacuity: node 1 at time 3 on two servers with the edges of `C16_forever`; there are more edges than places. -/
example (Ra Rb R : Draws) : ∃ g, Built intCodec (some 9) ⟨0, 0, 9⟩ C16_forever g ∧
    ∃ a s', createdServers [((g, 9), Ra), ((g, 9), Rb)] R true [0] 3 (-1, -1) [(1, some 3)] 0 = some ([a], s') ∧
      Selection [((2, 0), 0), ((3, 0), 1), ((2, 0), 0), ((3, 0), 1)] (List.replicate 3 ((-1, -1), -1)) a ∧
      uniformServers [(g, Ra), (g, Rb)] R true [0] 3 (-1, -1) [(1, some 3)] 0 = some ([a.map (·.1)], s') := by
  obtain ⟨g, -, hb⟩ := built_of_check (wm := some 9) (m := ⟨0, 0, 9⟩) (parts := C16_forever) (by decide +kernel)
  have hs : ∀ x ∈ [(C16_forever, (g, (9 : Int))), (C16_forever, (g, 9))], x = (C16_forever, (g, 9)) := by simp
  obtain ⟨outs, s', h1, h2, h3⟩ := C91_servers_partial (C := intCodec) [(C16_forever, (g, 9)), (C16_forever, (g, 9))]
    (fun x hx => by rw [hs x hx]; exact ⟨_, ⟨0, 0, 9⟩, rfl, by decide, hb⟩) [Ra, Rb] rfl R true [0] 3 (by decide) (-1, -1) [(1, 3)]
    (fun x hx => by rw [hs x hx]; dsimp only; decide +kernel) (by decide) (fun x hx => by rw [hs x hx]; dsimp only; decide +kernel)
    (fun _ x hx => by rw [hs x hx]; dsimp only; decide +kernel) (fun x hx => by
      rw [hs x hx]
      intro r hr c hc
      have : ∀ r ∈ Spec.allRecords C16_forever, 0 ≤ r.created.getD 0 := by decide +kernel
      simpa [hc] using this r hr) (fun x hx => by rw [hs x hx]; dsimp only; decide +kernel) 0
  match outs, h2 with
  | [a], _ =>
    have ha := h3 ((1, 3), a) (by simp)
    rw [if_pos rfl] at ha
    simp only [List.flatMap_cons, List.flatMap_nil, List.append_nil] at ha
    rw [show (liveSlots C16_forever 1 3 [0] ++ liveSlots C16_forever 1 3 [0]).map sampledTime =
      [((2, 0), 0), ((3, 0), 1), ((2, 0), 0), ((3, 0), 1)] by decide +kernel] at ha
    exact ⟨g, hb, a, s', h1, ha, C91_servers_same _ _ _ _ _ _ _ _ _ _ h1⟩

/-- Non-vacuity without timestamps: three edges, created at 0, 1 and 5. -/
example (Ra R : Draws) : ∃ g, Built intCodec (some 9) ⟨0, 0, 9⟩ C16_forever g ∧
    ∃ a s', createdServers [((g, 9), Ra)] R false [0] 2 (-1, -1) [(1, none)] 0 = some ([a], s') ∧
      Sampled [((2, 0), -1), ((3, 0), -1), ((4, 0), -1)] 2 ((-1, -1), -1) a := by
  obtain ⟨g, -, hb⟩ := built_of_check (wm := some 9) (m := ⟨0, 0, 9⟩) (parts := C16_forever) (by decide +kernel)
  obtain ⟨outs, s', h1, h2, h3⟩ := C91_servers_untimed_refuted (C := intCodec) [(C16_forever, (g, 9))]
    (fun x hx => by obtain rfl : x = _ := by simpa using hx
                    exact ⟨_, _, hb⟩) [Ra] rfl R [0] 2 (-1, -1) [1]
    (fun x hx => by obtain rfl : x = _ := by simpa using hx
                    dsimp only; decide +kernel) 0
  match outs, h2 with
  | [a], _ =>
    have ha := h3 (1, a) (by simp)
    simp only [List.flatMap_cons, List.flatMap_nil, List.append_nil] at ha
    rw [show ((neighbors C16_forever 1 [0]).map fun e => (reported e, (-1 : Int))) =
      [((2, 0), -1), ((3, 0), -1), ((4, 0), -1)] by decide +kernel] at ha
    exact ⟨g, hb, a, s', h1, ha⟩

end DeepGNN
