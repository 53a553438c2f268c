import Verif.Proofs.Retry
import Verif.Props.C24
import Verif.Props.C25
import Verif.Props.C64
import Verif.Props.C65

/-
C72 Remote queries with failed calls.
-/

namespace DeepGNN

open Spec Retry

variable {C : WeightCodec} {wm : Option Nat} {m : Meta} {parts : List (List (List Rec))} {g : Graph}

/-- For all methods, servers, limits and orders of events without undefined behaviour: there are at most `M` attempts,
at least one; all but the last one lost a call; an exception is raised only if `M` attempts lost a call each, and a result is
returned only if all servers answered in the same attempt. -/
theorem C72_attempts {ρ σ ε β : Type} (q : Method ρ σ ε β) (n M : Nat) (buffer : β) (evs : List (Event ρ)) (s : State σ ε β)
    (hr : run q n M buffer evs = some s) :
    s.attempt + 1 ≤ max 1 M ∧ (∀ a, a < s.attempt → AttemptFailed n evs a) ∧
      (s.phase = .raised → ∀ a, a < max 1 M → AttemptFailed n evs a) ∧
      (∀ out, s.phase = .returned out → AttemptAnswered n evs s.attempt) := by
  have h := inv_run (P := fun _ => True) (Q := fun _ _ => True) (fun _ _ _ _ _ _ => trivial) buffer trivial evs
    (fun _ _ _ _ => trivial) s hr
  have hearly : ∀ a, a < s.attempt → AttemptFailed n evs a := by
    intro a ha
    obtain ⟨i, hi, hd⟩ := h.earlier a ha
    exact ⟨i, hi, h.failed a i hd⟩
  refine ⟨h.bound, hearly, ?_, ?_⟩
  · intro hp a ha
    obtain ⟨h1, i, hi, hd⟩ := h.stopped hp
    rcases Nat.lt_or_ge a s.attempt with ha' | ha'
    · exact hearly a ha'
    · have : a = s.attempt := by omega
      subst this
      exact ⟨i, hi, h.failed _ i hd⟩
  · intro out ho i hi
    obtain ⟨-, buf, tr, -, -, -, h4⟩ := h.finished out ho
    obtain ⟨r, h5, -⟩ := h4 i hi
    exact ⟨r, h5⟩

/-- No query hangs: once all calls of an attempt are done, the attempt ends, with a result if no call failed. -/
theorem C72_progress {ρ σ ε β : Type} (q : Method ρ σ ε β) (n M : Nat) (buffer : β) (evs : List (Event ρ)) (s s' : State σ ε β)
    (hr : run q n M buffer evs = some s) (hrun : s.phase = .running)
    (hd : ∀ i, i < n → ∃ ok, s.calls s.attempt i = .done ok)
    (hr' : run q n M buffer (evs ++ List.replicate (n + 1) .wait) = some s') :
    s'.phase ≠ .running ∧ ((∀ i, i < n → s.calls s.attempt i = .done true) → ∃ out, s'.phase = .returned out) := by
  have h := inv_run (P := fun _ => True) (Q := fun _ _ => True) (fun _ _ _ _ _ _ => trivial) buffer trivial evs
    (fun _ _ _ _ => trivial) s hr
  rw [run_append, hr, Option.bind_some] at hr'
  exact waits (n + 1) s s' hrun (h.passed hrun).1 (by omega) hd hr'

/-- Counts of neighbours: for all orders of events without undefined behaviour, all failures, all limits and
contents of the array before the call, a result is that of the local graph. -/
theorem C72_counts_partial (h : Built C wm m parts g) (servers : List (List (List (List Rec)) × Graph)) (hne : servers ≠ [])
    (hs : ∀ s ∈ servers, Built C wm m s.1 s.2) (hp : (servers.flatMap (·.1)).Perm parts) (nodes : List Int)
    (ts : Option (List Int)) (hts : ∀ l, ts = some l → l.length = nodes.length) (types : List Int) (counts : List Nat)
    (hl : g.getCounts nodes ts types = some counts) (buffer : List Nat) (hb : buffer.length = nodes.length) :
    ∃ replies, servers.mapM (fun s => s.2.getCounts nodes ts types) = some replies ∧
      ∀ M evs s out, Serves replies evs → run (countsMethod servers.length) servers.length M buffer evs = some s →
        s.phase = .returned out → out = counts := by
  obtain ⟨replies, h1, h2⟩ := C25_counts h servers hne hs hp nodes ts hts types counts hl
  have hlen := length_mapM h1
  refine ⟨replies, h1, fun M evs s out hev hr ho => ?_⟩
  have hne' : replies ≠ [] := by
    intro h0
    rw [h0] at hlen
    exact hne (List.length_eq_zero_iff.1 hlen.symm)
  rw [← hlen] at hr
  obtain ⟨buf, evs', h3, h4, h5⟩ := lastMerge_returned (P := fun b => b.length = nodes.length) replies hne'
    (fun b hb => by simpa using hb)
    (fun rs b b' hb hm => by cases hm; exact (length_foldl_addCounts rs b).trans hb) buffer hb evs hev s hr out ho
  have h6 := h2 evs' h4
  rw [remoteCounts, ← hlen, waitAll_eq _ _ replies hne' evs' h4] at h6
  rw [h3] at h5
  exact (Option.some.inj h5).symm.trans (Option.some.inj h6)

/-- Neighbours. -/
theorem C72_neighbors_partial (h : Built C wm m parts g) (servers : List (List (List (List Rec)) × Graph)) (hne : servers ≠ [])
    (hs : ∀ s ∈ servers, Built C wm m s.1 s.2) (hp : (servers.flatMap (·.1)).Perm parts) (nodes : List Int)
    (ts : Option (List Int)) (hts : ∀ l, ts = some l → l.length = nodes.length ∧ 0 ≤ m.watermark) (types : List Int)
    (buffer : List Nbr × List Nat) (hb : buffer.2.length = nodes.length) :
    ∃ nbrs counts replies, g.fullNeighbor nodes ts types = some (nbrs, counts) ∧
      servers.mapM (fun s => s.2.getNeighbors nodes ts types) = some replies ∧
      ∀ M evs s out, Serves replies evs →
        run (neighborsMethod nodes.length servers.length) servers.length M buffer evs = some s → s.phase = .returned out →
        out.2 = counts ∧ ∀ k, (C25_segment counts out.1 k).Perm (C25_segment counts nbrs k) := by
  obtain ⟨nbrs, counts, replies, h0, h1, h2⟩ := C25_neighbors h servers hne hs hp nodes ts hts types
  have hlen := length_mapM h1
  refine ⟨nbrs, counts, replies, h0, h1, fun M evs s out hev hr ho => ?_⟩
  have hne' : replies ≠ [] := by
    intro h0
    rw [h0] at hlen
    exact hne (List.length_eq_zero_iff.1 hlen.symm)
  rw [← hlen] at hr
  obtain ⟨buf, evs', h3, h4, h5⟩ := lastMerge_returned (P := fun b => b.2.length = nodes.length) replies hne'
    (fun b hb => by simpa using hb)
    (fun rs b b' hb hm => by
      obtain ⟨y, -, rfl⟩ := Option.map_eq_some_iff.1 hm
      exact (length_addCounts _ _).trans hb) buffer hb evs hev s hr out ho
  obtain ⟨nbrs', h6, h7⟩ := h2 evs' h4
  rw [remoteNeighbors, ← hlen, waitAll_eq _ _ replies hne' evs' h4] at h6
  obtain ⟨y, h8, rfl⟩ := Option.map_eq_some_iff.1 h5
  have h9 := length_mergeNodes _ _ _ _ h8
  rw [Option.some.inj h6] at h8
  cases h8
  rw [List.nil_append]
  refine ⟨?_, h7⟩
  rw [h3]
  exact addCounts_zeros _ _ h9

/-- The last created neighbours: a result is one of a request without failures. -/
theorem C72_last_n_partial (len count : Nat) (default : Slot) (replies : List LastNReply) (hne : replies ≠ []) (buffer : List Slot)
    (M : Nat) (evs : List (Event LastNReply)) (hev : Serves replies evs) (s : State _ _ (List Slot))
    (hr : run (lastNMethod len count default replies.length) replies.length M buffer evs = some s) (out : List Slot)
    (ho : s.phase = .returned out) :
    ∃ evs', Schedule replies evs' ∧ remoteLastN len count default evs' replies.length = some (some out) := by
  obtain ⟨buf, evs', -, h4, h5⟩ := lastMerge_returned (P := fun _ => True) replies hne (fun _ _ => trivial)
    (fun _ _ _ _ _ => trivial) buffer trivial evs hev s hr out ho
  refine ⟨evs', h4, ?_⟩
  rw [remoteLastN, waitAll_eq _ _ replies hne evs' h4, h5]

/-- Node features, if the node records of a node, usually one, agree about its features. -/
theorem C72_features_partial (h : Built C wm m parts g) (servers : List (List (List (List Rec)) × Graph))
    (hs : ∀ s ∈ servers, Built C wm m s.1 s.2) (hp : (servers.flatMap (·.1)).Perm parts) (nodes : List Int)
    (hne : nodes ≠ []) (feats : List (Nat × Nat))
    (hagree : ∀ n ∈ nodes, ∀ r ∈ nodeRecords parts n, ∀ r' ∈ nodeRecords parts n, r.features = r'.features)
    (replies : List FeatReply) (hreplies : servers.mapM (fun s => s.2.getNodeFeatures nodes none feats) = some replies)
    (buffer : Bytes) (hb : buffer.length = (feats.map (·.2)).sum * nodes.length)
    (M : Nat) (evs : List (Event FeatReply)) (hev : Serves replies evs) (s : State _ _ Bytes)
    (hr : run (featuresMethod nodes.length feats servers.length) servers.length M buffer evs = some s) (out : Bytes)
    (ho : s.phase = .returned out) : g.nodeFeature nodes none feats buffer = some out := by
  have hlen := length_mapM hreplies
  rw [← hlen] at hr
  obtain ⟨buf, tr, -, h2, h3, h4⟩ := run_returned (P := fun _ => True) replies rfl (fun _ _ _ _ _ _ => trivial) buffer trivial
    evs hev s hr out ho
  have hsch := schedule_of _ _ _ _ replies tr h3 h4
  rw [← C24_distributed h servers hs hp nodes hne feats hagree replies hreplies _ hsch buffer hb, ← h2]
  simp only [featuresMethod]
  rw [foldl_toEv]
  have hfst : ∀ (l : List (Ev FeatReply)) (x : EachReply FeatReply (List Best) × Bytes),
      (l.foldl (fun s e => (EachReply.step (mergeStamps feats.length) s.1 e, s.2)) x).1 =
        l.foldl (EachReply.step (mergeStamps feats.length)) x.1 := by
    intro l
    induction l with
    | nil => intro x; rfl
    | cons e es ih => intro x; rw [List.foldl_cons, List.foldl_cons, ih]
  simp only [ofEvents, hfst, remoteNodeFeatures, eachReply, hlen]

/-- Node features at the given times: a result holds for each node and feature the latest value not after the node's
timestamp in the records on all servers. -/
theorem C72_features_at_partial (servers : List (List (List (List Rec)) × Graph))
    (hs : ∀ s ∈ servers, Built C wm m s.1 s.2) (hp : (servers.flatMap (·.1)).Perm parts) (nodes ts : List Int)
    (hne : nodes ≠ []) (hts : ts.length = nodes.length) (feats : List (Nat × Nat))
    (H : Nat → List (Option Bytes) → List (Int × Bytes))
    (hH : ∀ n ∈ nodes, ∀ f ∈ feats, ∀ r ∈ nodeRecords parts n, HasHist r.features f.1 (H f.1 r.features))
    (buffer : Bytes) :
    ∃ replies, servers.mapM (fun s => s.2.getNodeFeatures nodes (some ts) feats) = some replies ∧
      ∀ M evs s out, Serves replies evs →
        run (featuresMethod nodes.length feats servers.length) servers.length M buffer evs = some s →
        s.phase = .returned out → ∃ rows, out = rows.flatten ∧
          rows.length = nodes.length ∧ ∀ x ∈ (nodes.zip ts).zip rows, Row feats (fun fid v =>
            LatestValue ((nodeRecords parts x.1.1).flatMap fun r => H fid r.features) x.1.2 v) x.2 := by
  obtain ⟨replies, h1, h2⟩ := C24_temporal servers hs hp nodes ts hne hts feats H hH
  refine ⟨replies, h1, fun M evs s out hev hr ho => ?_⟩
  have hlen := length_mapM h1
  rw [← hlen] at hr
  obtain ⟨buf, tr, -, h3, h4, h5⟩ := run_returned (P := fun _ => True) replies rfl (fun _ _ _ _ _ _ => trivial) buffer trivial
    evs hev s hr out ho
  obtain ⟨rows, h6, h7, h8⟩ := h2 _ (schedule_of _ _ _ _ replies tr h4 h5)
  refine ⟨rows, ?_, h7, h8⟩
  refine Option.some.inj (Eq.trans ?_ h6)
  rw [← h3]
  simp only [featuresMethod]
  rw [foldl_toEv]
  have hfst : ∀ (l : List (Ev FeatReply)) (x : EachReply FeatReply (List Best) × Bytes),
      (l.foldl (fun s e => (EachReply.step (mergeStamps feats.length) s.1 e, s.2)) x).1 =
        l.foldl (EachReply.step (mergeStamps feats.length)) x.1 := by
    intro l
    induction l with
    | nil => intro x; rfl
    | cons e es ih => intro x; rw [List.foldl_cons, List.foldl_cons, ih]
  simp only [ofEvents, hfst, remoteNodeFeatures, eachReply, hlen]

/-- Node types, if the records of a node, usually one, agree about its type. -/
theorem C72_types_partial (servers : List (List (List (List Rec)) × Graph))
    (hs : ∀ s ∈ servers, Built C wm m s.1 s.2) (hp : (servers.flatMap (·.1)).Perm parts) (nodes : List Int) (type : Int → Int)
    (default : Int) (htype : ∀ n ∈ nodes, (∀ t, (n, t) ∈ nodeTypes parts → type n = t) ∧
      ((∀ t, (n, t) ∉ nodeTypes parts) → type n = default))
    (buffer : List Int) (hb : buffer.length = nodes.length) :
    ∃ replies, servers.mapM (fun s => s.2.getNodeTypes nodes) = some replies ∧
      ∀ M evs s out, Serves replies evs → run (typesMethod default) servers.length M buffer evs = some s →
        s.phase = .returned out → out = nodes.map type := by
  obtain ⟨replies, h1, -⟩ := C64_distributed_partial servers hs hp nodes type default htype buffer hb
  refine ⟨replies, h1, fun M evs s out hev hr ho => ?_⟩
  rw [← length_mapM h1] at hr
  obtain ⟨buf, tr, h2, h3, h4, h5⟩ := run_returned (P := fun b => b.length = nodes.length) replies rfl (by
    intro buf tr b hb _ hl
    rw [foldl_stepOf _ (fun _ _ _ => rfl)] at hl
    cases hl
    exact (runSteps_length _ (buf, _)).1.trans hb) buffer hb evs hev s hr out ho
  obtain ⟨replies', h1', h6⟩ := C64_distributed_partial servers hs hp nodes type default htype buf h2
  rw [h1] at h1'
  cases h1'
  rw [← h6 _ (interleaved_of (typesMethod default) typeSteps (fun _ _ => rfl) replies tr h4 h5)]
  rw [foldl_stepOf _ (fun _ _ _ => rfl)] at h3
  exact (Option.some.inj h3).symm

theorem edgeFeatures_steps (len fv : Nat) (replies : List FeatReply) (buf : Bytes) (tr : List (Act FeatReply (Step UInt8)))
    (h4 : ∀ x ∈ tr, x.shard < replies.length)
    (h5 : ∀ i, i < replies.length → ∃ r, replies[i]? = some r ∧ only i tr = contribution (edgeFeaturesMethod len fv) i r) :
    ∃ steps, Interleaved (replies.map (edgeSteps fv)) steps ∧
      (edgeFeaturesMethod len fv).finish (tr.foldl (Act.run (edgeFeaturesMethod len fv)) ((edgeFeaturesMethod len fv).enter buf)) =
        remoteEdgeFeatures len fv buf steps := by
  refine ⟨_, interleaved_of (edgeFeaturesMethod len fv) (edgeSteps fv) (fun _ _ => rfl) replies tr h4 h5, ?_⟩
  rw [foldl_stepOf _ (fun _ _ _ => rfl)]
  rfl

theorem edgeFeatures_keeps (len fv n : Nat) (Q : Nat → FeatReply → Prop) :
    Keeps (edgeFeaturesMethod len fv) Q (fun b => b.length = n) := by
  intro buf tr b hb _ hl
  rw [foldl_stepOf _ (fun _ _ _ => rfl)] at hl
  rw [← Option.some.inj hl]
  exact (runSteps_length _ (buf, _)).1.trans hb

/-- Edge features, for edges given once. -/
theorem C72_edge_features_partial (h : Built C wm m parts g) (servers : List (List (List (List Rec)) × Graph))
    (hs : ∀ s ∈ servers, Built C wm m s.1 s.2) (hp : (servers.flatMap (·.1)).Perm parts) (edges : List EdgeId)
    (hne : edges ≠ []) (huniq : ∀ e ∈ edges, (edgesBetween parts e.src e.dst e.typ).length ≤ 1)
    (feats : List (Nat × Nat)) (buffer : Bytes) (hb : buffer.length = (feats.map (·.2)).sum * edges.length) :
    ∃ replies, servers.mapM (fun s => s.2.getEdgeFeatures edges none feats) = some replies ∧
      ∀ M evs s out, Serves replies evs →
        run (edgeFeaturesMethod edges.length (feats.map (·.2)).sum) servers.length M buffer evs = some s →
        s.phase = .returned out → g.edgeFeature edges none feats = some out := by
  obtain ⟨replies, h1, -⟩ := C65_distributed_partial h servers hs hp edges hne huniq feats buffer hb
  refine ⟨replies, h1, fun M evs s out hev hr ho => ?_⟩
  rw [← length_mapM h1] at hr
  obtain ⟨buf, tr, h2, h3, h4, h5⟩ := run_returned (P := fun b => b.length = (feats.map (·.2)).sum * edges.length) replies rfl
    (edgeFeatures_keeps _ _ _ _) buffer hb evs hev s hr out ho
  obtain ⟨replies', h1', h6⟩ := C65_distributed_partial h servers hs hp edges hne huniq feats buf h2
  rw [h1] at h1'
  obtain rfl := Option.some.inj h1'
  obtain ⟨steps, h7, h8⟩ := edgeFeatures_steps _ _ replies buf tr h4 h5
  exact (h6 steps h7).symm.trans (h8.symm.trans h3)

/-- Edge features at given times, for edges given once: a result holds for each edge and feature the latest value not
after the time asked for, whatever attempts failed before.  The hypotheses are those of `C65_temporal_partial`, met by the
example beside it. -/
theorem C72_edge_features_at_partial (servers : List (List (List (List Rec)) × Graph))
    (hs : ∀ s ∈ servers, Built C wm m s.1 s.2) (hp : (servers.flatMap (·.1)).Perm parts) (edges : List EdgeId)
    (ts : List Int) (hne : edges ≠ []) (hts : ts.length = edges.length)
    (huniq : ∀ e ∈ edges, (edgesBetween parts e.src e.dst e.typ).length ≤ 1)
    (feats : List (Nat × Nat)) (buffer : Bytes) (hb : buffer.length = (feats.map (·.2)).sum * edges.length)
    (H : Nat → List (Option Bytes) → List (Int × Bytes))
    (hH : ∀ e ∈ edges, ∀ f ∈ feats, ∀ r ∈ edgesBetween parts e.src e.dst e.typ,
      HasHist r.features f.1 (H f.1 r.features)) :
    ∃ replies, servers.mapM (fun s => s.2.getEdgeFeatures edges (some ts) feats) = some replies ∧
      ∀ M evs s out, Serves replies evs →
        run (edgeFeaturesMethod edges.length (feats.map (·.2)).sum) servers.length M buffer evs = some s →
        s.phase = .returned out → ∃ rows : List Bytes, out = rows.flatten ∧ rows.length = edges.length ∧
          ∀ x ∈ (edges.zip ts).zip rows, Row feats (fun fid v => LatestValue
            ((edgesBetween parts x.1.1.src x.1.1.dst x.1.1.typ).flatMap fun r => H fid r.features) x.1.2 v) x.2 := by
  obtain ⟨replies, h1, -⟩ := C65_temporal_partial servers hs hp edges ts hne hts huniq feats buffer hb H hH
  refine ⟨replies, h1, fun M evs s out hev hr ho => ?_⟩
  rw [← length_mapM h1] at hr
  obtain ⟨buf, tr, h2, h3, h4, h5⟩ := run_returned (P := fun b => b.length = (feats.map (·.2)).sum * edges.length) replies rfl
    (edgeFeatures_keeps _ _ _ _) buffer hb evs hev s hr out ho
  obtain ⟨replies', h1', h6⟩ := C65_temporal_partial servers hs hp edges ts hne hts huniq feats buf h2 H hH
  rw [h1] at h1'
  obtain rfl := Option.some.inj h1'
  obtain ⟨steps, h7, h8⟩ := edgeFeatures_steps _ _ replies buf tr h4 h5
  obtain ⟨rows, h9, h10, h11⟩ := h6 steps h7
  exact ⟨rows, Option.some.inj ((h8.symm.trans h3).symm.trans h9), h10, h11⟩

/-- Samples of nodes or edges: `n` are divided over the calls, and every server answers with as many samples as it is
asked for.  A result consists of the samples of the last attempt, in the order of the calls; the same array is used in all
attempts. -/
theorem C72_samples_partial {α : Type} (n : Nat) (calls : List SampleCall) (hd : Divides n calls) (buffer : List Int × List α)
    (hb : buffer.1.length = n ∧ buffer.2.length = n) (M : Nat) (evs : List (Event (List Int × List α)))
    (hev : ∀ a i r, Event.recv a i r ∈ evs → ∀ c, calls[i]? = some c → r.1.length = c.count ∧ r.2.length = c.count)
    (s : State _ _ (List Int × List α)) (hr : run (sampleMethod calls) calls.length M buffer evs = some s)
    (out : List Int × List α) (ho : s.phase = .returned out) :
    ∃ rs : List (List Int × List α), rs.length = calls.length ∧
      (∀ i r, rs[i]? = some r → Event.recv s.attempt i r ∈ evs) ∧ out = (rs.flatMap (·.1), rs.flatMap (·.2)) := by
  obtain ⟨rs, buf, tr, h1, h2, h3, h4, h5, h6⟩ := run_returned_last
    (Q := fun i r => ∀ c, calls[i]? = some c → r.1.length = c.count ∧ r.2.length = c.count) (sample_keeps hd _) buffer hb evs hev
    s hr out ho
  refine ⟨rs, h1, h2, ?_⟩
  have hsch := schedule_of _ _ _ _ rs tr h5 h6
  have hsz : RightSizes calls rs := by
    refine ⟨h1, fun x hx => ?_⟩
    obtain ⟨i, hi, rfl⟩ := List.mem_iff_getElem.1 hx
    rw [List.length_zip] at hi
    rw [List.getElem_zip]
    exact hev _ i _ (h2 i _ (List.getElem?_eq_getElem (by omega))) _ (List.getElem?_eq_getElem (by omega))
  have h7 := remoteSample_eq calls n hd rs hsz buf h3.1 h3.2 _ hsch
  simp only [sampleMethod] at h4
  rw [foldl_toEv] at h4
  exact Option.some.inj (h4.symm.trans h7)

/-- Counts of neighbours, no undefined behaviour: with one server, and if nothing happens to the calls of an attempt after
its first failure.  Missing: other orders of events, see `C72_late_refuted`. -/
theorem C72_counts_safe_partial (n M : Nat) (buffer : List Nat) (evs : List (Event (List Nat)))
    (hsafe : n ≤ 1 ∨ NothingAfterFailure evs) : run (countsMethod n) n M buffer evs ≠ none := by
  have total : ∀ (buf : List Nat) (tr : List (Act (List Nat) (Ev (List Nat)))),
      (tr.foldl (Act.run (countsMethod n)) ((countsMethod n).enter buf)).out ≠ none := by
    intro buf tr
    simp only [countsMethod, lastMerge]
    rw [foldl_toEv]
    exact lastMerge_total (fun _ _ h => by cases h) _ _ (fun h => by cases h)
  exact run_safe (P := fun _ => True) (Q := fun _ _ => True) (fun _ _ _ _ _ _ => trivial) (fun buf tr _ _ => total buf tr)
    (fun buf tr _ _ _ _ => total buf tr) buffer trivial evs (fun _ _ _ _ => trivial) hsafe

/-- The same for node types. -/
theorem C72_types_safe_partial (default : Int) (n M : Nat) (buffer : List Int) (evs : List (Event TypeReply))
    (hsafe : n ≤ 1 ∨ NothingAfterFailure evs) : run (typesMethod default) n M buffer evs ≠ none :=
  run_safe (P := fun _ => True) (Q := fun _ _ => True) (fun _ _ _ _ _ _ => trivial) (fun _ _ _ _ h => by cases h)
    (fun _ _ _ _ _ _ h => by cases h) buffer trivial evs (fun _ _ _ _ => trivial) hsafe

/-- The delay before the next attempt: at least the configured initial one, and it grows by the configured factor and
doubles with every attempt up to the *number of attempts*.  Missing: the configured maximum, see `C72_backoff_refuted`. -/
theorem C72_sleep_partial (o : Options) (k : Nat) (hk : 1 ≤ k) :
    o.initialBackoff ≤ sleep o k ∧ sleep o k ≤ max o.initialBackoff o.maxAttempts ∧
      (o.initialBackoff ≤ o.multiplier * 2 ^ (k - 1) → o.multiplier * 2 ^ (k - 1) ≤ o.maxAttempts →
        sleep o k = o.multiplier * 2 ^ (k - 1)) ∧ sleep o k ≤ sleep o (k + 1) := by
  have h2 : 2 ^ (k - 1) ≤ 2 ^ (k + 1 - 1) := Nat.pow_le_pow_right (by omega) (by omega)
  have h3 := Nat.mul_le_mul_left o.multiplier h2
  refine ⟨Nat.le_max_left .., ?_, ?_, ?_⟩ <;> simp only [sleep] <;> omega

/-- The number of seconds as text. -/
def C72_text (n : Nat) : List Char := Nat.toDigits 10 n ++ ['s']

/-- Policies with whole seconds less than a minute are used as they are, if no service config precedes.  Missing: other
durations, see `C72_fraction_refuted` and `C72_minute_refuted`. -/
theorem C72_policy_partial (before after : List (String × Option Policy)) (hb : ∀ x ∈ before, x.1 ≠ "grpc.service_config")
    (attempts initial top multiplier : Nat) (h1 : initial < 60) (h2 : top < 60) :
    parseOptions (before ++ ("grpc.service_config", some ⟨attempts, C72_text initial, C72_text top, multiplier⟩) :: after) =
      ⟨attempts, initial, top, multiplier⟩ := by
  have hs : ∀ n, n < 60 → seconds (C72_text n) = some n := by decide
  induction before with
  | nil => simp [parseOptions, hs initial h1, hs top h2]
  | cons x xs ih =>
    rw [List.cons_append]
    obtain ⟨k, v⟩ := x
    have hk : k ≠ "grpc.service_config" := hb (k, v) (List.mem_cons_self ..)
    have hcons : ∀ l, parseOptions ((k, v) :: l) = parseOptions l := fun l => by simp [parseOptions, hk]
    rw [hcons]
    exact ih fun y hy => hb y (List.mem_cons_of_mem _ hy)

/-! Examples. -/

/-- Three servers; in the first attempt server 1 fails after server 0 answered and wrote its counts, in the second one all
answer. -/
def C72_events : List (Event TypeReply) :=
  [.recv 0 0 ⟨[0], [5]⟩, .step 0 0, .step 0 0, .step 0 0, .fail 0 1, .fail 0 2, .wait, .wait, .retry,
   .recv 1 2 ⟨[1], [7]⟩, .recv 1 0 ⟨[0], [5]⟩, .step 1 2, .recv 1 1 ⟨[], []⟩, .step 1 0, .step 1 0, .step 1 2, .step 1 1, .step 1 0, .step 1 2,
   .wait, .wait, .wait, .wait]

example : Serves [⟨[0], [5]⟩, ⟨[], []⟩, ⟨[1], [7]⟩] C72_events ∧
    (run (typesMethod (-1)) 3 5 [99, 98, 97] C72_events).map (fun s => (s.attempt, s.phase)) =
      some (1, .returned [5, 7, -1]) := by
  refine ⟨fun a i r h => ?_, by decide⟩
  simp only [C72_events, List.mem_cons, List.not_mem_nil, or_false, Event.recv.injEq, reduceCtorEq, false_or] at h
  rcases h with ⟨-, rfl, rfl⟩ | ⟨-, rfl, rfl⟩ | ⟨-, rfl, rfl⟩ | ⟨-, rfl, rfl⟩ <;> rfl

/-- Samples of two servers; only the reply of the second attempt of server 1 is in the result. -/
example : Divides 3 [⟨0, 0, 2, 7⟩, ⟨1, 2, 1, 8⟩] ∧
    (run (sampleMethod [⟨0, 0, 2, 7⟩, ⟨1, 2, 1, 8⟩]) 2 2 ([0, 0, 0], [0, 0, 0])
      [.recv 0 1 ([9], [9]), .step 0 1, .step 0 1, .step 0 1, .fail 0 0, .wait, .retry, .recv 1 0 ([4, 5], [1, 1]), .recv 1 1 ([6], [0]),
       .step 1 1, .step 1 1, .step 1 0, .step 1 0, .step 1 1, .step 1 0, .wait, .wait, .wait]).map (fun s => (s.attempt, s.phase)) =
      some (1, .returned (([4, 5, 6], [1, 1, 0]) : List Int × List Int)) := by
  refine ⟨⟨by decide, ?_⟩, by decide⟩
  intro i c h
  match i, h with
  | 0, h => cases h; rfl
  | 1, h => cases h; rfl

/-- One attempt is all there is: an exception. -/
example : (run (typesMethod (-1)) 3 1 [99, 98, 97] C72_events).map (fun s => (s.attempt, s.phase)) =
    some (0, .raised) := by decide

example : NothingAfterFailure ([.recv 0 0 [2], .step 0 0, .step 0 0, .fail 0 1, .wait, .wait, .retry] : List (Event (List Nat))) := by
  intro before after h a j hf i
  match before, h with
  | [], h => cases hf
  | [_], h => cases h; simp at hf
  | [_, _], h => cases h; simp at hf
  | [_, _, _], h => cases h; simp at hf
  | _ :: _ :: _ :: _ :: rest, h =>
    simp only [List.cons_append, List.cons.injEq] at h
    have hm : ∀ e ∈ after, e = .wait ∨ e = .retry := by
      intro e he
      have : e ∈ rest ++ after := List.mem_append_right _ he
      rw [← h.2.2.2.2] at this
      simpa using this
    refine ⟨fun hh => ?_, fun r hh => ?_⟩ <;> rcases hm _ hh with h' | h' <;> cases h'

example : C72_text 5 = ['5', 's'] ∧ C72_text 42 = ['4', '2', 's'] := by decide

example : (sleep ⟨5, 2, 10, 2⟩ 1, sleep ⟨5, 2, 10, 2⟩ 2, sleep ⟨5, 2, 10, 2⟩ 3) = (2, 4, 5) := by decide

/-- The property for all orders of events is false: `WaitForFutures` leaves at the first exception, and gRPC then stores
the reply of another server in memory that was freed. -/
theorem C72_late_refuted : ∃ (replies : List (List Nat)) (evs : List (Event (List Nat))), Serves replies evs ∧
    run (countsMethod 2) 2 5 [0] evs = none := by
  refine ⟨[[1], [2]], [.fail 0 0, .wait, .recv 0 1 [2]], fun a i r h => ?_, by decide⟩
  simp only [List.mem_cons, List.not_mem_nil, or_false, Event.recv.injEq, reduceCtorEq, false_or] at h
  obtain ⟨-, rfl, rfl⟩ := h
  rfl

/-- Delays are not limited by the configured maximum, but by the number of attempts. -/
theorem C72_backoff_refuted : ∃ o : Options, parseOptions [("grpc.service_config", some ⟨100, ['1', 's'], ['1', '0', 's'], 2⟩)] = o ∧
    o.maxBackoff = 10 ∧ sleep o 6 = 64 := ⟨_, rfl, by decide⟩

/-- A policy with a fraction of a second, as in the documentation of gRPC, is dropped: 2 attempts become 5. -/
theorem C72_fraction_refuted : ∃ p : Policy, p.maxAttempts = 2 ∧ p.initialBackoff = ['0', '.', '1', 's'] ∧ p.maxBackoff = ['5', 's'] ∧
    (parseOptions [("grpc.service_config", some p)]).maxAttempts = 5 := ⟨⟨2, ['0', '.', '1', 's'], ['5', 's'], 2⟩, by decide⟩

/-- So is one with a delay of a minute. -/
theorem C72_minute_refuted : ∃ p : Policy, p.maxAttempts = 2 ∧ p.initialBackoff = ['1', 's'] ∧ p.maxBackoff = ['6', '0', 's'] ∧
    (parseOptions [("grpc.service_config", some p)]).maxAttempts = 5 := ⟨⟨2, ['1', 's'], ['6', '0', 's'], 2⟩, by decide⟩

end DeepGNN
