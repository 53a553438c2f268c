import Verif.Proofs.RetryValues
import Verif.Props.C26
import Verif.Props.C66
import Verif.Props.C67
import Verif.Props.C67At

/-
C72 Remote queries with failed calls: strings, sparse features and sampled neighbours.
-/

namespace DeepGNN

open Spec Retry

variable {C : WeightCodec} {wm : Option Nat} {m : Meta} {parts : List (List (List Rec))} {g : Graph}

theorem mapM_source {α γ : Type} {f : α → Option γ} {l : List α} {r : List γ} (h : l.mapM f = some r) {b : γ} (hb : b ∈ r) :
    ∃ a ∈ l, f a = some b := by
  induction l generalizing r with
  | nil => cases h; cases hb
  | cons a l ih =>
    rw [List.mapM_cons] at h
    obtain ⟨y, hy, h⟩ := Option.bind_eq_some_iff.1 h
    obtain ⟨ys, hys, h⟩ := Option.bind_eq_some_iff.1 h
    cases h
    rcases List.mem_cons.1 hb with rfl | hb
    · exact ⟨a, List.mem_cons_self .., hy⟩
    · obtain ⟨a', h1, h2⟩ := ih hys hb
      exact ⟨a', List.mem_cons_of_mem _ h1, h2⟩

theorem serveTexts_dims {α : Type} {q : α → Bytes → Option StrState} {F : Nat} : ∀ (l : List α) (out : Bytes) (r : TextReply),
    (∀ x ∈ l, ∀ out st, q x out = some st → st.flags.length = F) → serveTexts q l out = some r → r.dims.length = l.length * F
  | [], out, r, _, h => by cases h; simp
  | x :: xs, out, r, hq, h => by
    rw [serveTexts] at h
    obtain ⟨st, h1, h⟩ := Option.bind_eq_some_iff.1 h
    obtain ⟨r', h2, rfl⟩ := Option.map_eq_some_iff.1 h
    show (st.flags.map (·.2) ++ r'.dims).length = _
    rw [List.length_append, List.length_map, hq x (List.mem_cons_self ..) _ _ h1,
      serveTexts_dims xs _ _ (fun x hx => hq x (List.mem_cons_of_mem _ hx)) h2, List.length_cons, Nat.succ_mul, Nat.add_comm]

/-- Node strings, for nodes given once: for all orders of events without undefined behaviour, all failures and limits, a
result is that of the local graph, although the dimensions of failed attempts stay in the array. -/
theorem C72_node_strings_partial (h : Built C wm m parts g) (servers : List (List (List (List Rec)) × Graph)) (hne : servers ≠ [])
    (hs : ∀ s ∈ servers, Built C wm m s.1 s.2) (hp : (servers.flatMap (·.1)).Perm parts) (nodes : List Int)
    (feats : List Nat) (hone : ∀ n ∈ nodes, (nodeRecords parts n).length ≤ 1) :
    ∃ replies, servers.mapM (fun s => s.2.getNodeStrings feats (nodes.map fun n => (n, none))) = some replies ∧
      ∀ M evs s out, Serves replies evs →
        run (textsMethod (nodes.length * feats.length) servers.length) servers.length M
          (List.replicate (nodes.length * feats.length) 0, []) evs = some s → s.phase = .returned out →
        g.nodeString feats (nodes.map fun n => (n, none)) [] = some out := by
  obtain ⟨replies, h1, seqs, h2, h3⟩ := C66_nodes_partial h servers hne hs hp nodes feats hone
  refine ⟨replies, h1, fun M evs s out hev hr ho => ?_⟩
  obtain ⟨steps, h4, h5⟩ := texts_returned _ _ replies (length_mapM h1) (by
    intro r hr
    obtain ⟨s, -, h6⟩ := mapM_source h1 hr
    have := serveTexts_dims (F := feats.length) _ _ _ (by
      intro x hx out st hst
      obtain ⟨n, -, rfl⟩ := List.mem_map.1 hx
      exact (nodeTextState_plain hst).1) h6
    simpa using this) seqs h2 M evs hev s hr out ho
  rw [← h3 steps h4, h5]

/-- Edge strings, for edges given once. -/
theorem C72_edge_strings_partial (h : Built C wm m parts g) (hm : m.edgeFeatureCount ≠ 0)
    (servers : List (List (List (List Rec)) × Graph)) (hne : servers ≠ [])
    (hs : ∀ s ∈ servers, Built C wm m s.1 s.2) (hp : (servers.flatMap (·.1)).Perm parts) (edges : List EdgeId)
    (feats : List Nat) (hone : ∀ e ∈ edges, (edgesBetween parts e.src e.dst e.typ).length ≤ 1) :
    ∃ replies, servers.mapM (fun s => s.2.getEdgeStrings feats (edges.map fun e => (e, none))) = some replies ∧
      ∀ M evs s out, Serves replies evs →
        run (textsMethod (edges.length * feats.length) servers.length) servers.length M
          (List.replicate (edges.length * feats.length) 0, []) evs = some s → s.phase = .returned out →
        g.edgeString feats (edges.map fun e => (e, none)) [] = some out := by
  obtain ⟨replies, h1, seqs, h2, h3⟩ := C66_edges_partial h hm servers hne hs hp edges feats hone
  refine ⟨replies, h1, fun M evs s out hev hr ho => ?_⟩
  obtain ⟨steps, h4, h5⟩ := texts_returned _ _ replies (length_mapM h1) (by
    intro r hr
    obtain ⟨s, -, h6⟩ := mapM_source h1 hr
    have := serveTexts_dims (F := feats.length) _ _ _ (by
      intro x hx out st hst
      obtain ⟨n, -, rfl⟩ := List.mem_map.1 hx
      exact (edgeTextState_plain hst).1) h6
    simpa using this) seqs h2 M evs hev s hr out ho
  rw [← h3 steps h4, h5]

/-- Node strings at given times, for nodes given once: a result holds for each node and feature the latest string not after
the time asked for, whatever attempts failed before.  The hypotheses are those of `C66_nodes_at_partial`, met by the example
beside it. -/
theorem C72_node_strings_at_partial (servers : List (List (List (List Rec)) × Graph)) (hne : servers ≠ [])
    (hs : ∀ s ∈ servers, Built C wm m s.1 s.2) (hp : (servers.flatMap (·.1)).Perm parts)
    (nodes : List (Int × Int)) (feats : List Nat) (hone : ∀ x ∈ nodes, (nodeRecords parts x.1).length ≤ 1)
    (H : Nat → List (Option Bytes) → List (Int × Bytes))
    (hH : ∀ x ∈ nodes, ∀ f ∈ feats, ∀ r ∈ nodeRecords parts x.1,
      HasHist r.features f (H f r.features) ∨ (r.features[f]? = some none ∧ H f r.features = [])) :
    ∃ replies, servers.mapM (fun s => s.2.getNodeStrings feats (nodes.map fun x => (x.1, some x.2))) = some replies ∧
      ∀ M evs s out, Serves replies evs →
        run (textsMethod (nodes.length * feats.length) servers.length) servers.length M
          (List.replicate (nodes.length * feats.length) 0, []) evs = some s → s.phase = .returned out →
        ∃ vs : List Bytes, out = (vs.map List.length, vs.flatten) ∧ vs.length = nodes.length * feats.length ∧
          ∀ y ∈ (nodes.flatMap fun x => feats.map fun f => (x, f)).zip vs,
            LatestValue ((nodeRecords parts y.1.1.1).flatMap fun r => H y.1.2 r.features) y.1.1.2 y.2 := by
  obtain ⟨replies, h1, seqs, h2, h3⟩ := C66_nodes_at_partial servers hne hs hp nodes feats hone H hH
  refine ⟨replies, h1, fun M evs s out hev hr ho => ?_⟩
  obtain ⟨steps, h4, h5⟩ := texts_returned _ _ replies (length_mapM h1) (by
    intro r hr
    obtain ⟨s, -, h6⟩ := mapM_source h1 hr
    have := serveTexts_dims (F := feats.length) _ _ _ (by
      intro x hx out st hst
      obtain ⟨n, -, rfl⟩ := List.mem_map.1 hx
      exact (nodeTextState_plain hst).1) h6
    simpa using this) seqs h2 M evs hev s hr out ho
  obtain ⟨vs, h7, h8, h9⟩ := h3 steps h4
  exact ⟨vs, Option.some.inj (h5.symm.trans h7), h8, h9⟩

/-- Edge strings at given times, for edges given once. -/
theorem C72_edge_strings_at_partial (servers : List (List (List (List Rec)) × Graph)) (hne : servers ≠ [])
    (hs : ∀ s ∈ servers, Built C wm m s.1 s.2) (hm : m.edgeFeatureCount ≠ 0) (hp : (servers.flatMap (·.1)).Perm parts)
    (edges : List (EdgeId × Int)) (feats : List Nat) (hone : ∀ x ∈ edges, (edgesBetween parts x.1.src x.1.dst x.1.typ).length ≤ 1)
    (H : Nat → List (Option Bytes) → List (Int × Bytes))
    (hH : ∀ x ∈ edges, ∀ f ∈ feats, ∀ r ∈ edgesBetween parts x.1.src x.1.dst x.1.typ,
      HasHist r.features f (H f r.features) ∨ (r.features[f]? = some none ∧ H f r.features = [])) :
    ∃ replies, servers.mapM (fun s => s.2.getEdgeStrings feats (edges.map fun x => (x.1, some x.2))) = some replies ∧
      ∀ M evs s out, Serves replies evs →
        run (textsMethod (edges.length * feats.length) servers.length) servers.length M
          (List.replicate (edges.length * feats.length) 0, []) evs = some s → s.phase = .returned out →
        ∃ vs : List Bytes, out = (vs.map List.length, vs.flatten) ∧ vs.length = edges.length * feats.length ∧
          ∀ y ∈ (edges.flatMap fun x => feats.map fun f => (x, f)).zip vs,
            LatestValue ((edgesBetween parts y.1.1.1.src y.1.1.1.dst y.1.1.1.typ).flatMap fun r => H y.1.2 r.features) y.1.1.2 y.2 := by
  obtain ⟨replies, h1, seqs, h2, h3⟩ := C66_edges_at_partial servers hne hs hm hp edges feats hone H hH
  refine ⟨replies, h1, fun M evs s out hev hr ho => ?_⟩
  obtain ⟨steps, h4, h5⟩ := texts_returned _ _ replies (length_mapM h1) (by
    intro r hr
    obtain ⟨s, -, h6⟩ := mapM_source h1 hr
    have := serveTexts_dims (F := feats.length) _ _ _ (by
      intro x hx out st hst
      obtain ⟨n, -, rfl⟩ := List.mem_map.1 hx
      exact edgeTextState_flags hst) h6
    simpa using this) seqs h2 M evs hev s hr out ho
  obtain ⟨vs, h7, h8, h9⟩ := h3 steps h4
  exact ⟨vs, Option.some.inj (h5.symm.trans h7), h8, h9⟩

/-- Sparse node features, if the records of a node, usually one, agree about the features they have. -/
theorem C72_node_sparse_partial (h : Built C wm m parts g) (servers : List (List (List (List Rec)) × Graph))
    (hs : ∀ s ∈ servers, Built C wm m s.1 s.2) (hp : (servers.flatMap (·.1)).Perm parts) (nodes : List Int) (feats : List Nat)
    (D : Nat → List (Option Bytes) → Option Sparse) (dim size : Nat → Nat)
    (hD : ∀ n ∈ nodes, ∀ f ∈ feats, ∀ r ∈ nodeRecords parts n, HasSparse r.features f (D f r.features) ∧
      ∀ x, D f r.features = some x → x.dim = dim f ∧ ∀ b ∈ x.values, b.length = size f)
    (hone : ∀ n ∈ nodes, ∀ f ∈ feats, ∀ r ∈ nodeRecords parts n, ∀ r' ∈ nodeRecords parts n, ∀ x y,
      D f r.features = some x → D f r'.features = some y → x = y) :
    ∃ replies, servers.mapM (fun s => s.2.getNodeSparse feats nodes) = some replies ∧
      ∀ M buffer evs s out, Serves replies evs →
        run (sparseMethod nodes.length feats.length servers.length) servers.length M buffer evs = some s →
        s.phase = .returned out → g.nodeSparse feats nodes = some out := by
  obtain ⟨replies, h1, seqs, h2, h3⟩ := C67_nodes_partial h servers hs hp nodes feats D dim size hD hone
  refine ⟨replies, h1, fun M buffer evs s out hev hr ho => ?_⟩
  obtain ⟨steps, h4, h5⟩ := sparse_returned _ _ _ replies (length_mapM h1) seqs h2 M buffer evs hev s hr out ho
  rw [← h3 steps h4, h5]

/-- Sparse edge features, for edges given once. -/
theorem C72_edge_sparse_partial (h : Built C wm m parts g) (servers : List (List (List (List Rec)) × Graph))
    (hs : ∀ s ∈ servers, Built C wm m s.1 s.2) (hp : (servers.flatMap (·.1)).Perm parts) (edges : List EdgeId) (feats : List Nat)
    (D : Nat → List (Option Bytes) → Option Sparse) (dim size : Nat → Nat)
    (hD : ∀ e ∈ edges, ∀ f ∈ feats, ∀ r ∈ edgesBetween parts e.src e.dst e.typ, HasSparse r.features f (D f r.features) ∧
      ∀ x, D f r.features = some x → x.dim = dim f ∧ ∀ b ∈ x.values, b.length = size f)
    (hone : ∀ e ∈ edges, (edgesBetween parts e.src e.dst e.typ).length ≤ 1) :
    ∃ replies, servers.mapM (fun s => s.2.getEdgeSparse feats edges) = some replies ∧
      ∀ M buffer evs s out, Serves replies evs →
        run (sparseMethod edges.length feats.length servers.length) servers.length M buffer evs = some s →
        s.phase = .returned out → g.edgeSparse feats edges = some out := by
  obtain ⟨replies, h1, seqs, h2, h3⟩ := C67_edges_partial h servers hs hp edges feats D dim size hD hone
  refine ⟨replies, h1, fun M buffer evs s out hev hr ho => ?_⟩
  obtain ⟨steps, h4, h5⟩ := sparse_returned _ _ _ replies (length_mapM h1) seqs h2 M buffer evs hev s hr out ho
  rw [← h3 steps h4, h5]

/-- Sparse node features at given times, for nodes whose records have the same versions. -/
theorem C72_node_sparse_at_partial (h : Built C wm m parts g) (servers : List (List (List (List Rec)) × Graph))
    (hs : ∀ s ∈ servers, Built C wm m s.1 s.2) (hp : (servers.flatMap (·.1)).Perm parts) (nodes : List (Int × Int))
    (feats : List Nat) (H : Nat → List (Option Bytes) → List (Int × Sparse)) (val : Nat → Int × Int → Option Sparse)
    (dim size : Nat → Nat)
    (hH : ∀ x ∈ nodes, ∀ f ∈ feats, ∀ r ∈ nodeRecords parts x.1, HasSparseHist r.features f (H f r.features))
    (hval : ∀ x ∈ nodes, ∀ f ∈ feats, InForce (versions H f (nodeRecords parts x.1)) x.2 (val f x))
    (htimes : ∀ x ∈ nodes, ∀ f ∈ feats, ∀ y ∈ versions H f (nodeRecords parts x.1),
      ∀ z ∈ versions H f (nodeRecords parts x.1), y.1 = z.1 → y = z)
    (hsame : ∀ x ∈ nodes, ∀ f ∈ feats, ∀ r ∈ nodeRecords parts x.1, ∀ r' ∈ nodeRecords parts x.1,
      H f r.features = H f r'.features)
    (hdim : ∀ x ∈ nodes, ∀ f ∈ feats, ∀ y ∈ versions H f (nodeRecords parts x.1),
      y.2.dim = dim f ∧ ∀ b ∈ y.2.values, b.length = size f) :
    ∃ replies, servers.mapM (fun s => s.2.getNodeSparseAt feats nodes) = some replies ∧
      ∀ M buffer evs s out, Serves replies evs →
        run (sparseMethod nodes.length feats.length servers.length) servers.length M buffer evs = some s →
        s.phase = .returned out → g.nodeSparseAt feats nodes = some out := by
  obtain ⟨replies, h1, seqs, h2, h3⟩ := C67_nodes_at_partial h servers hs hp nodes feats H val dim size hH hval htimes hsame hdim
  refine ⟨replies, h1, fun M buffer evs s out hev hr ho => ?_⟩
  obtain ⟨steps, h4, h5⟩ := sparse_returned _ _ _ replies (length_mapM h1) seqs h2 M buffer evs hev s hr out ho
  rw [← h3 steps h4, h5]

/-- Sparse edge features at given times, for edges given once. -/
theorem C72_edge_sparse_at_partial (h : Built C wm m parts g) (servers : List (List (List (List Rec)) × Graph))
    (hs : ∀ s ∈ servers, Built C wm m s.1 s.2) (hp : (servers.flatMap (·.1)).Perm parts) (edges : List (EdgeId × Int))
    (feats : List Nat) (H : Nat → List (Option Bytes) → List (Int × Sparse)) (val : Nat → EdgeId × Int → Option Sparse)
    (dim size : Nat → Nat)
    (hH : ∀ x ∈ edges, ∀ f ∈ feats, ∀ r ∈ edgesBetween parts x.1.src x.1.dst x.1.typ,
      HasSparseHist r.features f (H f r.features))
    (hval : ∀ x ∈ edges, ∀ f ∈ feats, InForce (versions H f (edgesBetween parts x.1.src x.1.dst x.1.typ)) x.2 (val f x))
    (htimes : ∀ x ∈ edges, ∀ f ∈ feats, ∀ y ∈ versions H f (edgesBetween parts x.1.src x.1.dst x.1.typ),
      ∀ z ∈ versions H f (edgesBetween parts x.1.src x.1.dst x.1.typ), y.1 = z.1 → y = z)
    (hone : ∀ x ∈ edges, (edgesBetween parts x.1.src x.1.dst x.1.typ).length ≤ 1)
    (hdim : ∀ x ∈ edges, ∀ f ∈ feats, ∀ y ∈ versions H f (edgesBetween parts x.1.src x.1.dst x.1.typ),
      y.2.dim = dim f ∧ ∀ b ∈ y.2.values, b.length = size f) :
    ∃ replies, servers.mapM (fun s => s.2.getEdgeSparseAt feats edges) = some replies ∧
      ∀ M buffer evs s out, Serves replies evs →
        run (sparseMethod edges.length feats.length servers.length) servers.length M buffer evs = some s →
        s.phase = .returned out → g.edgeSparseAt feats edges = some out := by
  obtain ⟨replies, h1, seqs, h2, h3⟩ := C67_edges_at_partial h servers hs hp edges feats H val dim size hH hval htimes hone hdim
  refine ⟨replies, h1, fun M buffer evs s out hev hr ho => ?_⟩
  obtain ⟨steps, h4, h5⟩ := sparse_returned _ _ _ replies (length_mapM h1) seqs h2 M buffer evs hev s hr out ho
  rw [← h3 steps h4, h5]

theorem replies_map {α γ : Type} {f : α → γ} {P : α → Prop} : ∀ {rs : List γ}, (∀ r ∈ rs, ∃ a, P a ∧ r = f a) →
    ∃ l : List α, rs = l.map f ∧ ∀ a ∈ l, P a
  | [], _ => ⟨[], rfl, fun _ h => by cases h⟩
  | r :: rs, h => by
    obtain ⟨a, h1, rfl⟩ := h r (List.mem_cons_self ..)
    obtain ⟨l, rfl, h2⟩ := replies_map (rs := rs) fun x hx => h x (List.mem_cons_of_mem _ hx)
    exact ⟨a :: l, rfl, fun x hx => by
      rcases List.mem_cons.1 hx with rfl | hx
      · exact h1
      · exact h2 x hx⟩

/-- Uniformly sampled neighbours without replacement: in a result, every row is a selection from the samples the servers
offered for its node in the last attempt, defaults in the places left; servers may answer differently in every attempt. -/
theorem C72_uniform_without_partial (R : Draws) (count : Nat) (default : Int × Int) (nodes : List Int) (n M : Nat)
    (buffer : List (List (Int × Int))) (evs : List (Event (UReply (Int × Int))))
    (hev : ∀ a i r, Event.recv a i r ∈ evs → ∃ as, (Answers nodes as ∧ ∀ x, some x ∈ as → x.2.length = count) ∧ r = uReply nodes as)
    (s : State _ _ (List (List (Int × Int)))) (hr : run (uniformMethod R true count default nodes n) n M buffer evs = some s)
    (out : List (List (Int × Int))) (ho : s.phase = .returned out) :
    ∃ servers : List (List (Option (Nat × List (Int × Int)))), servers.length = n ∧
      (∀ i as, servers[i]? = some as → Event.recv s.attempt i (uReply nodes as) ∈ evs) ∧ out.length = nodes.length ∧
      ∀ p row, out[p]? = some row →
        Selection ((answersAt servers p).flatMap fun x => x.2.take (min x.1 count)) (List.replicate count default) row := by
  obtain ⟨rs, h1, h2, t, h3⟩ := uniform_returned R true count default nodes n M buffer evs (fun _ _ => True) (fun _ _ _ _ => trivial)
    s hr out ho
  obtain ⟨servers, rfl, h4⟩ := replies_map (rs := rs) fun r hr => by
    obtain ⟨i, hi⟩ := List.mem_iff_getElem?.1 hr
    exact hev _ _ _ (h2 i r hi)
  obtain ⟨outs, s', h5, h6, h7⟩ := C26_uniform_without R count default nodes servers (fun as has => (h4 as has).1)
    (fun as has => (h4 as has).2) 0
  rw [h3] at h5
  cases h5
  exact ⟨servers, by simpa using h1, fun i as has => h2 i _ (by rw [List.getElem?_map, has]; rfl), h6, h7⟩

/-- Uniformly sampled neighbours with replacement. -/
theorem C72_uniform_with_partial (R : Draws) (count : Nat) (default : Int × Int) (nodes : List Int) (n M : Nat)
    (buffer : List (List (Int × Int))) (evs : List (Event (UReply (Int × Int))))
    (hev : ∀ a i r, Event.recv a i r ∈ evs → ∃ as, (Answers nodes as ∧ ∀ x, some x ∈ as → x.2.length = count) ∧ r = uReply nodes as)
    (s : State _ _ (List (List (Int × Int)))) (hr : run (uniformMethod R false count default nodes n) n M buffer evs = some s)
    (out : List (List (Int × Int))) (ho : s.phase = .returned out) :
    ∃ servers : List (List (Option (Nat × List (Int × Int)))), servers.length = n ∧
      (∀ i as, servers[i]? = some as → Event.recv s.attempt i (uReply nodes as) ∈ evs) ∧ out.length = nodes.length ∧
      ∀ p row, out[p]? = some row → Sampled ((answersAt servers p).flatMap fun x => if x.1 = 0 then [] else x.2) count default row := by
  obtain ⟨rs, h1, h2, t, h3⟩ := uniform_returned R false count default nodes n M buffer evs (fun _ _ => True) (fun _ _ _ _ => trivial)
    s hr out ho
  obtain ⟨servers, rfl, h4⟩ := replies_map (rs := rs) fun r hr => by
    obtain ⟨i, hi⟩ := List.mem_iff_getElem?.1 hr
    exact hev _ _ _ (h2 i r hi)
  obtain ⟨outs, s', h5, h6, h7⟩ := C26_uniform_with R count default nodes servers (fun as has => (h4 as has).1)
    (fun as has => (h4 as has).2) 0
  rw [h3] at h5
  cases h5
  exact ⟨servers, by simpa using h1, fun i as has => h2 i _ (by rw [List.getElem?_map, has]; rfl), h6, h7⟩

/-- Neighbours sampled by weight: rows of nodes no server knows keep the defaults Python filled them with, all others
consist of samples the servers offered, whatever failed attempts left in the rows. -/
theorem C72_weighted_partial (D : WDraws) (count : Nat) (default : Nbr) (nodes : List Int)
    (servers : List (List (Option (Int × List Nbr)))) (ha : ∀ as ∈ servers, Answers nodes as)
    (hrow : ∀ as ∈ servers, ∀ x, some x ∈ as → x.2.length = count ∧ 0 ≤ x.1)
    (hsum : ∀ p, totalWeight (answersAt servers p) ≤ 2 ^ 24) (M : Nat) (evs : List (Event WReply))
    (hev : Serves (servers.map (wReply nodes)) evs) (s : State _ _ (List (List Nbr)))
    (hr : run (weightedMethod D count default nodes servers.length) servers.length M
      (List.replicate nodes.length (List.replicate count default)) evs = some s)
    (out : List (List Nbr)) (ho : s.phase = .returned out) :
    out.length = nodes.length ∧ ∀ (p : Nat) (row : List Nbr), out[p]? = some row → row.length = count ∧
      (answersAt servers p = [] ∨ totalWeight (answersAt servers p) = 0 → row = List.replicate count default) ∧
      (0 < totalWeight (answersAt servers p) → ∀ x ∈ row, ∃ a ∈ answersAt servers p, x ∈ a.2) := by
  let K : Int → Prop := fun n => ∃ as ∈ servers, ∃ x ∈ knownNodes nodes as, x.1 = n
  have hK : ∀ p n, nodes[p]? = some n → answersAt servers p = [] → ¬ K n := by
    rintro p n hp h0 ⟨as, has, x, hx, rfl⟩
    obtain ⟨y, hy, hyx⟩ := List.mem_filterMap.1 hx
    obtain ⟨a, hya, rfl⟩ := Option.map_eq_some_iff.1 hyx
    have hlen := (ha as has).length
    obtain ⟨hlt, -⟩ := List.getElem?_eq_some_iff.1 hp
    have hlt' : p < as.length := by omega
    have hz : (y.1, as[p]) ∈ nodes.zip as := by
      refine List.mem_iff_getElem?.2 ⟨p, ?_⟩
      rw [List.getElem?_zip_eq_some]
      exact ⟨hp, List.getElem?_eq_getElem hlt'⟩
    have h1 := (ha as has).known _ hy _ hz rfl
    rw [hya] at h1
    obtain ⟨b, hb⟩ := Option.isSome_iff_exists.1 h1.symm
    have : b ∈ answersAt servers p := by
      refine List.mem_filterMap.2 ⟨as, has, ?_⟩
      rw [List.getElem?_eq_getElem hlt']
      simpa using hb
    rw [h0] at this
    cases this
  have hreply : ∀ as ∈ servers, ∀ x ∈ (wReply nodes as).nodes, K x.1 := by
    intro as has x hx
    obtain ⟨y, hy, rfl⟩ := List.mem_map.1 hx
    exact ⟨as, has, y, hy, rfl⟩
  let P : List (List Nbr) → Prop := fun b => b.length = nodes.length ∧ (∀ o ∈ b, o.length = count) ∧
    ∀ p row, b[p]? = some row → answersAt servers p = [] → row = List.replicate count default
  have hkeep : Keeps (weightedMethod D count default nodes servers.length) (fun i r => (servers.map (wReply nodes))[i]? = some r) P := by
    intro buf tr b hb htr hl
    simp only [weightedMethod] at hl
    rw [foldl_toEv] at hl
    obtain ⟨st, h1, rfl⟩ := Option.map_eq_some_iff.1 hl
    let cells := (nodes.zip buf).map fun x => WCell.mk x.1 0 x.2
    have hinv : ∀ (evs : List (Ev WReply)) (s : EachReply WReply (List WCell × Nat)),
        (∀ i r, Ev.recv i r ∈ evs → ∃ as ∈ servers, r = wReply nodes as) →
        (∀ r ∈ s.replies, ∀ x ∈ r.nodes, K x.1) → (∀ st, s.out = some st → Kept count K cells st.1) →
        ∀ st, (evs.foldl (EachReply.step (mergeWeighted D count default)) s).out = some st → Kept count K cells st.1 := by
      intro evs
      induction evs with
      | nil => exact fun s _ _ h => h
      | cons e es ih =>
        intro s he hs hk
        rw [List.foldl_cons]
        refine ih _ (fun i r h => he i r (List.mem_cons_of_mem _ h)) ?_ ?_
        · cases e with
          | recv i r =>
            intro r' hr'
            rcases List.mem_or_eq_of_mem_set hr' with h | rfl
            · exact hs r' h
            · obtain ⟨as, has, rfl⟩ := he i r' (List.mem_cons_self ..)
              exact hreply as has
          | run i => exact hs
        · cases e with
          | recv i r => exact hk
          | run i =>
            intro st hst
            simp only [EachReply.step] at hst
            obtain ⟨r, h1, h2⟩ := Option.bind_eq_some_iff.1 hst
            obtain ⟨st', h3, h4⟩ := Option.bind_eq_some_iff.1 h2
            exact (hk st' h3).trans (mergeWeightedLoop_kept D count default K r.nodes (hs r (List.mem_of_getElem? h1)) _ _ _ _ h4)
    have hst := hinv (tr.map toEv) _ (by
      intro i r h
      obtain ⟨x, hx, hxe⟩ := List.mem_map.1 h
      have hx' := htr x hx
      cases x with
      | recv j r' =>
        cases hxe
        have := List.mem_of_getElem? hx'
        obtain ⟨as, has, rfl⟩ := List.mem_map.1 this
        exact ⟨as, has, rfl⟩
      | step j e =>
        obtain ⟨r', -, h2⟩ := hx'
        simp only [weightedMethod, ofEvents, List.mem_singleton] at h2
        simp only [toEv] at hxe
        rw [h2] at hxe
        cases hxe) (by
      intro r hr x hx
      rw [(List.mem_replicate.1 hr).2] at hx
      cases hx) (fun st h => by cases h; exact Kept.refl ..) st h1
    have hcells : cells.length = nodes.length := by simp [cells, hb.1]
    have hget : ∀ (p : Nat) (c : WCell), cells[p]? = some c → nodes[p]? = some c.node ∧ buf[p]? = some c.row := by
      intro p c hp
      simp only [cells] at hp
      rw [List.getElem?_map] at hp
      obtain ⟨x, hx, rfl⟩ := Option.map_eq_some_iff.1 hp
      exact List.getElem?_zip_eq_some.1 hx
    refine ⟨by rw [List.length_map, hst.length, hcells], ?_, ?_⟩
    · intro o hoo
      obtain ⟨d, hd, rfl⟩ := List.mem_map.1 hoo
      obtain ⟨p, hp⟩ := List.mem_iff_getElem?.1 hd
      obtain ⟨c, hc, -, h2, -⟩ := hst.get hp
      exact h2 (hb.2.1 _ (List.mem_of_getElem? (hget p c hc).2))
    · intro p row hrow h0
      rw [List.getElem?_map] at hrow
      obtain ⟨d, hd, rfl⟩ := Option.map_eq_some_iff.1 hrow
      obtain ⟨c, hc, -, -, h3⟩ := hst.get hd
      rw [h3 (hK p _ (hget p c hc).1 h0)]
      exact hb.2.2 p _ (hget p c hc).2 h0
  obtain ⟨buf, tr, h1, h2, h3, h4⟩ := run_returned (servers.map (wReply nodes)) (by simp) hkeep _
    ⟨by simp, fun o hoo => by rw [(List.mem_replicate.1 hoo).2]; simp, fun p row hrow _ => by
      have := List.mem_of_getElem? hrow
      exact (List.mem_replicate.1 this).2⟩ evs hev s hr out ho
  have hsch := schedule_of _ _ _ _ _ tr h3 h4
  obtain ⟨outs, h5, h6, h7⟩ := C26_weighted D count default nodes buf h1.1 h1.2.1 servers ha hrow hsum _ hsch
  simp only [weightedMethod] at h2
  rw [foldl_toEv] at h2
  have h8 : outs = out := Option.some.inj (h5.symm.trans h2)
  subst h8
  refine ⟨h6, fun p row hp => ?_⟩
  have hm := h7 p row hp
  refine ⟨hm.length, ?_, hm.sampled⟩
  intro h0
  by_cases hz : answersAt servers p = []
  · rw [hm.unknown hz]
    obtain ⟨hlt, -⟩ := List.getElem?_eq_some_iff.1 hp
    have hlt' : p < buf.length := by rw [h1.1]; omega
    rw [List.getD_eq_getElem?_getD, List.getElem?_eq_getElem hlt', Option.getD_some]
    exact h1.2.2 p _ (List.getElem?_eq_getElem hlt') hz
  · rcases h0 with h0 | h0
    · exact absurd h0 hz
    · exact hm.zero hz h0

/-- Strings of two servers; the first attempt leaves a dimension in the array. -/
example : ∃ seqs, textSeqs [⟨[2, 0], [0, -1], [7, 8]⟩, ⟨[0, 1], [-1, 0], [9]⟩] = some seqs ∧
    (run (textsMethod 2 2) 2 2 ([0, 0], [])
      [.recv 0 0 ⟨[2, 0], [0, -1], [7, 8]⟩, .step 0 0, .fail 0 1, .step 0 0, .wait, .wait, .retry,
       .recv 1 1 ⟨[0, 1], [-1, 0], [9]⟩, .step 1 1, .recv 1 0 ⟨[2, 0], [0, -1], [7, 8]⟩, .step 1 0, .step 1 0, .step 1 1,
       .wait, .wait, .wait]).map (fun s => (s.attempt, s.phase)) = some (1, .returned ([2, 1], [7, 8, 9])) := by
  refine ⟨[[⟨0, 0, 0, 0, 2⟩], [⟨1, 1, 0, -1, 1⟩]], by decide, by decide⟩

/-- Two servers know node 5, one of them fails at first; nobody knows node 6. -/
example : Serves ([[some (1, [⟨1, 0, 1⟩]), none], [some (0, [⟨0, 0, 0⟩]), none]].map (wReply (α := Nbr) [5, 6]))
      [.recv 0 0 ⟨[(5, 1)], [⟨1, 0, 1⟩]⟩, .step 0 0, .fail 0 1, .step 0 0, .wait, .wait, .retry, .recv 1 0 ⟨[(5, 1)], [⟨1, 0, 1⟩]⟩,
       .recv 1 1 ⟨[(5, 0)], [⟨0, 0, 0⟩]⟩, .step 1 1, .step 1 1, .step 1 0, .step 1 0, .wait, .wait, .wait] ∧
    (run (weightedMethod ⟨fun _ => 0, fun _ => (1, 2)⟩ 1 ⟨-1, -1, 0⟩ [5, 6] 2) 2 2 [[⟨-1, -1, 0⟩], [⟨-1, -1, 0⟩]]
      [.recv 0 0 ⟨[(5, 1)], [⟨1, 0, 1⟩]⟩, .step 0 0, .fail 0 1, .step 0 0, .wait, .wait, .retry, .recv 1 0 ⟨[(5, 1)], [⟨1, 0, 1⟩]⟩,
       .recv 1 1 ⟨[(5, 0)], [⟨0, 0, 0⟩]⟩, .step 1 1, .step 1 1, .step 1 0, .step 1 0, .wait, .wait, .wait]).map
        (fun s => (s.attempt, s.phase)) = some (1, .returned [[⟨1, 0, 1⟩], [⟨-1, -1, 0⟩]]) := by
  refine ⟨fun a i r h => ?_, by decide⟩
  simp only [List.mem_cons, List.not_mem_nil, or_false, Event.recv.injEq, reduceCtorEq, false_or] at h
  rcases h with ⟨-, rfl, rfl⟩ | ⟨-, rfl, rfl⟩ | ⟨-, rfl, rfl⟩ <;> rfl

/-- Samples of two servers for node 5. -/
example : uReply [5] [some (2, [(1, 0)])] = ⟨[5], [2], [(1, 0)]⟩ ∧
    (run (uniformMethod (fun _ => 0) false 1 (-1, -1) [5] 2) 2 2 []
      [.recv 0 1 ⟨[5], [2], [(3, 0)]⟩, .step 0 1, .fail 0 0, .wait, .retry, .recv 1 0 ⟨[5], [2], [(1, 0)]⟩,
       .recv 1 1 ⟨[5], [2], [(4, 0)]⟩, .step 1 1, .step 1 0, .wait, .wait, .wait]).map (fun s => s.attempt) = some 1 := by
  decide

end DeepGNN
