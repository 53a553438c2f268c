import Verif.Proofs.RemoteSparse
import Verif.Spec.RemoteSparse
import Verif.Props.C12
import Verif.Props.C66

/-
C67 Sparse features from several servers.
-/

namespace DeepGNN

open Spec

variable {C : WeightCodec} {wm : Option Nat} {m : Meta} {parts : List (List (List Rec))} {g : Graph}

theorem sparseOut_eq (n dim : Nat) (v : Nat → Option Sparse) : sparseOut n dim v =
    (if ∃ i, i < n ∧ (v i).isSome then dim else 0, (List.range n).flatMap fun i => flatRows (posRows (v i) i),
      (List.range n).flatMap fun i => valBytes (v i)) := by
  simp only [sparseOut, Prod.mk.injEq, true_and]
  constructor
  · refine flatMap_on fun i _ => ?_
    cases v i <;> simp [posRows, flatRows, List.flatMap_map]
  · rfl

/-- Servers whose queries return the values `val s f x`. -/
theorem sparse_servers {σ α : Type} (servers : List σ) (q : σ → α → Nat → List SparseState → Option (List SparseState))
    (val : σ → Nat → α → Option Sparse) (xs : List α) (feats : List Nat) (dim size : Nat → Nat)
    (hq : ∀ s ∈ servers, ∀ x ∈ xs, ∀ (i : Nat) (ss : List SparseState), feats.length = ss.length → (∀ t ∈ ss, t.flag = -1) →
      q s x i ss = some (List.zipWith (fun f t => stepSparse i (val s f x) t) feats ss))
    (hval : ∀ s ∈ servers, ∀ x ∈ xs, ∀ f ∈ feats, ∀ v, val s f x = some v →
      v.Ok ∧ v.dim = dim f ∧ ∀ b ∈ v.values, b.length = size f) :
    ∃ replies, servers.mapM (fun s => (serveSparses (q s) xs 0 (List.replicate feats.length {})).map sparseReply) = some replies ∧
      ∃ seqs, sparseSeqs feats.length replies = some seqs ∧ ∀ steps, Interleaved seqs steps →
        ∃ pick : Nat → Nat → Option Sparse,
          remoteSparse xs.length feats.length replies steps =
            some (feats.zipIdx.map fun f => sparseOut xs.length (dim f.1) fun i => pick i f.2) ∧
          ∀ (i : Nat) (x : α) (j f : Nat), xs[i]? = some x → feats[j]? = some f →
            (∃ s ∈ servers, pick i j = val s f x ∧ (pick i j).isSome) ∨
            (pick i j = none ∧ ∀ s ∈ servers, val s f x = none) := by
  let dim' : Nat → Nat := fun j => (feats[j]?).elim 0 dim
  let size' : Nat → Nat := fun j => (feats[j]?).elim 0 size
  let val' : σ → Nat → Nat → Option Sparse := fun s i j => (xs[i]?).bind fun x => (feats[j]?).bind fun f => val s f x
  obtain ⟨replies, h1, h2, h3⟩ := mapM_lookup (l := servers)
    (f := fun s => (serveSparses (q s) xs 0 (List.replicate feats.length {})).map sparseReply)
    (P := fun s r => SparseOk xs.length feats.length dim' size' (val' s) r)
    (fun s hs => sparseReply_ok (q s) feats (val s) xs dim size (hq s hs) (hval s hs))
  obtain ⟨seqs, h4, h5⟩ := remoteSparse_ok (n := xs.length) (F := feats.length) (dim := dim') (size := size') replies
    (fun k i j => (servers[k]?).bind fun s => val' s i j) (by
      intro k r hr
      have hk : k < servers.length := by rw [← h2]; exact (List.getElem?_eq_some_iff.1 hr).1
      rw [List.getElem?_eq_getElem hk]
      exact h3 k _ r (List.getElem?_eq_getElem hk) hr)
  refine ⟨replies, h1, seqs, h4, fun steps hst => ?_⟩
  obtain ⟨pick, h6, h7⟩ := h5 steps hst
  refine ⟨pick, ?_, ?_⟩
  · rw [h7]
    congr 1
    symm
    have := map_positions feats.zipIdx (fun f => sparseOut xs.length (dim f.1) fun i => pick i f.2)
      (fun j => (if ∃ i, i < xs.length ∧ (pick i j).isSome then dim' j else 0,
         (List.range xs.length).flatMap fun i => flatRows (posRows (pick i j) i),
         (List.range xs.length).flatMap fun i => valBytes (pick i j))) (by
      intro j a ha
      rw [List.getElem?_zipIdx, Option.map_eq_some_iff] at ha
      obtain ⟨f, hf, rfl⟩ := ha
      simp only [Nat.zero_add, dim', hf]
      rw [sparseOut_eq]
      rfl)
    rw [this, List.length_zipIdx]
  · intro i x j f hx hf
    have hi := (List.getElem?_eq_some_iff.1 hx).1
    have hj := (List.getElem?_eq_some_iff.1 hf).1
    have hv : ∀ s, val' s i j = val s f x := by intro s; simp [val', hx, hf]
    rcases h6 i hi j hj with ⟨k, hk, h8, h9⟩ | ⟨h8, h9⟩
    · left
      rw [h2] at hk
      rw [List.getElem?_eq_getElem hk, Option.bind_some, hv] at h8
      exact ⟨_, List.getElem_mem hk, h8, h9⟩
    · refine Or.inr ⟨h8, fun s hs => ?_⟩
      obtain ⟨k, hk⟩ := List.mem_iff_getElem?.1 hs
      have := h9 k (by rw [h2]; exact (List.getElem?_eq_some_iff.1 hk).1)
      rw [hk, Option.bind_some, hv] at this
      exact this

/-- For all servers, all requests and every order of the critical sections of the callbacks: if the values of a feature
have the same dimension and take the same number of bytes each, all servers answer, no callback reads beyond its reply or
aborts, and the client returns for each feature, in request order, values that one of the servers holds for the node
(that of its first record with such a value); a node is without a value only if no server holds one. -/
theorem C67_node_values (servers : List (List (List (List Rec)) × Graph))
    (hs : ∀ s ∈ servers, Built C wm m s.1 s.2) (nodes : List Int) (feats : List Nat)
    (D : Nat → List (Option Bytes) → Option Sparse) (dim size : Nat → Nat)
    (hD : ∀ s ∈ servers, ∀ n ∈ nodes, ∀ f ∈ feats, ∀ r ∈ nodeRecords s.1 n, HasSparse r.features f (D f r.features) ∧
      ∀ x, D f r.features = some x → x.dim = dim f ∧ ∀ b ∈ x.values, b.length = size f) :
    ∃ replies, servers.mapM (fun s => s.2.getNodeSparse feats nodes) = some replies ∧
      ∃ seqs, sparseSeqs feats.length replies = some seqs ∧ ∀ steps, Interleaved seqs steps →
        ∃ pick : Nat → Nat → Option Sparse,
          remoteSparse nodes.length feats.length replies steps =
            some (feats.zipIdx.map fun f => sparseOut nodes.length (dim f.1) fun i => pick i f.2) ∧
          ∀ (i : Nat) (n : Int) (j f : Nat), nodes[i]? = some n → feats[j]? = some f →
            (∃ s ∈ servers, pick i j = C12_value s.1 D f n ∧ (pick i j).isSome) ∨
            (pick i j = none ∧ ∀ s ∈ servers, C12_value s.1 D f n = none) := by
  refine sparse_servers servers (fun s => s.2.nodeSparsePart feats) (fun s => C12_value s.1 D) nodes feats dim size ?_ ?_
  · intro s hsm n hn i ss hss hfl
    obtain ⟨items, hg, hc⟩ := (hs s hsm).graphOk
    obtain ⟨es, h1, h2⟩ := hg.nodeSparse1 (fun it hit => (hc it hit).1) feats n i D
      (fun f hf r hr => (hD s hsm n hn f hf r hr).1)
    rw [Graph.nodeSparsePart, h1, Option.bind_some]
    exact h2 ss hss hfl
  · intro s hsm n hn f hf v hv
    obtain ⟨r, hr, h1⟩ := List.exists_of_findSome?_eq_some hv
    obtain ⟨h2, h3⟩ := hD s hsm n hn f hf r hr
    rw [h1] at h2
    exact ⟨h2.1, h3 v h1⟩

/-- The same for edges: a value is that of one of the records of the edge on one of the servers, and an edge that no
server has more than once is without a value only if its record on every server is. -/
theorem C67_edge_values (servers : List (List (List (List Rec)) × Graph))
    (hs : ∀ s ∈ servers, Built C wm m s.1 s.2) (edges : List EdgeId) (feats : List Nat)
    (D : Nat → List (Option Bytes) → Option Sparse) (dim size : Nat → Nat)
    (hD : ∀ s ∈ servers, ∀ e ∈ edges, ∀ f ∈ feats, ∀ r ∈ edgesBetween s.1 e.src e.dst e.typ,
      HasSparse r.features f (D f r.features) ∧
      ∀ x, D f r.features = some x → x.dim = dim f ∧ ∀ b ∈ x.values, b.length = size f) :
    ∃ replies, servers.mapM (fun s => s.2.getEdgeSparse feats edges) = some replies ∧
      ∃ seqs, sparseSeqs feats.length replies = some seqs ∧ ∀ steps, Interleaved seqs steps →
        ∃ pick : Nat → Nat → Option Sparse,
          remoteSparse edges.length feats.length replies steps =
            some (feats.zipIdx.map fun f => sparseOut edges.length (dim f.1) fun i => pick i f.2) ∧
          ∀ (i : Nat) (e : EdgeId) (j f : Nat), edges[i]? = some e → feats[j]? = some f →
            (∀ x, pick i j = some x → ∃ s ∈ servers, ∃ r ∈ edgesBetween s.1 e.src e.dst e.typ, D f r.features = some x) ∧
            (pick i j = none → ∀ s ∈ servers, ∀ r, edgesBetween s.1 e.src e.dst e.typ = [r] → D f r.features = none) := by
  have hitems : ∀ s : List (List (List Rec)) × Graph, ∃ items, s ∈ servers → GraphOk C m s.2 items s.1 ∧
      ∀ it ∈ items, it.files.edgeFeatureCount ≤ m.edgeFeatureCount := by
    intro s
    by_cases hsm : s ∈ servers
    · obtain ⟨items, hg, hc⟩ := (hs s hsm).graphOk
      exact ⟨items, fun _ => ⟨hg, fun it hit => (hc it hit).2⟩⟩
    · exact ⟨[], fun h => absurd h hsm⟩
  let items := fun s => Classical.choose (hitems s)
  have hit : ∀ s ∈ servers, GraphOk C m s.2 (items s) s.1 ∧ ∀ it ∈ items s, it.files.edgeFeatureCount ≤ m.edgeFeatureCount :=
    fun s hs => Classical.choose_spec (hitems s) hs
  obtain ⟨replies, h1, seqs, h2, h3⟩ := sparse_servers servers (fun s => s.2.edgeSparsePart feats)
    (fun s => edgeSparseVal D (items s)) edges feats dim size (by
      intro s hsm e he i ss hss hfl
      obtain ⟨hg, hc⟩ := hit s hsm
      obtain ⟨es, h1, h2⟩ := hg.edgeSparse1 hc feats e i D (fun f hf r hr => (hD s hsm e he f hf r hr).1)
      simp only [Graph.edgeSparsePart]
      rw [h1, Option.bind_some]
      exact h2 ss hss hfl) (by
      intro s hsm e he f hf v hv
      obtain ⟨r, hr, h1⟩ := ((hit s hsm).1.edgeSparseVal_spec D f e).1 v hv
      obtain ⟨h2, h3⟩ := hD s hsm e he f hf r hr
      rw [h1] at h2
      exact ⟨h2.1, h3 v h1⟩)
  refine ⟨replies, h1, seqs, h2, fun steps hst => ?_⟩
  obtain ⟨pick, h4, h5⟩ := h3 steps hst
  refine ⟨pick, h4, fun i e j f he hf => ⟨fun x hx => ?_, fun hx s hsm r hr => ?_⟩⟩
  · rcases h5 i e j f he hf with ⟨s, hsm, h6, -⟩ | ⟨h6, -⟩
    · rw [hx] at h6
      exact ⟨s, hsm, ((hit s hsm).1.edgeSparseVal_spec D f e).1 x h6.symm⟩
    · rw [hx] at h6; cases h6
  · rcases h5 i e j f he hf with ⟨s', -, -, h6⟩ | ⟨-, h6⟩
    · rw [hx] at h6; simp at h6
    · rw [← ((hit s hsm).1.edgeSparseVal_spec D f e).2 r hr]
      exact h6 s hsm

/-- Positions whose values are `val f x` give the result of a local query. -/
theorem sparseOut_local {α : Type} (xs : List α) (feats : List Nat) (dim : Nat → Nat) (val : Nat → α → Option Sparse)
    (pick : Nat → Nat → Option Sparse)
    (h : ∀ (i : Nat) (x : α) (j f : Nat), xs[i]? = some x → feats[j]? = some f → pick i j = val f x) :
    (feats.zipIdx.map fun f => sparseOut xs.length (dim f.1) fun i => pick i f.2) = feats.map fun f =>
      (if ∃ x ∈ xs, (val f x).isSome then dim f else 0,
       xs.zipIdx.flatMap fun (x, i) => match val f x with
         | none => []
         | some y => y.coords.flatMap fun row => (i : Int) :: row,
       xs.flatMap fun x => match val f x with
         | none => []
         | some y => y.values.flatten) := by
  apply List.ext_getElem?
  intro j
  rw [List.getElem?_map, List.getElem?_map, List.getElem?_zipIdx]
  cases hf : feats[j]? with
  | none => rfl
  | some f =>
    simp only [Option.map_some, Nat.zero_add, Option.some.injEq]
    obtain ⟨h1, h2, h3⟩ := sparse_positions xs (val f) (fun i => pick i j) (fun i x hx => (h i x j f hx hf).symm)
    rw [sparseOut_eq]
    simp only [Prod.mk.injEq]
    exact ⟨by simp only [h1], h2.symm, h3.symm⟩

/-- Servers that hold the partitions of a graph: if no two records of a requested node have different values of a requested
feature, and the values of a feature have the same dimension and take the same number of bytes each, the sparse features
fetched remotely are those fetched from the whole graph, for all distributions of the partitions and every order of the
critical sections.  Missing: nodes with different values (`C67_order_refuted`), features with values of different dimension
(`C67_dims_refuted`).  For requests with timestamps see Props/C67At.lean. -/
theorem C67_nodes_partial (h : Built C wm m parts g) (servers : List (List (List (List Rec)) × Graph))
    (hs : ∀ s ∈ servers, Built C wm m s.1 s.2) (hp : (servers.flatMap (·.1)).Perm parts) (nodes : List Int) (feats : List Nat)
    (D : Nat → List (Option Bytes) → Option Sparse) (dim size : Nat → Nat)
    (hD : ∀ n ∈ nodes, ∀ f ∈ feats, ∀ r ∈ nodeRecords parts n, HasSparse r.features f (D f r.features) ∧
      ∀ x, D f r.features = some x → x.dim = dim f ∧ ∀ b ∈ x.values, b.length = size f)
    (hone : ∀ n ∈ nodes, ∀ f ∈ feats, ∀ r ∈ nodeRecords parts n, ∀ r' ∈ nodeRecords parts n, ∀ x y,
      D f r.features = some x → D f r'.features = some y → x = y) :
    ∃ replies, servers.mapM (fun s => s.2.getNodeSparse feats nodes) = some replies ∧
      ∃ seqs, sparseSeqs feats.length replies = some seqs ∧ ∀ steps, Interleaved seqs steps →
        remoteSparse nodes.length feats.length replies steps = g.nodeSparse feats nodes := by
  have hmem : ∀ n r, r ∈ nodeRecords parts n ↔ ∃ s ∈ servers, r ∈ nodeRecords s.1 n := by
    intro n r
    rw [← (nodeRecords_servers servers hp n).mem_iff, List.mem_flatMap]
  obtain ⟨replies, h1, seqs, h2, h3⟩ := C67_node_values servers hs nodes feats D dim size
    fun s hsm n hn f hf r hr => hD n hn f hf r ((hmem n r).2 ⟨s, hsm, hr⟩)
  refine ⟨replies, h1, seqs, h2, fun steps hst => ?_⟩
  obtain ⟨pick, h4, h5⟩ := h3 steps hst
  rw [h4, C12_nodes h nodes feats D (fun n hn f hf r hr => (hD n hn f hf r hr).1) dim (by
    intro n hn f hf x hx
    obtain ⟨r, hr, h6⟩ := List.exists_of_findSome?_eq_some hx
    exact ((hD n hn f hf r hr).2 x h6).1)]
  congr 1
  refine sparseOut_local nodes feats dim (C12_value parts D) pick fun i n j f hn hf => ?_
  have hnm := List.mem_of_getElem? hn
  have hfm := List.mem_of_getElem? hf
  rcases h5 i n j f hn hf with ⟨s, hsm, h6, h7⟩ | ⟨h6, h7⟩
  · obtain ⟨x, hx⟩ := Option.isSome_iff_exists.1 h7
    rw [hx]
    rw [hx] at h6
    obtain ⟨r, hr, h8⟩ := List.exists_of_findSome?_eq_some h6.symm
    cases hv : C12_value parts D f n with
    | none =>
      have := List.findSome?_eq_none_iff.1 hv r ((hmem n r).2 ⟨s, hsm, hr⟩)
      rw [h8] at this; cases this
    | some y =>
      obtain ⟨r', hr', h9⟩ := List.exists_of_findSome?_eq_some hv
      exact congrArg some (hone n hnm f hfm r ((hmem n r).2 ⟨s, hsm, hr⟩) r' hr' x y h8 h9)
  · rw [h6]
    symm
    refine List.findSome?_eq_none_iff.2 fun r hr => ?_
    obtain ⟨s, hsm, hrs⟩ := (hmem n r).1 hr
    exact List.findSome?_eq_none_iff.1 (h7 s hsm) r hrs

/-- The same for edges that were given at most once. -/
theorem C67_edges_partial (h : Built C wm m parts g) (servers : List (List (List (List Rec)) × Graph))
    (hs : ∀ s ∈ servers, Built C wm m s.1 s.2) (hp : (servers.flatMap (·.1)).Perm parts) (edges : List EdgeId) (feats : List Nat)
    (D : Nat → List (Option Bytes) → Option Sparse) (dim size : Nat → Nat)
    (hD : ∀ e ∈ edges, ∀ f ∈ feats, ∀ r ∈ edgesBetween parts e.src e.dst e.typ, HasSparse r.features f (D f r.features) ∧
      ∀ x, D f r.features = some x → x.dim = dim f ∧ ∀ b ∈ x.values, b.length = size f)
    (hone : ∀ e ∈ edges, (edgesBetween parts e.src e.dst e.typ).length ≤ 1) :
    ∃ replies, servers.mapM (fun s => s.2.getEdgeSparse feats edges) = some replies ∧
      ∃ seqs, sparseSeqs feats.length replies = some seqs ∧ ∀ steps, Interleaved seqs steps →
        remoteSparse edges.length feats.length replies steps = g.edgeSparse feats edges := by
  have hmem : ∀ (e : EdgeId) r, r ∈ edgesBetween parts e.src e.dst e.typ ↔ ∃ s ∈ servers, r ∈ edgesBetween s.1 e.src e.dst e.typ := by
    intro e r
    rw [← (edgesBetween_servers servers hp e.src e.dst e.typ).mem_iff, List.mem_flatMap]
  obtain ⟨replies, h1, seqs, h2, h3⟩ := C67_edge_values servers hs edges feats D dim size
    fun s hsm e he f hf r hr => hD e he f hf r ((hmem e r).2 ⟨s, hsm, hr⟩)
  refine ⟨replies, h1, seqs, h2, fun steps hst => ?_⟩
  obtain ⟨pick, h4, h5⟩ := h3 steps hst
  obtain ⟨val, hval, h6⟩ := C12_edges h edges feats D (fun e he f hf r hr => (hD e he f hf r hr).1) dim
    (fun e he f hf r hr x hx => ((hD e he f hf r hr).2 x hx).1)
  rw [h4, h6]
  congr 1
  refine sparseOut_local edges feats dim val pick fun i e j f he hf => ?_
  have hem := List.mem_of_getElem? he
  have hspread := spread_one (own := fun s : List (List (List Rec)) × Graph => edgesBetween s.1 e.src e.dst e.typ)
    (edgesBetween_servers servers hp e.src e.dst e.typ) (hone e hem)
  obtain ⟨p1, p2⟩ := h5 i e j f he hf
  obtain ⟨v1, v2⟩ := hval f e
  match hr : edgesBetween parts e.src e.dst e.typ, hone e hem with
  | [], _ =>
    have hv : val f e = none := by
      cases hv : val f e with
      | none => rfl
      | some x => obtain ⟨r, h7, -⟩ := v1 x hv; rw [hr] at h7; cases h7
    rw [hv]
    cases hp : pick i j with
    | none => rfl
    | some x =>
      obtain ⟨s, hsm, r, h7, -⟩ := p1 x hp
      have := (hmem e r).2 ⟨s, hsm, h7⟩
      rw [hr] at this; cases this
  | [r], _ =>
    rw [v2 r hr]
    cases hp : pick i j with
    | none =>
      obtain ⟨s, hsm, h7⟩ := (hmem e r).1 (by rw [hr]; simp)
      rcases hspread.1 s hsm with h8 | h8
      · rw [h8] at h7; cases h7
      · exact (p2 hp s hsm r (h8.trans hr)).symm
    | some x =>
      obtain ⟨s, hsm, r', h7, h8⟩ := p1 x hp
      have := (hmem e r').2 ⟨s, hsm, h7⟩
      rw [hr, List.mem_singleton] at this
      rw [← this, h8]
  | _ :: _ :: _, h => simp at h

/-- Partitions on two servers: node 1 and edge (1, 2) have sparse values on the first, node 3 on the second. -/
def C67_a : List (List Rec) :=
  [[⟨1, -1, 0, 1, none, none, [some (encSparse C12_a)]⟩, ⟨1, 2, 0, 1, none, none, [some (encSparse C12_b)]⟩]]
def C67_b : List (List Rec) :=
  [[⟨3, -1, 0, 1, none, none, [some (encSparse C12_b)]⟩, ⟨4, -1, 0, 1, none, none, [none]⟩]]

/-- The critical sections of both callbacks. -/
def C67_first : SparseStep := ⟨0, 0, 2, 1, [⟨2, 0, 0, 0⟩, ⟨2, 3, 1, 0⟩]⟩
def C67_second : SparseStep := ⟨1, 0, 2, 1, [⟨0, 0, 0, 0⟩]⟩

/-- Non-vacuity: the hypotheses on the values hold, both servers answer, and the second one first. -/
example : ∃ g1 g2 r1 r2, Built intCodec none ⟨1, 1, -1⟩ [C67_a] g1 ∧ Built intCodec none ⟨1, 1, -1⟩ [C67_b] g2 ∧
    (∀ n ∈ [(3 : Int), 2, 1, 4], ∀ f ∈ [0], ∀ r ∈ nodeRecords [C67_a, C67_b] n, HasSparse r.features f (C12_sparse f r.features) ∧
      ∀ x, C12_sparse f r.features = some x → x.dim = 2 ∧ ∀ b ∈ x.values, b.length = 1) ∧
    (∀ n ∈ [(3 : Int), 2, 1, 4], (nodeRecords [C67_a, C67_b] n).length ≤ 1) ∧
    [g1, g2].mapM (fun g => g.getNodeSparse [0] [3, 2, 1, 4]) = some [r1, r2] ∧
    sparseSeqs 1 [r1, r2] = some [[C67_first], [C67_second]] ∧
    Interleaved [[C67_first], [C67_second]] [C67_second, C67_first] ∧
    remoteSparse 4 1 [r1, r2] [C67_second, C67_first] = some [(2, [0, 7, 8, 2, 3, 4, 2, 5, 6], [9, 1, 2])] := by
  obtain ⟨g1, hg1, hb1⟩ := built_of_check (wm := none) (m := ⟨1, 1, -1⟩) (parts := [C67_a]) (by decide +kernel)
  obtain ⟨g2, hg2, hb2⟩ := built_of_check (wm := none) (m := ⟨1, 1, -1⟩) (parts := [C67_b]) (by decide +kernel)
  have h1 : nodeRecords [C67_a, C67_b] 1 = [⟨1, -1, 0, 1, none, none, [some (encSparse C12_a)]⟩] := by decide +kernel
  have h2 : nodeRecords [C67_a, C67_b] 2 = [] := by decide +kernel
  have h3 : nodeRecords [C67_a, C67_b] 3 = [⟨3, -1, 0, 1, none, none, [some (encSparse C12_b)]⟩] := by decide +kernel
  have h4 : nodeRecords [C67_a, C67_b] 4 = [⟨4, -1, 0, 1, none, none, [none]⟩] := by decide +kernel
  have d1 : C12_sparse 0 [some (encSparse C12_a)] = some C12_a := by decide +kernel
  have d2 : C12_sparse 0 [none] = none := by decide +kernel
  have d3 : C12_sparse 0 [some (encSparse C12_b)] = some C12_b := by decide +kernel
  refine ⟨g1, g2, ⟨[2], [2, 3, 4, 2, 5, 6], [6], [1, 2], [2], [-1, -1, 0, -1]⟩, ⟨[2], [0, 7, 8], [3], [9], [1], [0, -1, -1, -1]⟩,
    hb1, hb2, ?_, by decide +kernel, ?_, by decide +kernel, ⟨[(1, C67_second), (0, C67_first)], rfl, fun i => ?_⟩, by decide +kernel⟩
  · intro n hn f hf r hr
    rw [List.mem_singleton] at hf
    subst hf
    simp only [List.mem_cons, List.not_mem_nil, or_false] at hn
    rcases hn with rfl | rfl | rfl | rfl
    · rw [h3, List.mem_singleton] at hr; subst hr
      simp only [d3, HasSparse]
      exact ⟨⟨C12_b_ok, _, Spec.Describes.mat 2 [[7, 8]] [[9]], _,
        convert_describes C12_b_ok (Spec.Describes.mat 2 [[7, 8]] [[9]]), rfl⟩,
        fun x hx => by rw [← Option.some.inj hx]; decide⟩
    · rw [h2] at hr; simp at hr
    · rw [h1, List.mem_singleton] at hr; subst hr
      simp only [d1, HasSparse]
      exact ⟨⟨C12_a_ok, _, Spec.Describes.mat 2 [[3, 4], [5, 6]] [[1], [2]], _,
        convert_describes C12_a_ok (Spec.Describes.mat 2 [[3, 4], [5, 6]] [[1], [2]]), rfl⟩,
        fun x hx => by rw [← Option.some.inj hx]; decide⟩
    · rw [h4, List.mem_singleton] at hr; subst hr
      simp [d2, HasSparse]
  · have : (graphOf intCodec none ⟨1, 1, -1⟩ [C67_a]).bind (fun g1 => (graphOf intCodec none ⟨1, 1, -1⟩ [C67_b]).bind
        fun g2 => [g1, g2].mapM (fun g => g.getNodeSparse [0] [3, 2, 1, 4])) =
      some [⟨[2], [2, 3, 4, 2, 5, 6], [6], [1, 2], [2], [-1, -1, 0, -1]⟩, ⟨[2], [0, 7, 8], [3], [9], [1], [0, -1, -1, -1]⟩] := by
      decide +kernel
    rwa [hg1, Option.bind_some, hg2, Option.bind_some] at this
  · match i with
    | 0 => rfl
    | 1 => rfl
    | i + 2 => rfl

/-- Non-vacuity for edges: an edge of the first server and an unknown one. -/
example : ∃ g1 g2, Built intCodec none ⟨1, 1, -1⟩ [C67_a] g1 ∧ Built intCodec none ⟨1, 1, -1⟩ [C67_b] g2 ∧
    (∀ e ∈ [(⟨1, 3, 0⟩ : EdgeId), ⟨1, 2, 0⟩], (edgesBetween [C67_a, C67_b] e.src e.dst e.typ).length ≤ 1) ∧
    [g1, g2].mapM (fun g => g.getEdgeSparse [0] [⟨1, 3, 0⟩, ⟨1, 2, 0⟩]) =
      some [⟨[2], [1, 7, 8], [3], [9], [1], [-1, 0]⟩, ⟨[0], [], [0], [], [0], [-1, -1]⟩] ∧
    sparseSeqs 1 [⟨[2], [1, 7, 8], [3], [9], [1], [-1, 0]⟩, ⟨[0], [], [0], [], [0], [-1, -1]⟩] =
      some [[⟨0, 0, 2, 1, [⟨1, 0, 0, 0⟩]⟩], []] := by
  obtain ⟨g1, hg1, hb1⟩ := built_of_check (wm := none) (m := ⟨1, 1, -1⟩) (parts := [C67_a]) (by decide +kernel)
  obtain ⟨g2, hg2, hb2⟩ := built_of_check (wm := none) (m := ⟨1, 1, -1⟩) (parts := [C67_b]) (by decide +kernel)
  refine ⟨g1, g2, hb1, hb2, by decide +kernel, ?_, by decide +kernel⟩
  have : (graphOf intCodec none ⟨1, 1, -1⟩ [C67_a]).bind (fun g1 => (graphOf intCodec none ⟨1, 1, -1⟩ [C67_b]).bind
        fun g2 => [g1, g2].mapM (fun g => g.getEdgeSparse [0] [⟨1, 3, 0⟩, ⟨1, 2, 0⟩])) =
      some [⟨[2], [1, 7, 8], [3], [9], [1], [-1, 0]⟩, ⟨[0], [], [0], [], [0], [-1, -1]⟩] := by decide +kernel
  rwa [hg1, Option.bind_some, hg2, Option.bind_some] at this

/-- Another value of node 1, with the same dimension, and one with another dimension. -/
def C67_again : List (List Rec) := [[⟨1, -1, 0, 1, none, none, [some (encSparse C12_b)]⟩]]
def C67_narrow : List (List Rec) := [[⟨1, -1, 0, 1, none, none, [some (encSparse ⟨1, [[3]], [[1]]⟩)]⟩]]

/-- The claim that servers with the partitions of a graph give what the graph gives is false for a node whose records have
different values: the value of the server that answers first is returned, so the same request has different results. -/
theorem C67_order_refuted : ∃ g g1 g2 r1 r2 w1 w2, Built intCodec none ⟨1, 1, -1⟩ [C67_a, C67_again] g ∧
    Built intCodec none ⟨1, 1, -1⟩ [C67_a] g1 ∧ Built intCodec none ⟨1, 1, -1⟩ [C67_again] g2 ∧
    [g1, g2].mapM (fun g => g.getNodeSparse [0] [1]) = some [r1, r2] ∧ sparseSeqs 1 [r1, r2] = some [w1, w2] ∧
    Interleaved [w1, w2] (w1 ++ w2) ∧ Interleaved [w1, w2] (w2 ++ w1) ∧
    g.nodeSparse [0] [1] = some [(2, [0, 3, 4, 0, 5, 6], [1, 2])] ∧
    remoteSparse 1 1 [r1, r2] (w1 ++ w2) = some [(2, [0, 3, 4, 0, 5, 6], [1, 2])] ∧
    remoteSparse 1 1 [r1, r2] (w2 ++ w1) = some [(2, [0, 7, 8], [9])] := by
  obtain ⟨g, hg, hb⟩ := built_of_check (wm := none) (m := ⟨1, 1, -1⟩) (parts := [C67_a, C67_again]) (by decide +kernel)
  obtain ⟨g1, hg1, hb1⟩ := built_of_check (wm := none) (m := ⟨1, 1, -1⟩) (parts := [C67_a]) (by decide +kernel)
  obtain ⟨g2, hg2, hb2⟩ := built_of_check (wm := none) (m := ⟨1, 1, -1⟩) (parts := [C67_again]) (by decide +kernel)
  refine ⟨g, g1, g2, ⟨[2], [0, 3, 4, 0, 5, 6], [6], [1, 2], [2], [0]⟩, ⟨[2], [0, 7, 8], [3], [9], [1], [0]⟩,
    [⟨0, 0, 2, 1, [⟨0, 0, 0, 0⟩, ⟨0, 3, 1, 0⟩]⟩], [⟨1, 0, 2, 1, [⟨0, 0, 0, 0⟩]⟩], hb, hb1, hb2, ?_, by decide +kernel,
    ⟨[(0, ⟨0, 0, 2, 1, [⟨0, 0, 0, 0⟩, ⟨0, 3, 1, 0⟩]⟩), (1, ⟨1, 0, 2, 1, [⟨0, 0, 0, 0⟩]⟩)], rfl, fun i => ?_⟩,
    ⟨[(1, ⟨1, 0, 2, 1, [⟨0, 0, 0, 0⟩]⟩), (0, ⟨0, 0, 2, 1, [⟨0, 0, 0, 0⟩, ⟨0, 3, 1, 0⟩]⟩)], rfl, fun i => ?_⟩,
    ?_, by decide +kernel, by decide +kernel⟩
  · have : (graphOf intCodec none ⟨1, 1, -1⟩ [C67_a]).bind (fun g1 => (graphOf intCodec none ⟨1, 1, -1⟩ [C67_again]).bind
        fun g2 => [g1, g2].mapM (fun g => g.getNodeSparse [0] [1])) =
      some [⟨[2], [0, 3, 4, 0, 5, 6], [6], [1, 2], [2], [0]⟩, ⟨[2], [0, 7, 8], [3], [9], [1], [0]⟩] := by decide +kernel
    rwa [hg1, Option.bind_some, hg2, Option.bind_some] at this
  · match i with
    | 0 => rfl
    | 1 => rfl
    | i + 2 => rfl
  · match i with
    | 0 => rfl
    | 1 => rfl
    | i + 2 => rfl
  · have : (graphOf intCodec none ⟨1, 1, -1⟩ [C67_a, C67_again]).bind (fun g => g.nodeSparse [0] [1]) =
      some [(2, [0, 3, 4, 0, 5, 6], [1, 2])] := by decide +kernel
    rwa [hg, Option.bind_some] at this

/-- It is false as well if the values on two servers have different dimensions: the client aborts, while the whole graph
gives the first value. -/
theorem C67_dims_refuted : ∃ g g1 g2 r1 r2 w1 w2, Built intCodec none ⟨1, 1, -1⟩ [C67_a, C67_narrow] g ∧
    Built intCodec none ⟨1, 1, -1⟩ [C67_a] g1 ∧ Built intCodec none ⟨1, 1, -1⟩ [C67_narrow] g2 ∧
    [g1, g2].mapM (fun g => g.getNodeSparse [0] [1]) = some [r1, r2] ∧ sparseSeqs 1 [r1, r2] = some [w1, w2] ∧
    g.nodeSparse [0] [1] = some [(2, [0, 3, 4, 0, 5, 6], [1, 2])] ∧
    remoteSparse 1 1 [r1, r2] (w1 ++ w2) = none ∧ remoteSparse 1 1 [r1, r2] (w2 ++ w1) = none := by
  obtain ⟨g, hg, hb⟩ := built_of_check (wm := none) (m := ⟨1, 1, -1⟩) (parts := [C67_a, C67_narrow]) (by decide +kernel)
  obtain ⟨g1, hg1, hb1⟩ := built_of_check (wm := none) (m := ⟨1, 1, -1⟩) (parts := [C67_a]) (by decide +kernel)
  obtain ⟨g2, hg2, hb2⟩ := built_of_check (wm := none) (m := ⟨1, 1, -1⟩) (parts := [C67_narrow]) (by decide +kernel)
  refine ⟨g, g1, g2, ⟨[2], [0, 3, 4, 0, 5, 6], [6], [1, 2], [2], [0]⟩, ⟨[1], [0, 3], [2], [1], [1], [0]⟩,
    [⟨0, 0, 2, 1, [⟨0, 0, 0, 0⟩, ⟨0, 3, 1, 0⟩]⟩], [⟨1, 0, 1, 1, [⟨0, 0, 0, 0⟩]⟩], hb, hb1, hb2, ?_, by decide +kernel,
    ?_, by decide +kernel, by decide +kernel⟩
  · have : (graphOf intCodec none ⟨1, 1, -1⟩ [C67_a]).bind (fun g1 => (graphOf intCodec none ⟨1, 1, -1⟩ [C67_narrow]).bind
        fun g2 => [g1, g2].mapM (fun g => g.getNodeSparse [0] [1])) =
      some [⟨[2], [0, 3, 4, 0, 5, 6], [6], [1, 2], [2], [0]⟩, ⟨[1], [0, 3], [2], [1], [1], [0]⟩] := by decide +kernel
    rwa [hg1, Option.bind_some, hg2, Option.bind_some] at this
  · have : (graphOf intCodec none ⟨1, 1, -1⟩ [C67_a, C67_narrow]).bind (fun g => g.nodeSparse [0] [1]) =
      some [(2, [0, 3, 4, 0, 5, 6], [1, 2])] := by decide +kernel
    rwa [hg, Option.bind_some] at this

end DeepGNN
