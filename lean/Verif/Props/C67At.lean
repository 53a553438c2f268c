import Verif.Proofs.RemoteTemporalSparse
import Verif.Props.C113

/-
C67 Sparse features at given times from several servers.
-/

namespace DeepGNN

open Spec

variable {C : WeightCodec} {wm : Option Nat} {m : Meta} {parts : List (List (List Rec))} {g : Graph}

theorem InForce.version {H : Nat → List (Option Bytes) → List (Int × Sparse)} {f : Nat} {rs : List Rec} {t : Int} {v : Sparse}
    (h : InForce (versions H f rs) t (some v)) (hH : ∀ r ∈ rs, HasSparseHist r.features f (H f r.features)) :
    v.Ok ∧ ∃ c, (c, v) ∈ versions H f rs := by
  obtain ⟨c, hc, -, -⟩ := h
  refine ⟨?_, c, hc⟩
  obtain ⟨r, hr, hrc⟩ := List.mem_flatMap.1 hc
  rcases hH r hr with ⟨-, h1⟩ | ⟨enc, h1, -, -⟩
  · rw [h1] at hrc; cases hrc
  · exact (h1 _ hrc).1

theorem InForce.of_mem {a b : List (Int × Sparse)} (h : ∀ y, y ∈ a ↔ y ∈ b) {t : Int} {v : Option Sparse}
    (hv : InForce a t v) : InForce b t v := by
  cases v with
  | none => exact fun y hy => hv y ((h y).2 hy)
  | some v =>
    obtain ⟨c, h1, h2, h3⟩ := hv
    exact ⟨c, (h _).1 h1, h2, fun y hy => h3 y ((h y).2 hy)⟩

/-- For all servers, all requests (nodes, each with a time) and every order of the critical sections of the callbacks:
`H f fl` are the versions of feature `f` in a record with the features `fl`, `val s f x` is the version in force among
those of the records of the node on server `s`.  If the versions of a feature have the same dimension and take the same
number of bytes each, all servers answer, no callback reads beyond its reply or aborts, and the client returns for each
feature, in request order, the version in force on one of the servers; a node is without a value only if no server has a
version in force. -/
theorem C67_node_values_at (servers : List (List (List (List Rec)) × Graph))
    (hs : ∀ s ∈ servers, Built C wm m s.1 s.2) (nodes : List (Int × Int)) (feats : List Nat)
    (H : Nat → List (Option Bytes) → List (Int × Sparse))
    (val : List (List (List Rec)) × Graph → Nat → Int × Int → Option Sparse) (dim size : Nat → Nat)
    (hH : ∀ s ∈ servers, ∀ x ∈ nodes, ∀ f ∈ feats, ∀ r ∈ nodeRecords s.1 x.1, HasSparseHist r.features f (H f r.features))
    (hval : ∀ s ∈ servers, ∀ x ∈ nodes, ∀ f ∈ feats, InForce (versions H f (nodeRecords s.1 x.1)) x.2 (val s f x))
    (htimes : ∀ s ∈ servers, ∀ x ∈ nodes, ∀ f ∈ feats, ∀ y ∈ versions H f (nodeRecords s.1 x.1),
      ∀ z ∈ versions H f (nodeRecords s.1 x.1), y.1 = z.1 → y = z)
    (hone : ∀ s ∈ servers, ∀ x ∈ nodes, ∀ f ∈ feats,
      (∀ y ∈ versions H f (nodeRecords s.1 x.1), y.2.coords.length = 1) ∨
      ∀ r ∈ nodeRecords s.1 x.1, ∀ r' ∈ nodeRecords s.1 x.1, H f r.features = H f r'.features)
    (hdim : ∀ s ∈ servers, ∀ x ∈ nodes, ∀ f ∈ feats, ∀ y ∈ versions H f (nodeRecords s.1 x.1),
      y.2.dim = dim f ∧ ∀ b ∈ y.2.values, b.length = size f) :
    ∃ replies, servers.mapM (fun s => s.2.getNodeSparseAt feats nodes) = some replies ∧
      ∃ seqs, sparseSeqs feats.length replies = some seqs ∧ ∀ steps, Interleaved seqs steps →
        ∃ pick : Nat → Nat → Option Sparse,
          remoteSparse nodes.length feats.length replies steps =
            some (feats.zipIdx.map fun f => sparseOut nodes.length (dim f.1) fun i => pick i f.2) ∧
          ∀ (i : Nat) (x : Int × Int) (j f : Nat), nodes[i]? = some x → feats[j]? = some f →
            (∃ s ∈ servers, pick i j = val s f x ∧ (pick i j).isSome) ∨
            (pick i j = none ∧ ∀ s ∈ servers, val s f x = none) := by
  refine sparse_servers_at servers (fun s => s.2.nodeSparseAtPart feats) val nodes feats dim size ?_ ?_
  · intro s hsm x hx i ss hss hfl
    obtain ⟨items, hg, hc⟩ := (hs s hsm).graphOk
    obtain ⟨es, h1, h2⟩ := hg.nodeSparseAt1 (fun it hit => (hc it hit).1) feats x.1 x.2 i H (hH s hsm x hx)
      (hone s hsm x hx)
    obtain ⟨ss', h3, h4, h5⟩ := h2 ss hss hfl
    refine ⟨ss', by simp only [Graph.nodeSparseAtPart, h1, Option.bind_some, h3], h4, fun y hy => ?_⟩
    have hf : y.1.1 ∈ feats := (List.of_mem_zip (List.of_mem_zip hy).1).1
    have hs' : y.1.2 ∈ ss := (List.of_mem_zip (List.of_mem_zip hy).1).2
    have h6 := h5 ((y.1.1, y.1.2.1), y.2) (by
      rw [List.zip_map_right, List.zip_map_left]
      exact List.mem_map.2 ⟨y, hy, rfl⟩)
    have h7 := hval s hsm x hx _ hf
    have h8 := h6.out_eq (htimes s hsm x hx _ hf) h7
    simp only at h8
    have h9 : ({ y.1.2.1 with flag := -1 } : SparseState) = y.1.2.1 := by
      have := hfl _ hs'
      rw [← this]
    rw [h9] at h8
    exact ⟨h8, h6.flag_eq h7⟩
  · intro s hsm x hx f hf v hv
    have h1 := hval s hsm x hx f hf
    rw [hv] at h1
    obtain ⟨h2, c, h3⟩ := InForce.version h1 (hH s hsm x hx f hf)
    exact ⟨h2, hdim s hsm x hx f hf _ h3⟩

/-- Servers that hold the partitions of a graph, and nodes all of whose records have the same versions of the requested
features: what is fetched remotely for given times is what the whole graph gives, for all distributions of the partitions
and every order of the critical sections.  Missing: nodes with different versions on different servers
(`C67_stale_refuted`). -/
theorem C67_nodes_at_partial (h : Built C wm m parts g) (servers : List (List (List (List Rec)) × Graph))
    (hs : ∀ s ∈ servers, Built C wm m s.1 s.2) (hp : (servers.flatMap (·.1)).Perm parts) (nodes : List (Int × Int))
    (feats : List Nat) (H : Nat → List (Option Bytes) → List (Int × Sparse)) (val : Nat → Int × Int → Option Sparse)
    (dim size : Nat → Nat)
    (hH : ∀ x ∈ nodes, ∀ f ∈ feats, ∀ r ∈ nodeRecords parts x.1, HasSparseHist r.features f (H f r.features))
    (hval : ∀ x ∈ nodes, ∀ f ∈ feats, InForce (versions H f (nodeRecords parts x.1)) x.2 (val f x))
    (htimes : ∀ x ∈ nodes, ∀ f ∈ feats, ∀ y ∈ versions H f (nodeRecords parts x.1),
      ∀ z ∈ versions H f (nodeRecords parts x.1), y.1 = z.1 → y = z)
    (hsame : ∀ x ∈ nodes, ∀ f ∈ feats, ∀ r ∈ nodeRecords parts x.1, ∀ r' ∈ nodeRecords parts x.1,
      H f r.features = H f r'.features)
    (hdim : ∀ x ∈ nodes, ∀ f ∈ feats, ∀ y ∈ versions H f (nodeRecords parts x.1),
      y.2.dim = dim f ∧ ∀ b ∈ y.2.values, b.length = size f) :
    ∃ replies, servers.mapM (fun s => s.2.getNodeSparseAt feats nodes) = some replies ∧
      ∃ seqs, sparseSeqs feats.length replies = some seqs ∧ ∀ steps, Interleaved seqs steps →
        remoteSparse nodes.length feats.length replies steps = g.nodeSparseAt feats nodes := by
  have hmem : ∀ n r, r ∈ nodeRecords parts n ↔ ∃ s ∈ servers, r ∈ nodeRecords s.1 n := by
    intro n r
    rw [← (nodeRecords_servers servers hp n).mem_iff, List.mem_flatMap]
  have hsub : ∀ s ∈ servers, ∀ f n, ∀ y ∈ versions H f (nodeRecords s.1 n), y ∈ versions H f (nodeRecords parts n) := by
    intro s hsm f n y hy
    obtain ⟨r, hr, hry⟩ := List.mem_flatMap.1 hy
    exact List.mem_flatMap.2 ⟨r, (hmem n r).2 ⟨s, hsm, hr⟩, hry⟩
  obtain ⟨replies, h1, seqs, h2, h3⟩ := C67_node_values_at servers hs nodes feats H
    (fun s f x => if nodeRecords s.1 x.1 = [] then none else val f x) dim size
    (fun s hsm x hx f hf r hr => hH x hx f hf r ((hmem x.1 r).2 ⟨s, hsm, hr⟩)) (by
      intro s hsm x hx f hf
      by_cases hn : nodeRecords s.1 x.1 = []
      · rw [if_pos hn, hn]
        intro y hy
        cases hy
      · rw [if_neg hn]
        refine InForce.of_mem (fun y => ⟨fun hy => ?_, hsub s hsm f x.1 y⟩) (hval x hx f hf)
        obtain ⟨r', hr'⟩ := List.exists_mem_of_ne_nil _ hn
        obtain ⟨r, hr, hry⟩ := List.mem_flatMap.1 hy
        rw [hsame x hx f hf r hr r' ((hmem x.1 r').2 ⟨s, hsm, hr'⟩)] at hry
        exact List.mem_flatMap.2 ⟨r', hr', hry⟩)
    (fun s hsm x hx f hf y hy z hz => htimes x hx f hf y (hsub s hsm f x.1 y hy) z (hsub s hsm f x.1 z hz))
    (fun s hsm x hx f hf => Or.inr fun r hr r' hr' =>
      hsame x hx f hf r ((hmem x.1 r).2 ⟨s, hsm, hr⟩) r' ((hmem x.1 r').2 ⟨s, hsm, hr'⟩))
    (fun s hsm x hx f hf y hy => hdim x hx f hf y (hsub s hsm f x.1 y hy))
  refine ⟨replies, h1, seqs, h2, fun steps hst => ?_⟩
  obtain ⟨pick, h4, h5⟩ := h3 steps hst
  rw [h4, C113_nodes_partial h nodes feats H val hH hval htimes (fun x hx f hf => Or.inr (hsame x hx f hf)) dim (by
    intro x hx f hf v hv
    have h6 := hval x hx f hf
    rw [hv] at h6
    obtain ⟨-, c, h7⟩ := InForce.version h6 (hH x hx f hf)
    exact (hdim x hx f hf _ h7).1)]
  congr 1
  refine sparseOut_local nodes feats dim val pick fun i x j f hx hf => ?_
  have hxm := List.mem_of_getElem? hx
  have hfm := List.mem_of_getElem? hf
  rcases h5 i x j f hx hf with ⟨s, hsm, h6, h7⟩ | ⟨h6, h7⟩
  · by_cases hn : nodeRecords s.1 x.1 = []
    · rw [if_pos hn] at h6; rw [h6] at h7; cases h7
    · rw [h6, if_neg hn]
  · rw [h6]
    cases hv : val f x with
    | none => rfl
    | some v =>
      have h8 := hval x hxm f hfm
      rw [hv] at h8
      obtain ⟨-, c, h9⟩ := InForce.version h8 (hH x hxm f hfm)
      obtain ⟨r, hr, -⟩ := List.mem_flatMap.1 h9
      obtain ⟨s, hsm, hrs⟩ := (hmem x.1 r).1 hr
      have h10 := h7 s hsm
      rw [if_neg (List.ne_nil_of_mem hrs), hv] at h10
      cases h10

/-- The same for edges that were given at most once. -/
theorem C67_edges_at_partial (h : Built C wm m parts g) (servers : List (List (List (List Rec)) × Graph))
    (hs : ∀ s ∈ servers, Built C wm m s.1 s.2) (hp : (servers.flatMap (·.1)).Perm parts) (edges : List (EdgeId × Int))
    (feats : List Nat) (H : Nat → List (Option Bytes) → List (Int × Sparse)) (val : Nat → EdgeId × Int → Option Sparse)
    (dim size : Nat → Nat)
    (hH : ∀ x ∈ edges, ∀ f ∈ feats, ∀ r ∈ edgesBetween parts x.1.src x.1.dst x.1.typ,
      HasSparseHist r.features f (H f r.features))
    (hval : ∀ x ∈ edges, ∀ f ∈ feats, InForce (versions H f (edgesBetween parts x.1.src x.1.dst x.1.typ)) x.2 (val f x))
    (htimes : ∀ x ∈ edges, ∀ f ∈ feats, ∀ y ∈ versions H f (edgesBetween parts x.1.src x.1.dst x.1.typ),
      ∀ z ∈ versions H f (edgesBetween parts x.1.src x.1.dst x.1.typ), y.1 = z.1 → y = z)
    (hone : ∀ x ∈ edges, (edgesBetween parts x.1.src x.1.dst x.1.typ).length ≤ 1)
    (hdim : ∀ x ∈ edges, ∀ f ∈ feats, ∀ y ∈ versions H f (edgesBetween parts x.1.src x.1.dst x.1.typ),
      y.2.dim = dim f ∧ ∀ b ∈ y.2.values, b.length = size f) :
    ∃ replies, servers.mapM (fun s => s.2.getEdgeSparseAt feats edges) = some replies ∧
      ∃ seqs, sparseSeqs feats.length replies = some seqs ∧ ∀ steps, Interleaved seqs steps →
        remoteSparse edges.length feats.length replies steps = g.edgeSparseAt feats edges := by
  have hspread : ∀ x ∈ edges, _ := fun x hx =>
    spread_one (own := fun s : List (List (List Rec)) × Graph => edgesBetween s.1 x.1.src x.1.dst x.1.typ)
      (edgesBetween_servers servers hp x.1.src x.1.dst x.1.typ) (hone x hx)
  have hver : ∀ x ∈ edges, ∀ f ∈ feats, ∀ v, val f x = some v → v.Ok ∧ v.dim = dim f ∧ ∀ b ∈ v.values, b.length = size f := by
    intro x hx f hf v hv
    have h6 := hval x hx f hf
    rw [hv] at h6
    obtain ⟨h7, c, h8⟩ := InForce.version h6 (hH x hx f hf)
    exact ⟨h7, hdim x hx f hf _ h8⟩
  let valS : List (List (List Rec)) × Graph → Nat → EdgeId × Int → Option Sparse := fun s f x =>
    if edgesBetween s.1 x.1.src x.1.dst x.1.typ = [] then none else val f x
  obtain ⟨replies, h1, seqs, h2, h3⟩ := sparse_servers_at servers
    (fun s x i ss => (s.2.edgeSparseAtPart feats x i (ss.map (·.1))).map (List.map fun s => (s, 0))) valS edges feats dim size (by
      intro s hsm x hx i ss hss hfl
      obtain ⟨items, hg, hc⟩ := (hs s hsm).graphOk
      obtain ⟨es, ss', h3, h4, h5, h6⟩ := hg.edgeSparseAt_single (fun it hit => (hc it hit).2) feats H (valS s) x
        (by
          intro f hf r hr
          rcases (hspread x hx).1 s hsm with h8 | h8
          · rw [h8] at hr; cases hr
          · rw [h8] at hr; exact hH x hx f hf r hr)
        (by
          rcases (hspread x hx).1 s hsm with h8 | h8
          · rw [h8]; simp
          · rw [h8]; exact hone x hx)
        (by
          intro f hf
          rcases (hspread x hx).1 s hsm with h8 | h8
          · rw [h8]; intro y hy; cases hy
          · rw [h8]; exact htimes x hx f hf)
        (by
          intro f hf
          simp only [valS]
          by_cases hn : edgesBetween s.1 x.1.src x.1.dst x.1.typ = []
          · rw [if_pos hn, hn]; intro y hy; cases hy
          · rw [if_neg hn]
            rcases (hspread x hx).1 s hsm with h8 | h8
            · exact absurd h8 hn
            · rw [h8]; exact hval x hx f hf)
        i (ss.map (·.1)) (by simpa using hss) (by
          intro t ht
          obtain ⟨t', ht', rfl⟩ := List.mem_map.1 ht
          exact hfl t' ht')
      refine ⟨ss'.map fun s => (s, 0), by simp only [Graph.edgeSparseAtPart, h3, Option.bind_some, h4, Option.map_some],
        by simpa using h5, fun y hy => ?_⟩
      rw [List.zip_map_right] at hy
      obtain ⟨z, hz, rfl⟩ := List.mem_map.1 hy
      exact h6 ((z.1.1, z.1.2.1), z.2) (by
        rw [List.zip_map_right, List.zip_map_left]
        exact List.mem_map.2 ⟨z, hz, rfl⟩)) (by
      intro s hsm x hx f hf v hv
      simp only [valS] at hv
      split at hv
      · cases hv
      · exact hver x hx f hf v hv)
  have heq : ∀ s : List (List (List Rec)) × Graph, s.2.getEdgeSparseAt feats edges =
      (serveSparsesAt (fun x i ss => (s.2.edgeSparseAtPart feats x i (ss.map (·.1))).map (List.map fun s => (s, 0))) edges 0
        (List.replicate feats.length ({}, 0))).map fun x => sparseReply (x.1.map (·.1), x.2) := by
    intro s
    have h4 := serveSparses_pairs (s.2.edgeSparseAtPart feats) edges 0 (List.replicate feats.length {})
    rw [List.map_replicate] at h4
    rw [h4, Graph.getEdgeSparseAt]
    cases serveSparses (s.2.edgeSparseAtPart feats) edges 0 (List.replicate feats.length {}) with
    | none => rfl
    | some r =>
      simp only [Option.map_some, List.map_map]
      have h5 : (List.map ((fun x : SparseState × Nat => x.1) ∘ fun s => (s, 0)) r.1) = r.1 := List.map_id _
      rw [h5]
  refine ⟨replies, ?_, seqs, h2, fun steps hst => ?_⟩
  · rw [← h1]
    congr 1
    funext s
    exact heq s
  obtain ⟨pick, h4, h5⟩ := h3 steps hst
  rw [h4, C113_edges_partial h edges feats H val hH hval htimes hone dim fun x hx f hf v hv => (hver x hx f hf v hv).2.1]
  congr 1
  refine sparseOut_local edges feats dim val pick fun i x j f hx hf => ?_
  have hxm := List.mem_of_getElem? hx
  have hfm := List.mem_of_getElem? hf
  rcases h5 i x j f hx hf with ⟨s, hsm, h6, h7⟩ | ⟨h6, h7⟩
  · simp only [valS] at h6
    by_cases hn : edgesBetween s.1 x.1.src x.1.dst x.1.typ = []
    · rw [if_pos hn] at h6; rw [h6] at h7; cases h7
    · rw [h6, if_neg hn]
  · rw [h6]
    cases hv : val f x with
    | none => rfl
    | some v =>
      exfalso
      have h8 := hval x hxm f hfm
      rw [hv] at h8
      obtain ⟨-, c, h9⟩ := InForce.version h8 (hH x hxm f hfm)
      obtain ⟨r, hr, -⟩ := List.mem_flatMap.1 h9
      have h10 := (hspread x hxm).2 (by
        intro s hsm
        have h11 := h7 s hsm
        simp only [valS] at h11
        by_cases hn : edgesBetween s.1 x.1.src x.1.dst x.1.typ = []
        · exact hn
        · rw [if_neg hn, hv] at h11; cases h11)
      rw [h10] at hr
      cases hr

/-- Two servers: node 2 on both, with the same versions, node 3 on the second. -/
def C67_at_a : List (List (List Rec)) := [[[⟨2, -1, 0, 1, none, none, [some (C113_bytes C113_hist)]⟩]]]
def C67_at_b : List (List (List Rec)) :=
  [[[⟨3, -1, 0, 1, none, none, [some (C113_bytes C113_new)]⟩, ⟨2, -1, 0, 1, none, none, [some (C113_bytes C113_hist)]⟩]]]
/-- The versions in force. -/
def C67_at_val (_ : Nat) (x : Int × Int) : Option Sparse :=
  if x = (3, 9) then some C12_b else if x = (2, 4) then some C113_old else if x = (2, 6) then some C12_a else none

/-- Non-vacuity: the hypotheses of `C67_nodes_at_partial` hold for two servers and four pairs of nodes and times, and
the answer of the whole graph has values. -/
example : ∃ g g1 g2, Built intCodec (some 9) ⟨1, 0, 9⟩ (C67_at_a ++ C67_at_b) g ∧
    Built intCodec (some 9) ⟨1, 0, 9⟩ C67_at_a g1 ∧ Built intCodec (some 9) ⟨1, 0, 9⟩ C67_at_b g2 ∧
    (∀ x ∈ [((3 : Int), (9 : Int)), (2, 4), (3, 7), (2, 6)], ∀ f ∈ [0], ∀ r ∈ nodeRecords (C67_at_a ++ C67_at_b) x.1,
      HasSparseHist r.features f (C113_H f r.features)) ∧
    (∀ x ∈ [((3 : Int), (9 : Int)), (2, 4), (3, 7), (2, 6)], ∀ f ∈ [0],
      InForce (versions C113_H f (nodeRecords (C67_at_a ++ C67_at_b) x.1)) x.2 (C67_at_val f x)) ∧
    (∀ x ∈ [((3 : Int), (9 : Int)), (2, 4), (3, 7), (2, 6)], ∀ f ∈ [0],
      ∀ y ∈ versions C113_H f (nodeRecords (C67_at_a ++ C67_at_b) x.1), y.2.dim = 2 ∧ ∀ b ∈ y.2.values, b.length = 1) ∧
    (∀ x ∈ [((3 : Int), (9 : Int)), (2, 4), (3, 7), (2, 6)], ∀ f ∈ [0],
      ∀ y ∈ versions C113_H f (nodeRecords (C67_at_a ++ C67_at_b) x.1),
      ∀ z ∈ versions C113_H f (nodeRecords (C67_at_a ++ C67_at_b) x.1), y.1 = z.1 → y = z) ∧
    (∀ x ∈ [((3 : Int), (9 : Int)), (2, 4), (3, 7), (2, 6)], ∀ f ∈ [0],
      ∀ r ∈ nodeRecords (C67_at_a ++ C67_at_b) x.1, ∀ r' ∈ nodeRecords (C67_at_a ++ C67_at_b) x.1,
      C113_H f r.features = C113_H f r'.features) ∧
    ([g1, g2].mapM fun g => g.getNodeSparseAt [0] [(3, 9), (2, 4), (3, 7), (2, 6)]) =
      some [⟨[2], [1, 1, 2, 3, 3, 4, 3, 5, 6], [9], [4, 1, 2], [3], [-1, 3, -1, 5]⟩,
        ⟨[2], [0, 7, 8, 1, 1, 2, 3, 3, 4, 3, 5, 6], [12], [9, 4, 1, 2], [4], [8, 3, -1, 5]⟩] ∧
    g.nodeSparseAt [0] [(3, 9), (2, 4), (3, 7), (2, 6)] =
      some [(2, [0, 7, 8, 1, 1, 2, 3, 3, 4, 3, 5, 6], [9, 4, 1, 2])] := by
  obtain ⟨g, hg, hb⟩ := built_of_check (wm := some 9) (m := ⟨1, 0, 9⟩) (parts := C67_at_a ++ C67_at_b) (by decide +kernel)
  obtain ⟨g1, hg1, hb1⟩ := built_of_check (wm := some 9) (m := ⟨1, 0, 9⟩) (parts := C67_at_a) (by decide +kernel)
  obtain ⟨g2, hg2, hb2⟩ := built_of_check (wm := some 9) (m := ⟨1, 0, 9⟩) (parts := C67_at_b) (by decide +kernel)
  have h2 : nodeRecords (C67_at_a ++ C67_at_b) 2 = [⟨2, -1, 0, 1, none, none, [some (C113_bytes C113_hist)]⟩,
      ⟨2, -1, 0, 1, none, none, [some (C113_bytes C113_hist)]⟩] := by decide +kernel
  have h3 : nodeRecords (C67_at_a ++ C67_at_b) 3 = [⟨3, -1, 0, 1, none, none, [some (C113_bytes C113_new)]⟩] := by
    decide +kernel
  have d2 : C113_H 0 [some (C113_bytes C113_new)] = C113_new := by decide +kernel
  have d3 : C113_H 0 [some (C113_bytes C113_hist)] = C113_hist := by decide +kernel
  have v2 : versions C113_H 0 (nodeRecords (C67_at_a ++ C67_at_b) 2) =
      [(5, C12_a), (3, C113_old), (5, C12_a), (3, C113_old)] := by decide +kernel
  have v3 : versions C113_H 0 (nodeRecords (C67_at_a ++ C67_at_b) 3) = [(8, C12_b)] := by decide +kernel
  have t1 : (graphOf intCodec (some 9) ⟨1, 0, 9⟩ C67_at_a).bind (fun g1 =>
      (graphOf intCodec (some 9) ⟨1, 0, 9⟩ C67_at_b).bind fun g2 =>
      [g1, g2].mapM fun g => g.getNodeSparseAt [0] [(3, 9), (2, 4), (3, 7), (2, 6)]) =
      some [⟨[2], [1, 1, 2, 3, 3, 4, 3, 5, 6], [9], [4, 1, 2], [3], [-1, 3, -1, 5]⟩,
        ⟨[2], [0, 7, 8, 1, 1, 2, 3, 3, 4, 3, 5, 6], [12], [9, 4, 1, 2], [4], [8, 3, -1, 5]⟩] := by decide +kernel
  rw [hg1, Option.bind_some, hg2, Option.bind_some] at t1
  have t2 : (graphOf intCodec (some 9) ⟨1, 0, 9⟩ (C67_at_a ++ C67_at_b)).bind
      (fun g => g.nodeSparseAt [0] [(3, 9), (2, 4), (3, 7), (2, 6)]) =
      some [(2, [0, 7, 8, 1, 1, 2, 3, 3, 4, 3, 5, 6], [9, 4, 1, 2])] := by decide +kernel
  rw [hg, Option.bind_some] at t2
  refine ⟨g, g1, g2, hb, hb1, hb2, ?_, ?_, by decide +kernel, by decide +kernel, by decide +kernel, t1, t2⟩
  · intro x hx f hf r hr
    rw [List.mem_singleton] at hf
    subst hf
    have hx' : x.1 = 2 ∨ x.1 = 3 := by
      simp only [List.mem_cons, List.not_mem_nil, or_false] at hx
      rcases hx with rfl | rfl | rfl | rfl <;> simp
    rcases hx' with hx' | hx' <;> rw [hx'] at hr
    · rw [h2] at hr
      simp only [List.mem_cons, List.not_mem_nil, or_false, or_self] at hr
      subst hr
      rw [d3]; exact C113_has_hist
    · rw [h3, List.mem_singleton] at hr
      subst hr
      rw [d2]; exact C113_has_new
  · intro x hx f hf
    rw [List.mem_singleton] at hf
    subst hf
    simp only [List.mem_cons, List.not_mem_nil, or_false] at hx
    rcases hx with rfl | rfl | rfl | rfl
    · rw [v3]; exact ⟨8, by decide, by decide, by decide⟩
    · rw [v2]; exact ⟨3, by decide, by decide, by decide⟩
    · rw [v3]; show ∀ y ∈ [((8 : Int), C12_b)], (7 : Int) < y.1; decide
    · rw [v2]; exact ⟨5, by decide, by decide, by decide⟩

/-- A second server for edges. -/
def C67_at_edge : List (List (List Rec)) :=
  [[[⟨2, -1, 0, 1, none, none, []⟩, ⟨2, 4, 0, 1, none, none, [some (C113_bytes C113_new)]⟩]]]

/-- Non-vacuity for edges: each edge on one server, and the answers of both servers. -/
example : ∃ g1 g2, Built intCodec (some 9) ⟨0, 1, 9⟩ C113_edge g1 ∧ Built intCodec (some 9) ⟨0, 1, 9⟩ C67_at_edge g2 ∧
    (∀ x ∈ [((⟨2, 4, 0⟩ : EdgeId), (9 : Int)), (⟨2, 3, 0⟩, 4), (⟨2, 3, 0⟩, 6)],
      (edgesBetween (C113_edge ++ C67_at_edge) x.1.src x.1.dst x.1.typ).length = 1) ∧
    ([g1, g2].mapM fun g => g.getEdgeSparseAt [0] [(⟨2, 4, 0⟩, 9), (⟨2, 3, 0⟩, 4), (⟨2, 3, 0⟩, 6)]) =
      some [⟨[2], [1, 1, 2, 2, 3, 4, 2, 5, 6], [9], [4, 1, 2], [3], [-1, 3, 5]⟩,
        ⟨[2], [0, 7, 8], [3], [9], [1], [8, -1, -1]⟩] := by
  obtain ⟨g1, hg1, hb1⟩ := built_of_check (wm := some 9) (m := ⟨0, 1, 9⟩) (parts := C113_edge) (by decide +kernel)
  obtain ⟨g2, hg2, hb2⟩ := built_of_check (wm := some 9) (m := ⟨0, 1, 9⟩) (parts := C67_at_edge) (by decide +kernel)
  have t1 : (graphOf intCodec (some 9) ⟨0, 1, 9⟩ C113_edge).bind (fun g1 =>
      (graphOf intCodec (some 9) ⟨0, 1, 9⟩ C67_at_edge).bind fun g2 =>
      [g1, g2].mapM fun g => g.getEdgeSparseAt [0] [(⟨2, 4, 0⟩, 9), (⟨2, 3, 0⟩, 4), (⟨2, 3, 0⟩, 6)]) =
      some [⟨[2], [1, 1, 2, 2, 3, 4, 2, 5, 6], [9], [4, 1, 2], [3], [-1, 3, 5]⟩,
        ⟨[2], [0, 7, 8], [3], [9], [1], [8, -1, -1]⟩] := by decide +kernel
  rw [hg1, Option.bind_some, hg2, Option.bind_some] at t1
  exact ⟨g1, g2, hb1, hb2, by decide +kernel, t1⟩

/-- Node 1 with a version of time 3 on one server and one of time 8 on the other. -/
def C67_stale_a : List (List (List Rec)) := [[[⟨1, -1, 0, 1, none, none, [some (C113_bytes [(3, C113_old)])]⟩]]]
def C67_stale_b : List (List (List Rec)) := [[[⟨1, -1, 0, 1, none, none, [some (C113_bytes C113_new)]⟩]]]

/-- The claim is false for a node whose versions are spread over two servers: at time 9 the version of time 8 is in
force and the whole graph gives it, but the client returns the version of time 3 if its server answers first. -/
theorem C67_stale_refuted : ∃ g g1 g2 r1 r2 w1 w2, Built intCodec (some 9) ⟨1, 0, 9⟩ (C67_stale_a ++ C67_stale_b) g ∧
    Built intCodec (some 9) ⟨1, 0, 9⟩ C67_stale_a g1 ∧ Built intCodec (some 9) ⟨1, 0, 9⟩ C67_stale_b g2 ∧
    InForce (versions C113_H 0 (nodeRecords (C67_stale_a ++ C67_stale_b) 1)) 9 (some ⟨2, [[7, 8]], [[9]]⟩) ∧
    [g1, g2].mapM (fun g => g.getNodeSparseAt [0] [(1, 9)]) = some [r1, r2] ∧ sparseSeqs 1 [r1, r2] = some [w1, w2] ∧
    Interleaved [w1, w2] (w1 ++ w2) ∧ Interleaved [w1, w2] (w2 ++ w1) ∧
    g.nodeSparseAt [0] [(1, 9)] = some [(2, [0, 7, 8], [9])] ∧
    remoteSparse 1 1 [r1, r2] (w2 ++ w1) = some [(2, [0, 7, 8], [9])] ∧
    remoteSparse 1 1 [r1, r2] (w1 ++ w2) = some [(2, [0, 1, 2], [4])] := by
  obtain ⟨g, hg, hb⟩ := built_of_check (wm := some 9) (m := ⟨1, 0, 9⟩) (parts := C67_stale_a ++ C67_stale_b) (by decide +kernel)
  obtain ⟨g1, hg1, hb1⟩ := built_of_check (wm := some 9) (m := ⟨1, 0, 9⟩) (parts := C67_stale_a) (by decide +kernel)
  obtain ⟨g2, hg2, hb2⟩ := built_of_check (wm := some 9) (m := ⟨1, 0, 9⟩) (parts := C67_stale_b) (by decide +kernel)
  have v1 : versions C113_H 0 (nodeRecords (C67_stale_a ++ C67_stale_b) 1) = [(3, C113_old), (8, C12_b)] := by decide +kernel
  have t1 : (graphOf intCodec (some 9) ⟨1, 0, 9⟩ C67_stale_a).bind (fun g1 =>
      (graphOf intCodec (some 9) ⟨1, 0, 9⟩ C67_stale_b).bind fun g2 =>
      [g1, g2].mapM fun g => g.getNodeSparseAt [0] [(1, 9)]) =
      some [⟨[2], [0, 1, 2], [3], [4], [1], [3]⟩, ⟨[2], [0, 7, 8], [3], [9], [1], [8]⟩] := by decide +kernel
  rw [hg1, Option.bind_some, hg2, Option.bind_some] at t1
  have t2 : (graphOf intCodec (some 9) ⟨1, 0, 9⟩ (C67_stale_a ++ C67_stale_b)).bind
      (fun g => g.nodeSparseAt [0] [(1, 9)]) = some [(2, [0, 7, 8], [9])] := by decide +kernel
  rw [hg, Option.bind_some] at t2
  refine ⟨g, g1, g2, ⟨[2], [0, 1, 2], [3], [4], [1], [3]⟩, ⟨[2], [0, 7, 8], [3], [9], [1], [8]⟩,
    [⟨0, 0, 2, 1, [⟨0, 0, 0, 3⟩]⟩], [⟨1, 0, 2, 1, [⟨0, 0, 0, 8⟩]⟩], hb, hb1, hb2, ?_, t1, by decide +kernel,
    ⟨[(0, ⟨0, 0, 2, 1, [⟨0, 0, 0, 3⟩]⟩), (1, ⟨1, 0, 2, 1, [⟨0, 0, 0, 8⟩]⟩)], rfl, fun i => ?_⟩,
    ⟨[(1, ⟨1, 0, 2, 1, [⟨0, 0, 0, 8⟩]⟩), (0, ⟨0, 0, 2, 1, [⟨0, 0, 0, 3⟩]⟩)], rfl, fun i => ?_⟩,
    t2, by decide +kernel, by decide +kernel⟩
  · rw [v1]; exact ⟨8, by decide, by decide, by decide⟩
  · match i with
    | 0 => rfl
    | 1 => rfl
    | i + 2 => rfl
  · match i with
    | 0 => rfl
    | 1 => rfl
    | i + 2 => rfl

end DeepGNN
