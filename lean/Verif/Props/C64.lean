import Verif.Proofs.RemoteLookups

/-
C64 Node types from several servers.
-/

namespace DeepGNN

open Spec

variable {C : WeightCodec} {wm : Option Nat} {m : Meta} {parts : List (List (List Rec))} {g : Graph}

/-- For all servers, requests and contents of the output before the call, and for every interleaving of the writes of
the callbacks: all servers answer, and the client returns for every node the type in a node record that one of the
servers holds for this node, and the default exactly if no server holds a node record of it. -/
theorem C64_node_types (servers : List (List (List (List Rec)) × Graph)) (hs : ∀ s ∈ servers, Built C wm m s.1 s.2)
    (nodes : List Int) (default : Int) (buffer : List Int) (hb : buffer.length = nodes.length) :
    ∃ replies, servers.mapM (fun s => s.2.getNodeTypes nodes) = some replies ∧
      ∀ steps, Interleaved (replies.map typeSteps) steps →
        (remoteNodeTypes default buffer steps).length = nodes.length ∧
        ∀ (k : Nat) n, nodes[k]? = some n →
          (∃ s ∈ servers, ∃ t, (n, t) ∈ nodeTypes s.1 ∧ (remoteNodeTypes default buffer steps)[k]? = some t) ∨
          ((∀ s ∈ servers, ∀ t, (n, t) ∉ nodeTypes s.1) ∧
            (remoteNodeTypes default buffer steps)[k]? = some default) := by
  have key : ∀ servers : List (List (List (List Rec)) × Graph), (∀ s ∈ servers, Built C wm m s.1 s.2) →
      ∃ replies, servers.mapM (fun s => s.2.getNodeTypes nodes) = some replies ∧
      (∀ p v, (∃ l ∈ replies.map typeSteps, Step.put p v ∈ l) ↔ ∃ s ∈ servers, ∃ n, nodes[p]? = some n ∧
        (nodeTypes s.1).find? (fun x => x.1 = n) = some (n, v)) ∧
      (∀ p, (∃ l ∈ replies.map typeSteps, Step.mark p ∈ l) ↔ ∃ s ∈ servers, ∃ n v, nodes[p]? = some n ∧
        (nodeTypes s.1).find? (fun x => x.1 = n) = some (n, v)) := by
    intro servers
    induction servers with
    | nil => intro _; exact ⟨[], rfl, by simp, by simp⟩
    | cons s ss ih =>
      intro hs
      obtain ⟨replies, h1, h2, h3⟩ := ih fun s hs' => hs s (List.mem_cons_of_mem _ hs')
      obtain ⟨items, hg, -⟩ := (hs s (List.mem_cons_self ..)).graphOk
      obtain ⟨r, h4, h5, h6⟩ := hg.serveTypes nodes 0
      refine ⟨r :: replies, ?_, ?_, ?_⟩
      · rw [List.mapM_cons, Graph.getNodeTypes, h4, h1]
        rfl
      · intro p v
        simp only [List.map_cons, List.mem_cons, exists_eq_or_imp, h2, h5, Nat.zero_add]
        simp
      · intro p
        simp only [List.map_cons, List.mem_cons, exists_eq_or_imp, h3, h6, Nat.zero_add]
        simp
  obtain ⟨replies, h1, h2, h3⟩ := key servers hs
  refine ⟨replies, h1, fun steps hst => ?_⟩
  have hlen := runSteps_length steps (buffer, List.replicate buffer.length false)
  simp only [List.length_replicate] at hlen
  refine ⟨by simp only [remoteNodeTypes, List.length_map, List.length_zip, hlen]; omega, fun k n hk => ?_⟩
  have hkl : k < nodes.length := (List.getElem?_eq_some_iff.1 hk).1
  obtain ⟨b, hb1, hb2⟩ := runSteps_flag steps buffer buffer.length k (by omega)
  have hout := runSteps_out steps (buffer, List.replicate buffer.length false) k (by simp only []; omega)
  rw [interleaved_mem hst, h3] at hb2
  have hres : ∀ v, (runSteps (buffer, List.replicate buffer.length false) steps).1[k]? = some v →
      (remoteNodeTypes default buffer steps)[k]? = some (if b then v else default) := by
    intro v hv
    simp only [remoteNodeTypes, List.getElem?_map]
    rw [List.getElem?_zip_eq_some (z := (v, b)) |>.2 ⟨hv, hb1⟩]
    rfl
  rcases hout with ⟨v, hv, ho⟩ | ⟨hno, ho⟩
  · left
    rw [interleaved_mem hst, h2] at hv
    obtain ⟨s, hsm, n', hn', hf⟩ := hv
    rw [hk, Option.some.injEq] at hn'
    subst hn'
    have hbt : b = true := hb2.2 ⟨s, hsm, n, v, hk, hf⟩
    refine ⟨s, hsm, v, List.mem_of_find?_eq_some hf, ?_⟩
    rw [hres v ho, if_pos hbt]
  · right
    have hnone : ∀ s ∈ servers, ∀ t, (n, t) ∉ nodeTypes s.1 := by
      intro s hsm t ht
      cases hf : (nodeTypes s.1).find? (fun x => x.1 = n) with
      | none => exact absurd (List.find?_eq_none.1 hf _ ht) (by simp)
      | some x =>
        have hx : x = (n, x.2) := by
          have := List.find?_some hf
          simp only [decide_eq_true_eq] at this
          rw [← this]
        rw [hx] at hf
        exact hno x.2 ((interleaved_mem hst _).2 ((h2 k x.2).2 ⟨s, hsm, n, hk, hf⟩))
    refine ⟨hnone, ?_⟩
    have hbf : b = false := by
      cases b with
      | false => rfl
      | true =>
        obtain ⟨s, hsm, n', v, hn', hf⟩ := hb2.1 rfl
        rw [hk, Option.some.injEq] at hn'
        subst hn'
        exact absurd (List.mem_of_find?_eq_some hf) (hnone s hsm v)
    rw [hbf] at hres
    obtain ⟨v, hv⟩ : ∃ v, (runSteps (buffer, List.replicate buffer.length false) steps).1[k]? = some v :=
      ⟨_, List.getElem?_eq_getElem (by omega)⟩
    rw [hres v hv]
    rfl

/-- Servers that hold the partitions of a graph: if the node records of the requested nodes agree about their types,
the types do not depend on the distribution or on the order in which the replies arrive: a node with a record gets its
type, and a node without one the default.  Missing: without the hypothesis it is false (`C64_order_refuted`). -/
theorem C64_distributed_partial (servers : List (List (List (List Rec)) × Graph))
    (hs : ∀ s ∈ servers, Built C wm m s.1 s.2) (hp : (servers.flatMap (·.1)).Perm parts) (nodes : List Int) (type : Int → Int)
    (default : Int) (htype : ∀ n ∈ nodes, (∀ t, (n, t) ∈ nodeTypes parts → type n = t) ∧
      ((∀ t, (n, t) ∉ nodeTypes parts) → type n = default))
    (buffer : List Int) (hb : buffer.length = nodes.length) :
    ∃ replies, servers.mapM (fun s => s.2.getNodeTypes nodes) = some replies ∧
      ∀ steps, Interleaved (replies.map typeSteps) steps → remoteNodeTypes default buffer steps = nodes.map type := by
  obtain ⟨replies, h1, h2⟩ := C64_node_types servers hs nodes default buffer hb
  refine ⟨replies, h1, fun steps hst => ?_⟩
  obtain ⟨hlen, h3⟩ := h2 steps hst
  have hmem : ∀ x, x ∈ nodeTypes parts ↔ ∃ s ∈ servers, x ∈ nodeTypes s.1 := by
    intro x
    simp only [nodeTypes, List.mem_map, List.mem_filter, allRecords]
    constructor
    · rintro ⟨r, ⟨hr, hd⟩, rfl⟩
      rw [← (hp.flatten.flatten).mem_iff, List.mem_flatten] at hr
      obtain ⟨l, hl, hr⟩ := hr
      obtain ⟨a, ha, hl⟩ := List.mem_flatten.1 hl
      obtain ⟨s, hsm, ha⟩ := List.mem_flatMap.1 ha
      exact ⟨s, hsm, r, ⟨List.mem_flatten.2 ⟨l, List.mem_flatten.2 ⟨a, ha, hl⟩, hr⟩, hd⟩, rfl⟩
    · rintro ⟨s, hsm, r, ⟨hr, hd⟩, rfl⟩
      refine ⟨r, ⟨?_, hd⟩, rfl⟩
      rw [← (hp.flatten.flatten).mem_iff]
      obtain ⟨l, hl, hr⟩ := List.mem_flatten.1 hr
      obtain ⟨a, ha, hl⟩ := List.mem_flatten.1 hl
      exact List.mem_flatten.2 ⟨l, List.mem_flatten.2 ⟨a, List.mem_flatMap.2 ⟨s, hsm, ha⟩, hl⟩, hr⟩
  apply List.ext_getElem?
  intro k
  by_cases hk : k < nodes.length
  · have hkn : nodes[k]? = some nodes[k] := List.getElem?_eq_getElem hk
    rw [List.getElem?_map, hkn, Option.map_some]
    have ht := htype nodes[k] (List.getElem_mem hk)
    rcases h3 k _ hkn with ⟨s, hsm, t, h4, h5⟩ | ⟨h4, h5⟩
    · rw [h5, ht.1 t ((hmem _).2 ⟨s, hsm, h4⟩)]
    · rw [h5, ht.2 fun t h => by
        obtain ⟨s, hsm, h6⟩ := (hmem _).1 h
        exact h4 s hsm t h6]
  · rw [List.getElem?_eq_none_iff.2 (by omega), List.getElem?_eq_none_iff.2 (by simp; omega)]

/-- Two partitions on servers of their own; node 2 has a record on the second and an edge on the first, node 5 has only
an edge. -/
def C64_a : List (List Rec) :=
  [[⟨1, -1, 3, 1, none, none, []⟩, ⟨1, 2, 0, 1, none, none, []⟩], [⟨2, 1, 0, 1, none, none, []⟩, ⟨5, 1, 0, 1, none, none, []⟩]]
def C64_b : List (List Rec) := [[⟨2, -1, 4, 1, none, none, []⟩, ⟨1, 3, 1, 1, none, none, []⟩]]

/-- Non-vacuity of both theorems: interleaved callbacks; node 5 gets the default 7. -/
example : ∃ g1 g2, Built intCodec none ⟨0, 0, -1⟩ [C64_a] g1 ∧ Built intCodec none ⟨0, 0, -1⟩ [C64_b] g2 ∧
    (∀ n ∈ [(2 : Int), 5, 1, 9], (∀ t, (n, t) ∈ nodeTypes [C64_a, C64_b] → (if n = 1 then 3 else if n = 2 then 4 else 7 : Int) = t) ∧
      ((∀ t, (n, t) ∉ nodeTypes [C64_a, C64_b]) → (if n = 1 then 3 else if n = 2 then 4 else 7 : Int) = 7)) ∧
    [([C64_a], g1), ([C64_b], g2)].mapM (fun s => s.2.getNodeTypes [2, 5, 1, 9]) = some [⟨[2], [3]⟩, ⟨[0], [4]⟩] ∧
    Interleaved [[Step.put 2 3, .mark 2], [.put 0 4, .mark 0]] [.put 0 (4 : Int), .put 2 3, .mark 0, .mark 2] ∧
    remoteNodeTypes 7 [8, 8, 8, 8] [.put 0 4, .put 2 3, .mark 0, .mark 2] = [4, 7, 3, 7] := by
  obtain ⟨g1, hg1, hb1⟩ := built_of_check (wm := none) (m := ⟨0, 0, -1⟩) (parts := [C64_a]) (by decide +kernel)
  obtain ⟨g2, hg2, hb2⟩ := built_of_check (wm := none) (m := ⟨0, 0, -1⟩) (parts := [C64_b]) (by decide +kernel)
  refine ⟨g1, g2, hb1, hb2, ?_, ?_, ?_, by decide +kernel⟩
  · have h1 : ∀ x ∈ nodeTypes [C64_a, C64_b], (if x.1 = 1 then 3 else if x.1 = 2 then 4 else 7 : Int) = x.2 := by
      decide +kernel
    have h2 : ∀ n ∈ [(2 : Int), 5, 1, 9], (∃ x ∈ nodeTypes [C64_a, C64_b], x.1 = n) ∨
        (if n = 1 then 3 else if n = 2 then 4 else 7 : Int) = 7 := by decide +kernel
    intro n hn
    refine ⟨fun t ht => h1 _ ht, fun hno => ?_⟩
    rcases h2 n hn with ⟨x, hx, rfl⟩ | h
    · exact absurd hx (hno x.2)
    · exact h
  · have e1 : (graphOf intCodec none ⟨0, 0, -1⟩ [C64_a]).bind (fun g => g.getNodeTypes [2, 5, 1, 9]) = some ⟨[2], [3]⟩ := by
      decide +kernel
    have e2 : (graphOf intCodec none ⟨0, 0, -1⟩ [C64_b]).bind (fun g => g.getNodeTypes [2, 5, 1, 9]) = some ⟨[0], [4]⟩ := by
      decide +kernel
    rw [hg1, Option.bind_some] at e1
    rw [hg2, Option.bind_some] at e2
    rw [List.mapM_cons, List.mapM_cons, e1, e2]
    rfl
  · refine ⟨[(1, .put 0 4), (0, .put 2 3), (1, .mark 0), (0, .mark 2)], rfl, fun i => ?_⟩
    match i with
    | 0 => rfl
    | 1 => rfl
    | i + 2 => rfl

/-- The claim that the type does not depend on the order of the replies is false when two servers hold records of one
node with different types. -/
theorem C64_order_refuted : ∃ p1 p2 g1 g2 r1 r2, Built intCodec none ⟨0, 0, -1⟩ p1 g1 ∧ Built intCodec none ⟨0, 0, -1⟩ p2 g2 ∧
    g1.getNodeTypes [1] = some r1 ∧ g2.getNodeTypes [1] = some r2 ∧
    Interleaved [typeSteps r1, typeSteps r2] (typeSteps r1 ++ typeSteps r2) ∧
    Interleaved [typeSteps r1, typeSteps r2] (typeSteps r2 ++ typeSteps r1) ∧
    remoteNodeTypes 7 [0] (typeSteps r1 ++ typeSteps r2) = [4] ∧
    remoteNodeTypes 7 [0] (typeSteps r2 ++ typeSteps r1) = [3] := by
  obtain ⟨g1, hg1, hb1⟩ := built_of_check (wm := none) (m := ⟨0, 0, -1⟩)
    (parts := [[[⟨1, -1, 3, 1, none, none, []⟩]]]) (by decide +kernel)
  obtain ⟨g2, hg2, hb2⟩ := built_of_check (wm := none) (m := ⟨0, 0, -1⟩)
    (parts := [[[⟨1, -1, 4, 1, none, none, []⟩]]]) (by decide +kernel)
  refine ⟨_, _, g1, g2, ⟨[0], [3]⟩, ⟨[0], [4]⟩, hb1, hb2, ?_, ?_,
    ⟨[(0, .put 0 3), (0, .mark 0), (1, .put 0 4), (1, .mark 0)], rfl, fun i => ?_⟩,
    ⟨[(1, .put 0 4), (1, .mark 0), (0, .put 0 3), (0, .mark 0)], rfl, fun i => ?_⟩, by decide +kernel, by decide +kernel⟩
  · have : (graphOf intCodec none ⟨0, 0, -1⟩ [[[⟨1, -1, 3, 1, none, none, []⟩]]]).bind (fun g => g.getNodeTypes [1]) =
        some ⟨[0], [3]⟩ := by decide +kernel
    rwa [hg1, Option.bind_some] at this
  · have : (graphOf intCodec none ⟨0, 0, -1⟩ [[[⟨1, -1, 4, 1, none, none, []⟩]]]).bind (fun g => g.getNodeTypes [1]) =
        some ⟨[0], [4]⟩ := by decide +kernel
    rwa [hg2, Option.bind_some] at this
  · match i with
    | 0 => rfl
    | 1 => rfl
    | i + 2 => rfl
  · match i with
    | 0 => rfl
    | 1 => rfl
    | i + 2 => rfl

/-- The claim that a client of a server gets the same types as from the graph itself is false: for a node that has edges
but no node record the graph says -1, a server nothing, so that the client fills in the default. -/
theorem C64_local_refuted : ∃ p g r, Built intCodec none ⟨0, 0, -1⟩ p g ∧ g.getNodeTypes [5] = some r ∧
    Interleaved [typeSteps r] (typeSteps r) ∧ g.nodeType1 7 5 = some (-1) ∧ remoteNodeTypes 7 [0] (typeSteps r) = [7] := by
  obtain ⟨g, hg, hb⟩ := built_of_check (wm := none) (m := ⟨0, 0, -1⟩) (parts := [C64_a]) (by decide +kernel)
  refine ⟨_, g, ⟨[], []⟩, hb, ?_, ⟨[], rfl, fun i => ?_⟩, ?_, by decide +kernel⟩
  · have : (graphOf intCodec none ⟨0, 0, -1⟩ [C64_a]).bind (fun g => g.getNodeTypes [5]) = some ⟨[], []⟩ := by decide +kernel
    rwa [hg, Option.bind_some] at this
  · match i with
    | 0 => rfl
    | i + 1 => rfl
  · have : (graphOf intCodec none ⟨0, 0, -1⟩ [C64_a]).bind (fun g => g.nodeType1 7 5) = some (-1) := by decide +kernel
    rwa [hg, Option.bind_some] at this

end DeepGNN
