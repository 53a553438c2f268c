import Verif.Proofs.RemoteSampler
import Verif.Props.C22

/-
C27 Remote sampling fills the output once.
-/

namespace DeepGNN

open Spec

variable {C : WeightCodec}

/-- For all servers, sizes, draws and orders of replies: the requests divide the output into consecutive ranges, only
servers with something to sample get a share, and when the replies of the requested sizes have arrived the output consists
of them, in the order of the servers. -/
theorem C27_nodes {α} (R : Draws) (servers : List (SamplerServer α)) (he : ∀ v ∈ servers, v.empty = true → v.weight = 0)
    (hw : ∃ v ∈ servers, 0 < v.weight) (n s : Nat) :
    Divides n (nodeCalls R servers 0 n 0 s) ∧
      (∀ c ∈ nodeCalls R servers 0 n 0 s, ∃ v, servers[c.server]? = some v ∧ v.empty = false ∧ (c.count ≠ 0 → 0 < v.weight)) ∧
      ∀ (rs : List (List Int × List α)) (evs : List (Ev (List Int × List α))), RightSizes (nodeCalls R servers 0 n 0 s) rs →
        Schedule rs evs → ∀ (outTypes : List Int) (out : List α), outTypes.length = n → out.length = n →
        remoteSample (nodeCalls R servers 0 n 0 s) (outTypes, out) evs = some (rs.flatMap (·.1), rs.flatMap (·.2)) := by
  obtain ⟨v, hv, hvw⟩ := hw
  have h0 : 0 < serverWeights servers :=
    Nat.lt_of_lt_of_le hvw (le_sum_of_mem (List.mem_map_of_mem hv))
  obtain ⟨h1, h2⟩ := nodeCalls_spec R servers he 0 n 0 s (Or.inl h0)
  have h3 : Divides n (nodeCalls R servers 0 n 0 s) := ⟨h1.1, fun i c hc => by rw [h1.2 i c hc, Nat.zero_add]⟩
  refine ⟨h3, ?_, ?_⟩
  · intro c hc
    obtain ⟨v, -, h5, h6⟩ := h2 c hc
    exact ⟨v, h5, h6⟩
  · intro rs evs hsz hev outTypes out ho1 ho2
    exact remoteSample_eq _ n h3 rs hsz _ ho1 ho2 evs hev

/-- The same for edges when every server has a sampler.  Missing for the full property: servers without one, see
`C27_edges_refuted`. -/
theorem C27_edges_partial {α} (R : Draws) (servers : List (SamplerServer α)) (he : ∀ v ∈ servers, v.empty = false)
    (hw : ∃ v ∈ servers, 0 < v.weight) (n s : Nat) :
    Divides n (edgeCalls R servers 0 n 0 s) ∧
      (∀ c ∈ edgeCalls R servers 0 n 0 s, ∃ v, servers[c.server]? = some v ∧ (c.count ≠ 0 → 0 < v.weight)) ∧
      ∀ (rs : List (List Int × List α)) (evs : List (Ev (List Int × List α))), RightSizes (edgeCalls R servers 0 n 0 s) rs →
        Schedule rs evs → ∀ (outTypes : List Int) (out : List α), outTypes.length = n → out.length = n →
        remoteSample (edgeCalls R servers 0 n 0 s) (outTypes, out) evs = some (rs.flatMap (·.1), rs.flatMap (·.2)) := by
  obtain ⟨v, hv, hvw⟩ := hw
  have h0 : 0 < serverWeights servers :=
    Nat.lt_of_lt_of_le hvw (le_sum_of_mem (List.mem_map_of_mem hv))
  obtain ⟨h1, h2⟩ := edgeCalls_spec R servers he 0 n 0 s (Or.inl h0)
  have h3 : Divides n (edgeCalls R servers 0 n 0 s) := ⟨h1.1, fun i c hc => by rw [h1.2 i c hc, Nat.zero_add]⟩
  refine ⟨h3, ?_, ?_⟩
  · intro c hc
    obtain ⟨v, -, h5, -, h6⟩ := h2 c hc
    exact ⟨v, h5, h6⟩
  · intro rs evs hsz hev outTypes out ho1 ho2
    exact remoteSample_eq _ n h3 rs hsz _ ho1 ho2 evs hev

/-! Together with the samplers of the servers -/

/-- Something to sample is available if the sampler has weight. -/
theorem available_of_weight {α} [DecidableEq α] (parts : List (List Rec)) (els : List Rec → Nat → List (α × Int))
    (file : List Rec → Int → Option (Nat × List (AliasRec α))) (q typeCount : Nat) (types : List Int)
    (h : ∀ p ∈ parts, ∀ t ∈ knownTypes typeCount types, ∃ f, file p t = some f ∧ FileOf (els p t.toNat) f)
    (smp : List (Int × List (SamplerPart α)))
    (hs : createSampler typeCount (fun t => (parts.mapM fun p => file p t).map fun fs => fs.map (weightedPart q)) types = some smp)
    (hw : 0 < (smp.map fun x => weightSum x.2).sum) : C22_available els parts typeCount types ≠ [] := by
  obtain ⟨ts, h1, h2, h3⟩ := createSampler_spec typeCount types parts file (fun p t => els p t.toNat) (weightedPart q)
    (fun _ => []) h
  rw [hs, Option.some.injEq] at h1
  subst h1
  rw [sampler_total] at hw
  intro hnil
  have hz : SamplerSpec.total (ts.map fun t => (t.1, t.2.map fun p => (weightedPart q p.2, ([] : List α)))) = 0 := by
    simp only [SamplerSpec.total, List.map_map, List.sum_eq_zero_iff_forall_eq_nat, List.mem_map]
    rintro w ⟨t, ht, rfl⟩
    simp only [Function.comp_apply, weightSum, List.map_map, List.sum_eq_zero_iff_forall_eq_nat, List.mem_map]
    rintro w ⟨p, hp, rfl⟩
    have h4 := (h3 t ht).2 p hp
    have h5 : els p.1 t.1.toNat = [] := by
      apply List.eq_nil_iff_forall_not_mem.2
      intro e he
      have : (t.1, e.1) ∈ C22_available els parts typeCount types := by
        simp only [C22_available, List.mem_flatMap, List.mem_map]
        refine ⟨t.1, by rw [← h2]; exact List.mem_map_of_mem ht, p.1, ?_, e, he, rfl⟩
        rw [← (h3 t ht).1]
        exact List.mem_map_of_mem hp
      rw [hnil] at this
      simp at this
    have h6 := h4.one
    rw [h5] at h6
    simp at h6
    simp only [Function.comp_apply, weightedPart]
    omega
  omega

/-- Weighted sampling of nodes from any number of servers, each holding some partitions: every server answers, and for all
draws and orders of replies all positions of the output get a node of positive weight of its requested type from
one of the servers. -/
theorem C27_weighted_nodes (servers : List (List (List Rec) × List (Int × List (SamplerPart Int)))) (q : Nat) (hq : 0 < q)
    (typeCount : Nat) (types : List Int) (hok : ∀ x ∈ servers, C22_nodesOk C x.1)
    (hs : ∀ x ∈ servers, createSampler typeCount
      (fun t => (x.1.mapM fun p => nodeAliasOf C p t).map fun fs => fs.map (weightedPart q)) types = some x.2)
    (hw : ∃ x ∈ servers, 0 < (x.2.map fun y => weightSum y.2).sum) (Rs : Nat → Draws) (R : Draws) (n s : Nat) :
    ∃ rs, (nodeCalls R (servers.map fun x => samplerServer true 0 Rs x.2) 0 n 0 s).mapM
        (SampleCall.reply (servers.map fun x => samplerServer true 0 Rs x.2)) = some rs ∧
      ∀ (evs : List (Ev (List Int × List Int))), Schedule rs evs → ∀ (outTypes out : List Int), outTypes.length = n →
        out.length = n → ∃ tys os,
        remoteSample (nodeCalls R (servers.map fun x => samplerServer true 0 Rs x.2) 0 n 0 s) (outTypes, out) evs = some (tys, os) ∧
        tys.length = n ∧ os.length = n ∧
        ∀ y ∈ tys.zip os, y.1 ∈ types ∧ ∃ x ∈ servers, ∃ recs ∈ x.1, ∃ e ∈ C21_nodes recs y.1.toNat, e.1 = y.2 ∧ 0 < e.2 := by
  obtain ⟨h1, h2, h3⟩ := C27_nodes R (servers.map fun x => samplerServer true (0 : Int) Rs x.2)
    (by intro v hv; obtain ⟨x, -, rfl⟩ := List.mem_map.1 hv; simp [samplerServer])
    (by
      obtain ⟨x, hx, hxw⟩ := hw
      exact ⟨_, List.mem_map_of_mem hx, hxw⟩) n s
  generalize nodeCalls R (servers.map fun x => samplerServer true (0 : Int) Rs x.2) 0 n 0 s = calls at h1 h2 h3
  obtain ⟨rs, h4, h5, h6⟩ := mapM_exists (SampleCall.reply (servers.map fun x => samplerServer true (0 : Int) Rs x.2))
    (fun c r => r.1.length = c.count ∧ r.2.length = c.count ∧
      ∀ y ∈ r.1.zip r.2, y.1 ∈ types ∧ ∃ x ∈ servers, ∃ recs ∈ x.1, ∃ e ∈ C21_nodes recs y.1.toNat, e.1 = y.2 ∧ 0 < e.2)
    calls (by
      intro c hc
      obtain ⟨v, h5, -, h6⟩ := h2 c hc
      rw [List.getElem?_map] at h5
      obtain ⟨x, hx, rfl⟩ := Option.map_eq_some_iff.1 h5
      have hxm := List.mem_of_getElem? hx
      have hrep : SampleCall.reply (servers.map fun x => samplerServer true (0 : Int) Rs x.2) c =
          (samplerServer true (0 : Int) Rs x.2).sample c.count c.seed := by
        rw [SampleCall.reply, List.getElem?_map, hx]; rfl
      by_cases hc0 : c.count = 0
      · refine ⟨([], []), ?_, by simp [hc0], by simp [hc0], by simp⟩
        rw [hrep]
        simp [samplerServer, hc0]
      · obtain ⟨smp, tys, os, e1, e2, e3, e4, e5⟩ := C22_weighted_nodes x.1 (hok x hxm) q hq typeCount types
          (Rs c.seed) 0 (List.replicate c.count 0) (List.replicate c.count 0) rfl
          (available_of_weight x.1 C21_nodes (nodeAliasOf C) q typeCount types
            (nodeAliasOf_file (hok x hxm) types typeCount) x.2 (hs x hxm) (h6 hc0))
        rw [hs x hxm, Option.some.injEq] at e1
        subst e1
        refine ⟨(tys, os), ?_, by simpa using e3, by simpa using e4, ?_⟩
        · rw [hrep]
          simp only [samplerServer, if_neg hc0, e2]
        · intro y hy
          obtain ⟨e6, recs, e7, e8⟩ := e5 y hy
          exact ⟨e6, x, hxm, recs, e7, e8⟩)
  refine ⟨rs, h4, ?_⟩
  intro evs hev outTypes out ho1 ho2
  have hsz : RightSizes calls rs := ⟨h5, fun x hx => ⟨(h6 x hx).1, (h6 x hx).2.1⟩⟩
  have hall : ∀ r ∈ rs, r.1.length = r.2.length ∧ ∀ y ∈ r.1.zip r.2, y.1 ∈ types ∧ ∃ x ∈ servers, ∃ recs ∈ x.1,
      ∃ e ∈ C21_nodes recs y.1.toNat, e.1 = y.2 ∧ 0 < e.2 := by
    intro r hr
    obtain ⟨i, hi, rfl⟩ := List.getElem_of_mem hr
    have := h6 (calls[i]'(by omega), rs[i]) (by
      rw [List.mem_iff_getElem]; exact ⟨i, by simp; omega, by simp⟩)
    exact ⟨by rw [this.1, this.2.1], this.2.2⟩
  have hlen := fun (f : List Int × List Int → List Int) (hf : ∀ x ∈ calls.zip rs, (f x.2).length = x.1.count) =>
    show (rs.flatMap f).length = n by
      rw [List.length_flatMap, ← h1.sum]
      congr 1
      apply List.ext_getElem (by simp [h5])
      intro k h2 h3
      simp only [List.length_map] at h2 h3
      simpa using hf (calls[k], rs[k]) (by
        rw [List.mem_iff_getElem]; exact ⟨k, by simp; omega, by simp⟩)
  refine ⟨_, _, h3 rs evs hsz hev outTypes out ho1 ho2, hlen _ fun x hx => (h6 x hx).1, hlen _ fun x hx => (h6 x hx).2.1, ?_⟩
  clear h3 h4 h5 h6 hsz hev hlen
  induction rs with
  | nil => simp
  | cons r rs ih =>
    intro y hy
    rw [List.flatMap_cons, List.flatMap_cons, List.zip_append (hall r (by simp)).1] at hy
    rcases List.mem_append.1 hy with hy | hy
    · exact (hall r (by simp)).2 y hy
    · exact ih (fun r hr => hall r (by simp [hr])) y hy

/-! Examples -/

/-- Three servers; the second one has no sampler. -/
def C27_servers : List (SamplerServer Int) :=
  [⟨3, false, fun c s => some (List.replicate c 0, List.replicate c (100 + s))⟩, emptyServer,
   ⟨2, false, fun c s => some (List.replicate c 1, List.replicate c (200 + s))⟩]

/-- Non-vacuity: five nodes are split as 2 and 3. -/
example : nodeCalls (fun i => i + 2) C27_servers 0 5 0 0 = [⟨0, 0, 2, 3⟩, ⟨2, 2, 3, 5⟩] := by decide +kernel

/-- The second reply arrives first. -/
example : remoteSample (nodeCalls (fun i => i + 2) C27_servers 0 5 0 0) (List.replicate 5 9, List.replicate 5 (9 : Int))
      [.recv 1 ([1, 1, 1], [205, 205, 205]), .run 1, .recv 0 ([0, 0], [103, 103]), .run 0] =
    some ([0, 0, 1, 1, 1], [103, 103, 205, 205, 205]) :=
  (C27_nodes (fun i => i + 2) C27_servers (by decide) (by decide) 5 0).2.2 [([0, 0], [103, 103]), ([1, 1, 1], [205, 205, 205])]
    [.recv 1 ([1, 1, 1], [205, 205, 205]), .run 1, .recv 0 ([0, 0], [103, 103]), .run 0]
    (by unfold RightSizes; decide +kernel) (by constructor <;> decide +kernel) (List.replicate 5 9) (List.replicate 5 9) rfl rfl

/-- Edges: a server without a sampler gets a request, for no elements, and refuses it: the client fails although
other servers could answer. -/
theorem C27_edges_refuted (R : Draws) (f : Nat → Nat → Option (List Int × List (Int × Int))) (n s : Nat) :
    (edgeCalls R [emptyServer, ⟨3, false, f⟩] 0 (n + 1) 0 s).mapM
      (SampleCall.reply [emptyServer, ⟨3, false, f⟩]) = none := by
  simp [edgeCalls, emptyServer, SampleCall.reply]

/-- A sampler without replacement of one node of type 0. -/
def C27_single (node : Int) : Option (List (Int × List (SamplerPart Int))) :=
  createSampler 1 (fun t => ([[⟨node, -1, 0, 1, none, none, []⟩]].mapM fun p => nodeAliasOf intCodec p t).map fun fs =>
    fs.map (uniformPart false)) [0]

/-- Two nodes sampled without replacement from two servers with one node each, 5 and 6: when both are asked of the first
server the result has the node 5 and a node 0 that does not exist. -/
theorem C27_without_refuted : ∃ R : Draws,
    ((C27_single 5).bind fun a => (C27_single 6).bind fun b =>
      let servers := [samplerServer false 0 (fun _ => R) a, samplerServer false 0 (fun _ => R) b]
      let calls := nodeCalls R servers 0 2 0 0
      (calls.mapM (SampleCall.reply servers)).bind fun rs =>
        remoteSample calls ([7, 7], [7, 7]) (rs.zipIdx.flatMap fun x => [Ev.recv x.2 x.1, Ev.run x.2])) =
      some ([0, 0], [5, 0]) :=
  ⟨fun i => if i = 0 then 2 else 0, by decide +kernel⟩

/-- Non-vacuity of `C27_weighted_nodes`: the partitions of `C22_example` on two servers. -/
example (Rs : Nat → Draws) (R : Draws) (n : Nat) : ∃ smp1 smp2 rs,
    (nodeCalls R [samplerServer true 0 Rs smp1, samplerServer true 0 Rs smp2] 0 n 0 0).mapM
        (SampleCall.reply [samplerServer true (0 : Int) Rs smp1, samplerServer true 0 Rs smp2]) = some rs ∧
      ∀ (evs : List (Ev (List Int × List Int))), Schedule rs evs → ∃ tys os : List Int,
        remoteSample (nodeCalls R [samplerServer true (0 : Int) Rs smp1, samplerServer true 0 Rs smp2] 0 n 0 0)
          (List.replicate n 0, List.replicate n 0) evs = some (tys, os) ∧ os.length = n := by
  have ok1 : C22_nodesOk intCodec (C22_example.take 1) :=
    ⟨by decide, by simp only [intCodec]; decide, C22_nodes_pos _ (by decide)⟩
  have ok2 : C22_nodesOk intCodec (C22_example.drop 1) :=
    ⟨by decide, by simp only [intCodec]; decide, C22_nodes_pos _ (by decide)⟩
  obtain ⟨smp1, -, -, h1, -⟩ := C22_weighted_nodes (C22_example.take 1) ok1 3 (by decide) 2 [0, 1] R 0 [] [] rfl (by decide +kernel)
  obtain ⟨smp2, -, -, h2, -⟩ := C22_weighted_nodes (C22_example.drop 1) ok2 3 (by decide) 2 [0, 1] R 0 [] [] rfl (by decide +kernel)
  have hw : ((createSampler 2 (fun t => ((C22_example.take 1).mapM fun p => nodeAliasOf intCodec p t).map fun fs =>
      fs.map (weightedPart 3)) [0, 1]).map fun smp => decide (0 < (smp.map fun y => weightSum y.2).sum)) = some true := by
    decide +kernel
  rw [h1] at hw
  obtain ⟨rs, h3, h4⟩ := C27_weighted_nodes (C := intCodec) [(C22_example.take 1, smp1), (C22_example.drop 1, smp2)] 3 (by decide) 2
    [0, 1] (by
      intro x hx
      rcases List.mem_cons.1 hx with rfl | hx
      · exact ok1
      · rcases List.mem_singleton.1 hx with rfl
        exact ok2) (by
      intro x hx
      rcases List.mem_cons.1 hx with rfl | hx
      · exact h1
      · rcases List.mem_singleton.1 hx with rfl
        exact h2) ⟨_, List.mem_cons_self .., by simpa using hw⟩ Rs R n 0
  refine ⟨smp1, smp2, rs, h3, fun evs hev => ?_⟩
  obtain ⟨tys, os, h5, -, h6, -⟩ := h4 evs hev (List.replicate n 0) (List.replicate n 0) (by simp) (by simp)
  exact ⟨tys, os, h5, h6⟩

end DeepGNN
