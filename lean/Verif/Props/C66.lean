import Verif.Proofs.RemoteStrings
import Verif.Spec.RemoteStrings
import Verif.Props.C11
import Verif.Props.C65

/-
C66 String features from several servers.
-/

namespace DeepGNN

open Spec

variable {C : WeightCodec} {wm : Option Nat} {m : Meta} {parts : List (List (List Rec))} {g : Graph}

/-- Servers whose queries for `x` return the strings `val s x f` without timestamps. -/
theorem strings_servers {σ α : Type} (servers : List σ) (hne : servers ≠ [])
    (q : σ → α × Option Int → Bytes → Option StrState) (val : σ → α → Nat → Bytes) (xs : List α) (feats : List Nat)
    (hq : ∀ s ∈ servers, ∀ x ∈ xs, ∀ out, ∃ st, q s (x, none) out = some st ∧
      st.flags.map (·.2) = (feats.map (val s x)).map List.length ∧ st.out = out ++ (feats.map (val s x)).flatten ∧
      ∀ f ∈ st.flags, PlainFlag f) :
    ∃ replies, servers.mapM (fun s => serveTexts (q s) (xs.map fun x => (x, none)) []) = some replies ∧
      ∃ seqs, textSeqs replies = some seqs ∧ ∀ steps, Interleaved seqs steps → ∃ out : List Bytes,
        remoteStrings (xs.length * feats.length) replies steps = some (out.map List.length, out.flatten) ∧
        out.length = xs.length * feats.length ∧
        ∀ y ∈ (xs.flatMap fun x => feats.map fun f => (x, f)).zip out,
          (y.2 ≠ [] ∧ ∃ s ∈ servers, y.2 = val s y.1.1 y.1.2) ∨ (y.2 = [] ∧ ∀ s ∈ servers, val s y.1.1 y.1.2 = []) := by
  let row : σ → List Bytes := fun s => (xs.flatMap fun x => feats.map fun f => (x, f)).map fun y => val s y.1 y.2
  have hrow : ∀ s, (xs.map fun x => (x, (none : Option Int))).flatMap (fun x => feats.map (val s x.1)) = row s := by
    intro s
    simp only [row, List.flatMap_map, List.map_flatMap, List.map_map]
    rfl
  have hlen : (xs.flatMap fun x => feats.map fun f => (x, f)).length = xs.length * feats.length := by
    clear hrow hq
    induction xs with
    | nil => simp
    | cons x xs ih => rw [List.flatMap_cons, List.length_append, ih, List.length_map, List.length_cons, Nat.succ_mul, Nat.add_comm]
  obtain ⟨replies, h1, h2, h3⟩ := mapM_lookup (l := servers) (f := fun s => serveTexts (q s) (xs.map fun x => (x, none)) [])
    (P := fun s r => TextOk r (row s)) (by
      intro s hs
      obtain ⟨r, a, b, c, d, e⟩ := serveTexts_ok (q s) (fun x => feats.map (val s x.1)) (xs.map fun x => (x, none)) [] (by
        intro x hx out
        obtain ⟨y, hy, rfl⟩ := List.mem_map.1 hx
        exact hq s hs y hy out)
      rw [hrow] at b c d
      exact ⟨r, a, b, by simpa using c, d, e⟩)
  obtain ⟨seqs, h4, h5⟩ := remoteStrings_ok (xs.length * feats.length) replies (servers.map row)
    (by intro h; subst h; exact hne (List.eq_nil_of_length_eq_zero h2.symm)) (by simp [h2])
    (by
      intro vs hvs
      obtain ⟨s, -, rfl⟩ := List.mem_map.1 hvs
      simp [row, hlen])
    (by
      intro i r vs hr hvs
      rw [List.getElem?_map, Option.map_eq_some_iff] at hvs
      obtain ⟨s, hs, rfl⟩ := hvs
      exact h3 i s r hs hr)
  refine ⟨replies, h1, seqs, h4, fun steps hst => ?_⟩
  obtain ⟨out, h6, h7, h8⟩ := h5 steps hst
  refine ⟨out, h6, h7, fun y hy => ?_⟩
  obtain ⟨c, hc⟩ := List.mem_iff_getElem?.1 hy
  rw [List.getElem?_zip_eq_some] at hc
  have hrc : ∀ s, (row s)[c]? = some (val s y.1.1 y.1.2) := by
    intro s
    simp only [row]
    rw [List.getElem?_map, hc.1]
    rfl
  rcases h8 c y.2 hc.2 with ⟨a, vs, hvs, b⟩ | ⟨a, b⟩
  · obtain ⟨s, hs, rfl⟩ := List.mem_map.1 hvs
    rw [hrc s, Option.some.injEq] at b
    exact Or.inl ⟨a, s, hs, b.symm⟩
  · refine Or.inr ⟨a, fun s hs => ?_⟩
    have := b _ (List.mem_map.2 ⟨s, hs, rfl⟩)
    rwa [hrc s, Option.some.injEq] at this

/-- The values of all cells are known if every server returns the value `V x f` or nothing. -/
theorem strings_agree {σ α : Type} (servers : List σ) (val : σ → α → Nat → Bytes) (V : α → Nat → Bytes) (xs : List α)
    (feats : List Nat) (hV : ∀ x ∈ xs, ∀ f, (∀ s ∈ servers, val s x f = [] ∨ val s x f = V x f) ∧
      ((∀ s ∈ servers, val s x f = []) → V x f = [])) (out : List Bytes) (hl : out.length = xs.length * feats.length)
    (ho : ∀ y ∈ (xs.flatMap fun x => feats.map fun f => (x, f)).zip out,
      (y.2 ≠ [] ∧ ∃ s ∈ servers, y.2 = val s y.1.1 y.1.2) ∨ (y.2 = [] ∧ ∀ s ∈ servers, val s y.1.1 y.1.2 = [])) :
    out = xs.flatMap fun x => feats.map (V x) := by
  have hlen : (xs.flatMap fun x => feats.map fun f => (x, f)).length = xs.length * feats.length := by
    clear hV ho hl
    induction xs with
    | nil => simp
    | cons x xs ih => rw [List.flatMap_cons, List.length_append, ih, List.length_map, List.length_cons, Nat.succ_mul, Nat.add_comm]
  have hmap : (xs.flatMap fun x => feats.map (V x)) = (xs.flatMap fun x => feats.map fun f => (x, f)).map fun y => V y.1 y.2 := by
    simp only [List.map_flatMap, List.map_map]
    rfl
  have hmem : ∀ y ∈ (xs.flatMap fun x => feats.map fun f => (x, f)), y.1 ∈ xs := by
    intro y hy
    obtain ⟨x, hx, hy⟩ := List.mem_flatMap.1 hy
    obtain ⟨f, -, rfl⟩ := List.mem_map.1 hy
    exact hx
  rw [hmap]
  generalize (xs.flatMap fun x => feats.map fun f => (x, f)) = cells at *
  apply List.ext_getElem?
  intro c
  by_cases hc : c < out.length
  · have h1 : out[c]? = some out[c] := List.getElem?_eq_getElem hc
    have h2 : cells[c]? = some (cells[c]'(by omega)) := List.getElem?_eq_getElem (by omega)
    rw [List.getElem?_map, h2, h1, Option.map_some, Option.some.injEq]
    have hz := List.mem_of_getElem? (List.getElem?_zip_eq_some (z := (cells[c]'(by omega), out[c])).2 ⟨h2, h1⟩)
    have hv := hV _ (hmem _ (List.mem_of_getElem? h2)) (cells[c]'(by omega)).2
    rcases ho _ hz with ⟨a, s, hs, b⟩ | ⟨a, b⟩
    · rcases hv.1 s hs with h | h
      · exact absurd (b.trans h) a
      · exact b.trans h
    · rw [hv.2 b]; exact a
  · rw [List.getElem?_eq_none_iff.2 (by omega), List.getElem?_eq_none_iff.2 (by simp; omega)]

theorem nodeText_query (h : Built C wm m parts g) (n : Int) (feats : List Nat) (hone : (nodeRecords parts n).length ≤ 1)
    (out : Bytes) : ∃ st, g.nodeTextState feats (n, none) out = some st ∧
      st.flags.map (·.2) = (feats.map (nodeFeature parts n)).map List.length ∧
      st.out = out ++ (feats.map (nodeFeature parts n)).flatten ∧ ∀ f ∈ st.flags, PlainFlag f := by
  have h1 := h.nodeString1 n feats hone out
  have h2 : g.nodeString1 feats n none out = (g.nodeTextState feats (n, none) out).map fun s => (s.flags.map (·.2), s.out) := by
    unfold Graph.nodeString1 Graph.nodeTextState
    cases g.entries n <;> rfl
  rw [h2, Option.map_eq_some_iff] at h1
  obtain ⟨st, h3, h4⟩ := h1
  obtain ⟨h5, h6⟩ := Prod.mk.inj h4
  exact ⟨st, h3, by rw [h5, List.map_map]; rfl, by rw [h6, List.flatMap_def], (nodeTextState_plain h3).2⟩

theorem edgeText_query (h : Built C wm m parts g) (hm : m.edgeFeatureCount ≠ 0) (e : EdgeId) (feats : List Nat)
    (hone : (edgesBetween parts e.src e.dst e.typ).length ≤ 1)
    (out : Bytes) : ∃ st, g.edgeTextState feats (e, none) out = some st ∧
      st.flags.map (·.2) = (feats.map (edgeText parts e)).map List.length ∧
      st.out = out ++ (feats.map (edgeText parts e)).flatten ∧ ∀ f ∈ st.flags, PlainFlag f := by
  obtain ⟨items, hg, hc⟩ := h.graphOk
  obtain ⟨vs, h1, hl, h3⟩ := hg.edgeString1_single hm (fun it hit => (hc it hit).2) feats e none
    (fun _ _ => []) (fun f hf r hr => Or.inl rfl) hone out
  have hvs : vs = feats.map (edgeText parts e) := by
    apply List.ext_getElem?
    intro k
    by_cases hk : k < feats.length
    · have a1 : feats[k]? = some feats[k] := List.getElem?_eq_getElem hk
      have a2 : vs[k]? = some (vs[k]'(by omega)) := List.getElem?_eq_getElem (by omega)
      have a3 := List.mem_of_getElem? (List.getElem?_zip_eq_some (z := (feats[k], vs[k]'(by omega))).2 ⟨a1, a2⟩)
      rw [List.getElem?_map, a1, a2, Option.map_some, Option.some.injEq]
      rcases h3 _ a3 with ⟨b1, b2⟩ | ⟨r, b1, b2⟩
      · simp only [] at b2
        rw [b2, edgeText, b1]
      · have b2 : vs[k]'(by omega) = featureOf r feats[k] := b2
        rw [b2, edgeText]
        match hr : edgesBetween parts e.src e.dst e.typ, hone with
        | [r'], _ => rw [hr, List.mem_singleton] at b1; rw [b1]
        | [], _ => rw [hr] at b1; cases b1
        | _ :: _ :: _, ho => simp at ho
    · rw [List.getElem?_eq_none_iff.2 (by omega), List.getElem?_eq_none_iff.2 (by simp; omega)]
  have h2 : g.edgeString1 feats e none out = (g.edgeTextState feats (e, none) out).map fun s => (s.flags.map (·.2), s.out) := by
    unfold Graph.edgeString1 Graph.edgeTextState
    cases g.entries e.src <;> rfl
  rw [h2, Option.map_eq_some_iff] at h1
  obtain ⟨st, h4, h5⟩ := h1
  obtain ⟨h6, h7⟩ := Prod.mk.inj h5
  exact ⟨st, h4, by rw [h6, hvs], by rw [h7, hvs], (edgeTextState_plain h4).2⟩

/-- For all servers that hold at most one record of each requested node, for all requests without timestamps and every
order of the critical sections of the callbacks: all servers answer, no callback reads beyond its reply, and the client
returns one string per node and feature, in the order of the request.  A string that is not empty is the one that one of
the servers holds for this node and feature, and a string is empty only if no server holds one. -/
theorem C66_node_values_partial (servers : List (List (List (List Rec)) × Graph)) (hne : servers ≠ [])
    (hs : ∀ s ∈ servers, Built C wm m s.1 s.2) (nodes : List Int) (feats : List Nat)
    (hone : ∀ s ∈ servers, ∀ n ∈ nodes, (nodeRecords s.1 n).length ≤ 1) :
    ∃ replies, servers.mapM (fun s => s.2.getNodeStrings feats (nodes.map fun n => (n, none))) = some replies ∧
      ∃ seqs, textSeqs replies = some seqs ∧ ∀ steps, Interleaved seqs steps → ∃ out : List Bytes,
        remoteStrings (nodes.length * feats.length) replies steps = some (out.map List.length, out.flatten) ∧
        out.length = nodes.length * feats.length ∧
        ∀ y ∈ (nodes.flatMap fun n => feats.map fun f => (n, f)).zip out,
          (y.2 ≠ [] ∧ ∃ s ∈ servers, y.2 = nodeFeature s.1 y.1.1 y.1.2) ∨
          (y.2 = [] ∧ ∀ s ∈ servers, nodeFeature s.1 y.1.1 y.1.2 = []) :=
  strings_servers servers hne (fun s => s.2.nodeTextState feats) (fun s => nodeFeature s.1) nodes feats
    fun s hsm n hn out => nodeText_query (hs s hsm) n feats (hone s hsm n hn) out

/-- The same for the string features of edges; the graph has edge features. -/
theorem C66_edge_values_partial (servers : List (List (List (List Rec)) × Graph)) (hne : servers ≠ [])
    (hs : ∀ s ∈ servers, Built C wm m s.1 s.2) (hm : m.edgeFeatureCount ≠ 0) (edges : List EdgeId) (feats : List Nat)
    (hone : ∀ s ∈ servers, ∀ e ∈ edges, (edgesBetween s.1 e.src e.dst e.typ).length ≤ 1) :
    ∃ replies, servers.mapM (fun s => s.2.getEdgeStrings feats (edges.map fun e => (e, none))) = some replies ∧
      ∃ seqs, textSeqs replies = some seqs ∧ ∀ steps, Interleaved seqs steps → ∃ out : List Bytes,
        remoteStrings (edges.length * feats.length) replies steps = some (out.map List.length, out.flatten) ∧
        out.length = edges.length * feats.length ∧
        ∀ y ∈ (edges.flatMap fun e => feats.map fun f => (e, f)).zip out,
          (y.2 ≠ [] ∧ ∃ s ∈ servers, y.2 = edgeText s.1 y.1.1 y.1.2) ∨
          (y.2 = [] ∧ ∀ s ∈ servers, edgeText s.1 y.1.1 y.1.2 = []) :=
  strings_servers servers hne (fun s => s.2.edgeTextState feats) (fun s => edgeText s.1) edges feats
    fun s hsm e he out => edgeText_query (hs s hsm) hm e feats (hone s hsm e he) out

theorem nodeRecords_servers (servers : List (List (List (List Rec)) × Graph)) (hp : (servers.flatMap (·.1)).Perm parts)
    (n : Int) : (servers.flatMap fun s => nodeRecords s.1 n).Perm (nodeRecords parts n) := by
  have h1 : (nodeRecords (servers.flatMap (·.1)) n).Perm (nodeRecords parts n) := (hp.flatten.flatten).filter _
  refine List.Perm.trans (.of_eq ?_) h1
  clear h1 hp
  induction servers with
  | nil => rfl
  | cons s ss ih =>
    rw [List.flatMap_cons, ih]
    simp only [nodeRecords, allRecords, List.flatMap_cons, List.flatten_append, List.filter_append]

/-- Records of one kind that are spread over servers: if there is at most one of them altogether, every server has it or
nothing. -/
theorem spread_one {σ β : Type} {servers : List σ} {own : σ → List β} {all : List β}
    (hp : (servers.flatMap own).Perm all) (hone : all.length ≤ 1) :
    (∀ s ∈ servers, own s = [] ∨ own s = all) ∧ ((∀ s ∈ servers, own s = []) → all = []) := by
  have hle : ∀ s ∈ servers, (own s).length ≤ 1 := by
    intro s hs
    have h7 := hp.length_eq
    obtain ⟨u, w, huw⟩ := List.append_of_mem hs
    rw [huw] at h7
    simp only [List.flatMap_append, List.flatMap_cons, List.length_append] at h7
    omega
  constructor
  · intro s hs
    match ho : own s, hle s hs with
    | [], _ => exact Or.inl rfl
    | [r], _ =>
      right
      have hr : r ∈ all := hp.subset (List.mem_flatMap.2 ⟨s, hs, by rw [ho]; simp⟩)
      match all, hone, hr with
      | [x], _, hr => rw [List.mem_singleton.1 hr]
      | _ :: _ :: _, h, _ => simp at h
    | _ :: _ :: _, h => simp at h
  · intro h
    have : servers.flatMap own = [] := List.flatMap_eq_nil_iff.2 h
    rw [this] at hp
    exact hp.nil_eq.symm

/-- Servers that hold the partitions of a graph: if every requested node has at most one node record, the string features
fetched remotely are those fetched from the whole graph, for all distributions of the partitions and every order of the
critical sections.  Missing: nodes with several records; for timestamps see `C66_nodes_at_partial`. -/
theorem C66_nodes_partial (h : Built C wm m parts g) (servers : List (List (List (List Rec)) × Graph)) (hne : servers ≠ [])
    (hs : ∀ s ∈ servers, Built C wm m s.1 s.2) (hp : (servers.flatMap (·.1)).Perm parts) (nodes : List Int)
    (feats : List Nat) (hone : ∀ n ∈ nodes, (nodeRecords parts n).length ≤ 1) :
    ∃ replies, servers.mapM (fun s => s.2.getNodeStrings feats (nodes.map fun n => (n, none))) = some replies ∧
      ∃ seqs, textSeqs replies = some seqs ∧ ∀ steps, Interleaved seqs steps →
        remoteStrings (nodes.length * feats.length) replies steps = g.nodeString feats (nodes.map fun n => (n, none)) [] := by
  have hspread := fun n hn => spread_one (own := fun s : List (List (List Rec)) × Graph => nodeRecords s.1 n)
    (nodeRecords_servers servers hp n) (hone n hn)
  obtain ⟨replies, h1, seqs, h2, h3⟩ := C66_node_values_partial servers hne hs nodes feats (by
    intro s hsm n hn
    rcases (hspread n hn).1 s hsm with h | h <;> rw [h]
    · simp
    · exact hone n hn)
  refine ⟨replies, h1, seqs, h2, fun steps hst => ?_⟩
  obtain ⟨out, h4, h5, h6⟩ := h3 steps hst
  have := strings_agree servers (fun s => nodeFeature s.1) (nodeFeature parts) nodes feats (by
    intro n hn f
    have hnil : ∀ p : List (List (List Rec)), nodeRecords p n = [] → nodeFeature p n f = [] := by
      intro p hp
      simp [nodeFeature, hp]
    refine ⟨fun s hsm => ?_, fun hz => ?_⟩
    · rcases (hspread n hn).1 s hsm with h | h
      · exact Or.inl (hnil _ h)
      · right; simp only [nodeFeature, h]
    · by_cases hall : nodeRecords parts n = []
      · exact hnil _ hall
      · have : ∃ s ∈ servers, nodeRecords s.1 n = nodeRecords parts n := by
          refine Classical.byContradiction fun hno => hall ((hspread n hn).2 fun s hsm => ?_)
          rcases (hspread n hn).1 s hsm with h | h
          · exact h
          · exact absurd ⟨s, hsm, h⟩ hno
        obtain ⟨s, hsm, h⟩ := this
        have := hz s hsm
        simp only [nodeFeature, h] at this
        simpa only [nodeFeature] using this) out h5 h6
  rw [h4, C11_nodes_partial h nodes feats hone, this]
  congr 2
  · simp only [List.map_flatMap, List.map_map]; rfl
  · generalize nodes = l
    induction l with
    | nil => rfl
    | cons n ns ih => rw [List.flatMap_cons, List.flatten_append, ih, List.flatMap_cons, List.flatMap_def (l := feats)]

/-- The same for the string features of edges. -/
theorem C66_edges_partial (h : Built C wm m parts g) (hm : m.edgeFeatureCount ≠ 0)
    (servers : List (List (List (List Rec)) × Graph)) (hne : servers ≠ [])
    (hs : ∀ s ∈ servers, Built C wm m s.1 s.2) (hp : (servers.flatMap (·.1)).Perm parts) (edges : List EdgeId)
    (feats : List Nat) (hone : ∀ e ∈ edges, (edgesBetween parts e.src e.dst e.typ).length ≤ 1) :
    ∃ replies, servers.mapM (fun s => s.2.getEdgeStrings feats (edges.map fun e => (e, none))) = some replies ∧
      ∃ seqs, textSeqs replies = some seqs ∧ ∀ steps, Interleaved seqs steps →
        remoteStrings (edges.length * feats.length) replies steps = g.edgeString feats (edges.map fun e => (e, none)) [] := by
  have hspread := fun e he => spread_one (own := fun s : List (List (List Rec)) × Graph => edgesBetween s.1 e.src e.dst e.typ)
    (edgesBetween_servers servers hp e.src e.dst e.typ) (hone e he)
  obtain ⟨replies, h1, seqs, h2, h3⟩ := C66_edge_values_partial servers hne hs hm edges feats (by
    intro s hsm e he
    rcases (hspread e he).1 s hsm with h | h <;> rw [h]
    · simp
    · exact hone e he)
  refine ⟨replies, h1, seqs, h2, fun steps hst => ?_⟩
  obtain ⟨out, h4, h5, h6⟩ := h3 steps hst
  have := strings_agree servers (fun s => edgeText s.1) (edgeText parts) edges feats (by
    intro e he f
    have hnil : ∀ p : List (List (List Rec)), edgesBetween p e.src e.dst e.typ = [] → edgeText p e f = [] := by
      intro p hp
      simp [edgeText, hp]
    refine ⟨fun s hsm => ?_, fun hz => ?_⟩
    · rcases (hspread e he).1 s hsm with h | h
      · exact Or.inl (hnil _ h)
      · right; simp only [edgeText, h]
    · by_cases hall : edgesBetween parts e.src e.dst e.typ = []
      · exact hnil _ hall
      · have : ∃ s ∈ servers, edgesBetween s.1 e.src e.dst e.typ = edgesBetween parts e.src e.dst e.typ := by
          refine Classical.byContradiction fun hno => hall ((hspread e he).2 fun s hsm => ?_)
          rcases (hspread e he).1 s hsm with h | h
          · exact h
          · exact absurd ⟨s, hsm, h⟩ hno
        obtain ⟨s, hsm, h⟩ := this
        have := hz s hsm
        simp only [edgeText, h] at this
        simpa only [edgeText] using this) out h5 h6
  have hlocal : ∀ (l : List EdgeId), (∀ e ∈ l, (edgesBetween parts e.src e.dst e.typ).length ≤ 1) → ∀ pre,
      g.edgeString feats (l.map fun e => (e, none)) pre =
        some ((l.flatMap fun e => feats.map (edgeText parts e)).map List.length,
          pre ++ (l.flatMap fun e => feats.map (edgeText parts e)).flatten) := by
    intro l
    induction l with
    | nil => intro _ pre; simp [Graph.edgeString]
    | cons e es ih =>
      intro hl pre
      obtain ⟨st, a, b, c, -⟩ := edgeText_query h hm e feats (hl e (by simp)) pre
      have h2 : g.edgeString1 feats e none pre = some (st.flags.map (·.2), st.out) := by
        have : g.edgeString1 feats e none pre = (g.edgeTextState feats (e, none) pre).map fun s => (s.flags.map (·.2), s.out) := by
          unfold Graph.edgeString1 Graph.edgeTextState
          cases g.entries e.src <;> rfl
        rw [this, a]; rfl
      rw [List.map_cons, Graph.edgeString, h2, Option.bind_some, ih (fun e he => hl e (by simp [he])), b, c]
      simp
  rw [h4, hlocal edges hone, this, List.nil_append]

/-- The reply of a server whose queries return rows with the property `P`. -/
theorem serveTexts_rows {α : Type} (q : α → Bytes → Option StrState) (P : α → List Bytes → Prop) :
    ∀ (l : List α) (pre : Bytes), (∀ x ∈ l, ∀ out, ∃ s vs, q x out = some s ∧ s.flags.map (·.2) = vs.map List.length ∧
      s.out = out ++ vs.flatten ∧ (∀ f ∈ s.flags, PlainFlag f) ∧ P x vs) →
    ∃ r rows, serveTexts q l pre = some r ∧ rows.length = l.length ∧ (∀ y ∈ l.zip rows, P y.1 y.2) ∧
      r.dims = rows.flatten.map List.length ∧ r.values = pre ++ rows.flatten.flatten ∧
      (rows.flatten.filter fun v => !v.isEmpty).length ≤ r.stamps.length ∧ ∀ t ∈ r.stamps, -1 ≤ t
  | [], pre, _ => ⟨⟨[], [], pre⟩, [], rfl, rfl, by simp, rfl, by simp, by simp, by simp⟩
  | x :: xs, pre, h => by
    obtain ⟨s, vs, h1, h2, h3, h4, hP⟩ := h x (by simp) pre
    obtain ⟨r, rows, h5, hl, hr, h6, h7, h8, h9⟩ := serveTexts_rows q P xs s.out fun y hy => h y (by simp [hy])
    refine ⟨_, vs :: rows, by rw [serveTexts, h1, Option.bind_some, h5, Option.map_some], by simp [hl], ?_, ?_, ?_, ?_, ?_⟩
    · simp only [List.zip_cons_cons, List.mem_cons, forall_eq_or_imp]
      exact ⟨hP, hr⟩
    · simp only [List.flatten_cons, List.map_append, h2, h6]
    · simp [h7, h3, List.append_assoc]
    · simp only [List.flatten_cons, List.filter_append, List.length_append]
      have hrow : (vs.filter fun v => !v.isEmpty).length ≤
          (if (s.flags.any fun f => decide (f.1 ≥ 0)) = true then s.flags.map (·.1) else []).length := by
        have hl : s.flags.length = vs.length := by simpa using congrArg List.length h2
        split
        · rw [List.length_map, hl]; exact List.length_filter_le _ _
        · next hany =>
          have : vs.filter (fun v => !v.isEmpty) = [] := by
            rw [List.filter_eq_nil_iff]
            intro v hv
            have hlen : v.length ∈ s.flags.map (·.2) := by rw [h2]; exact List.mem_map.2 ⟨v, hv, rfl⟩
            obtain ⟨f, hf, hfv⟩ := List.mem_map.1 hlen
            rcases h4 f hf with ⟨-, h0⟩ | h0
            · rw [h0] at hfv
              have : v = [] := List.eq_nil_of_length_eq_zero hfv.symm
              simp [this]
            · exact absurd (List.any_eq_true.2 ⟨f, hf, decide_eq_true h0⟩) hany
          simp [this]
      omega
    · intro t ht
      rcases List.mem_append.1 ht with ht | ht
      · split at ht
        · obtain ⟨f, hf, rfl⟩ := List.mem_map.1 ht
          rcases h4 f hf with ⟨h0, -⟩ | h0 <;> omega
        · cases ht
      · exact h9 t ht

/-- The cells of rows of which each has one value per feature. -/
theorem rows_cells {α : Type} (feats : List Nat) (R : α → Nat → Bytes → Prop) : ∀ (xs : List α) (rows : List (List Bytes)),
    rows.length = xs.length → (∀ y ∈ xs.zip rows, y.2.length = feats.length ∧ ∀ z ∈ feats.zip y.2, R y.1 z.1 z.2) →
    rows.flatten.length = xs.length * feats.length ∧
      ∀ y ∈ (xs.flatMap fun x => feats.map fun f => (x, f)).zip rows.flatten, R y.1.1 y.1.2 y.2
  | [], [], _, _ => by simp
  | x :: xs, row :: rows, hl, h => by
    simp only [List.zip_cons_cons, List.mem_cons, forall_eq_or_imp] at h
    obtain ⟨h1, h2⟩ := rows_cells feats R xs rows (by simpa using hl) h.2
    refine ⟨by rw [List.flatten_cons, List.length_append, h1, h.1.1, List.length_cons, Nat.succ_mul, Nat.add_comm], ?_⟩
    rw [List.flatMap_cons, List.flatten_cons, List.zip_append (by simp [h.1.1])]
    intro y hy
    rcases List.mem_append.1 hy with hy | hy
    · rw [List.zip_map_left] at hy
      obtain ⟨z, hz, rfl⟩ := List.mem_map.1 hy
      exact h.1.2 z hz
    · exact h2 y hy

/-- Servers whose queries for `x` return strings with the property `R s x f`. -/
theorem strings_rel {σ α γ : Type} (servers : List σ) (hne : servers ≠ []) (rq : α → γ)
    (q : σ → γ → Bytes → Option StrState) (R : σ → α → Nat → Bytes → Prop) (xs : List α) (feats : List Nat)
    (hq : ∀ s ∈ servers, ∀ x ∈ xs, ∀ out, ∃ st vs, q s (rq x) out = some st ∧ st.flags.map (·.2) = vs.map List.length ∧
      st.out = out ++ vs.flatten ∧ (∀ f ∈ st.flags, PlainFlag f) ∧ vs.length = feats.length ∧
      ∀ y ∈ feats.zip vs, R s x y.1 y.2) :
    ∃ replies, servers.mapM (fun s => serveTexts (q s) (xs.map rq) []) = some replies ∧
      ∃ seqs, textSeqs replies = some seqs ∧ ∀ steps, Interleaved seqs steps → ∃ out : List Bytes,
        remoteStrings (xs.length * feats.length) replies steps = some (out.map List.length, out.flatten) ∧
        out.length = xs.length * feats.length ∧
        ∀ y ∈ (xs.flatMap fun x => feats.map fun f => (x, f)).zip out,
          (y.2 ≠ [] ∧ ∃ s ∈ servers, R s y.1.1 y.1.2 y.2) ∨ (y.2 = [] ∧ ∀ s ∈ servers, R s y.1.1 y.1.2 []) := by
  have hserve : ∀ s ∈ servers, ∃ r, serveTexts (q s) (xs.map rq) [] = some r ∧ ∃ vs, TextOk r vs ∧
      vs.length = xs.length * feats.length ∧
      ∀ y ∈ (xs.flatMap fun x => feats.map fun f => (x, f)).zip vs, R s y.1.1 y.1.2 y.2 := by
    intro s hs
    have hmap : ∀ l : List α, serveTexts (q s) (l.map rq) = serveTexts (fun x => q s (rq x)) l := by
      intro l
      induction l with
      | nil => rfl
      | cons x l ih => funext out; simp only [List.map_cons, serveTexts, ih]
    obtain ⟨r, rows, h1, h2, h3, h4, h5, h6, h7⟩ := serveTexts_rows (fun x => q s (rq x))
      (fun x vs => vs.length = feats.length ∧ ∀ y ∈ feats.zip vs, R s x y.1 y.2) xs [] (hq s hs)
    obtain ⟨h8, h9⟩ := rows_cells feats (R s) xs rows h2 h3
    exact ⟨r, by rw [hmap]; exact h1, rows.flatten, ⟨h4, by simpa using h5, h6, h7⟩, h8, h9⟩
  obtain ⟨replies, h1, h2, h3⟩ := mapM_lookup (l := servers) hserve
  have hrow : ∀ (l : List σ) (rs : List TextReply), rs.length = l.length →
      (∀ (i : Nat) s r, l[i]? = some s → rs[i]? = some r → ∃ vs, TextOk r vs ∧ vs.length = xs.length * feats.length ∧
        ∀ y ∈ (xs.flatMap fun x => feats.map fun f => (x, f)).zip vs, R s y.1.1 y.1.2 y.2) →
      ∃ rows : List (List Bytes), rows.length = rs.length ∧
        ∀ (i : Nat) s r vs, l[i]? = some s → rs[i]? = some r → rows[i]? = some vs → TextOk r vs ∧
          vs.length = xs.length * feats.length ∧
          ∀ y ∈ (xs.flatMap fun x => feats.map fun f => (x, f)).zip vs, R s y.1.1 y.1.2 y.2 := by
    intro l
    induction l with
    | nil => intro rs hl _; exact ⟨[], by simp [hl], by simp⟩
    | cons s l ih =>
      intro rs hl h
      match rs, hl, h with
      | r :: rs, hl, h =>
        obtain ⟨vs, a⟩ := h 0 s r rfl rfl
        obtain ⟨rows, b, c⟩ := ih rs (by simpa using hl) fun i s r hs hr => h (i + 1) s r hs hr
        refine ⟨vs :: rows, by simp [b], ?_⟩
        intro i s' r' vs' e1 e2 e3
        match i with
        | 0 => cases e1; cases e2; cases e3; exact a
        | i + 1 => exact c i s' r' vs' e1 e2 e3
  obtain ⟨rows, hl, hrows⟩ := hrow servers replies h2 h3
  have hserver : ∀ (i : Nat), i < replies.length → ∃ s ∈ servers, ∃ r, servers[i]? = some s ∧ replies[i]? = some r := by
    intro i hi
    have hs := List.getElem?_eq_getElem (l := servers) (i := i) (by omega)
    exact ⟨_, List.mem_of_getElem? hs, _, hs, List.getElem?_eq_getElem hi⟩
  have hn : ∀ vs ∈ rows, ∃ s ∈ servers, vs.length = xs.length * feats.length ∧
      ∀ y ∈ (xs.flatMap fun x => feats.map fun f => (x, f)).zip vs, R s y.1.1 y.1.2 y.2 := by
    intro vs hvs
    obtain ⟨i, hi⟩ := List.mem_iff_getElem?.1 hvs
    obtain ⟨s, hs, r, e1, e2⟩ := hserver i (by
      have := (List.getElem?_eq_some_iff.1 hi).1
      omega)
    exact ⟨s, hs, (hrows i s r vs e1 e2 hi).2⟩
  obtain ⟨seqs, h4, h5⟩ := remoteStrings_ok (xs.length * feats.length) replies rows
    (by intro h; subst h; exact hne (List.eq_nil_of_length_eq_zero h2.symm)) hl
    (fun vs hvs => by obtain ⟨s, -, e, -⟩ := hn vs hvs; exact e)
    (by
      intro i r vs hr hvs
      obtain ⟨s, -, r', e1, e2⟩ := hserver i (List.getElem?_eq_some_iff.1 hr).1
      exact (hrows i s r vs e1 hr hvs).1)
  refine ⟨replies, h1, seqs, h4, fun steps hst => ?_⟩
  obtain ⟨out, h6, h7, h8⟩ := h5 steps hst
  refine ⟨out, h6, h7, fun y hy => ?_⟩
  obtain ⟨c, hc⟩ := List.mem_iff_getElem?.1 hy
  rw [List.getElem?_zip_eq_some] at hc
  have hcell : ∀ (vs : List Bytes) (v : Bytes), vs[c]? = some v → (y.1, v) ∈ (xs.flatMap fun x => feats.map fun f => (x, f)).zip vs :=
    fun vs v hv => List.mem_of_getElem? (List.getElem?_zip_eq_some (z := (y.1, v)).2 ⟨hc.1, hv⟩)
  rcases h8 c y.2 hc.2 with ⟨a, vs, hvs, b⟩ | ⟨a, b⟩
  · obtain ⟨s, hs, -, hR⟩ := hn vs hvs
    exact Or.inl ⟨a, s, hs, hR _ (hcell vs _ b)⟩
  · refine Or.inr ⟨a, fun s hs => ?_⟩
    obtain ⟨i, hi⟩ := List.mem_iff_getElem?.1 hs
    have hil := (List.getElem?_eq_some_iff.1 hi).1
    have e2 := List.getElem?_eq_getElem (l := replies) (i := i) (by omega)
    have e3 := List.getElem?_eq_getElem (l := rows) (i := i) (by omega)
    have e4 := hcell _ _ (b _ (List.mem_of_getElem? e3))
    exact (hrows i s _ _ hi e2 e3).2.2 _ e4

/-- Values of records that are spread over servers, at a time: if there is at most one record altogether, a value is the
latest one of all records. -/
theorem latest_spread {σ : Type} {servers : List σ} {own : σ → List Rec} {all : List Rec}
    (hp : (servers.flatMap own).Perm all) (hone : all.length ≤ 1) (K : Rec → List (Int × Bytes)) (t : Int) (v : Bytes)
    (h : (v ≠ [] ∧ ∃ s ∈ servers, LatestValue ((own s).flatMap K) t v) ∨
      (v = [] ∧ ∀ s ∈ servers, LatestValue ((own s).flatMap K) t [])) : LatestValue (all.flatMap K) t v := by
  obtain ⟨h1, h2⟩ := spread_one hp hone
  rcases h with ⟨hv, s, hs, hL⟩ | ⟨rfl, hL⟩
  · rcases h1 s hs with h | h
    · rw [h] at hL
      rcases hL with ⟨c, hc, -⟩ | ⟨hz, -⟩
      · simp at hc
      · exact absurd hz hv
    · rwa [h] at hL
  · by_cases hall : all = []
    · rw [hall]; exact latest_nil
    · have : ∃ s ∈ servers, own s = all := by
        refine Classical.byContradiction fun hno => hall (h2 fun s hs => ?_)
        rcases h1 s hs with h | h
        · exact h
        · exact absurd ⟨s, hs, h⟩ hno
      obtain ⟨s, hs, h⟩ := this
      have := hL s hs
      rwa [h] at this

theorem strOk_latest {all : List Rec} (hone : all.length ≤ 1) (K : List (Option Bytes) → List (Int × Bytes)) (t : Int) (v : Bytes)
    (h : (all = [] ∧ v = []) ∨ ∃ r ∈ all, LatestValue (K r.features) t v) :
    LatestValue (all.flatMap fun r => K r.features) t v := by
  rcases h with ⟨rfl, rfl⟩ | ⟨r, hr, hL⟩
  · exact latest_nil
  · match hall : all, hone with
    | [], _ => cases hr
    | [r'], _ =>
      rw [List.mem_singleton] at hr
      subst hr
      simpa using hL
    | _ :: _ :: _, ho => simp at ho

/-- String features of nodes at given times, from servers that hold the partitions of a graph: if every requested node has
at most one node record and its features hold histories, then for all distributions of the partitions and every order of
the critical sections all servers answer, no callback reads beyond its reply, and the client returns one string per node
and feature, the latest one not after the time asked for.  Missing: nodes with several records (`C66_newest_refuted`). -/
theorem C66_nodes_at_partial (servers : List (List (List (List Rec)) × Graph)) (hne : servers ≠ [])
    (hs : ∀ s ∈ servers, Built C wm m s.1 s.2) (hp : (servers.flatMap (·.1)).Perm parts) (nodes : List (Int × Int))
    (feats : List Nat) (hone : ∀ x ∈ nodes, (nodeRecords parts x.1).length ≤ 1)
    (H : Nat → List (Option Bytes) → List (Int × Bytes))
    (hH : ∀ x ∈ nodes, ∀ f ∈ feats, ∀ r ∈ nodeRecords parts x.1,
      HasHist r.features f (H f r.features) ∨ (r.features[f]? = some none ∧ H f r.features = [])) :
    ∃ replies, servers.mapM (fun s => s.2.getNodeStrings feats (nodes.map fun x => (x.1, some x.2))) = some replies ∧
      ∃ seqs, textSeqs replies = some seqs ∧ ∀ steps, Interleaved seqs steps → ∃ out : List Bytes,
        remoteStrings (nodes.length * feats.length) replies steps = some (out.map List.length, out.flatten) ∧
        out.length = nodes.length * feats.length ∧
        ∀ y ∈ (nodes.flatMap fun x => feats.map fun f => (x, f)).zip out,
          LatestValue ((nodeRecords parts y.1.1.1).flatMap fun r => H y.1.2 r.features) y.1.1.2 y.2 := by
  have hspread := fun x hx => spread_one (own := fun s : List (List (List Rec)) × Graph => nodeRecords s.1 x)
    (nodeRecords_servers servers hp x) hx
  obtain ⟨replies, h1, seqs, h2, h3⟩ := strings_rel servers hne (fun x : Int × Int => (x.1, some x.2))
    (fun s => s.2.nodeTextState feats)
    (fun s x f v => LatestValue ((nodeRecords s.1 x.1).flatMap fun r => H f r.features) x.2 v) nodes feats (by
      intro s hsm x hx out
      obtain ⟨items, hg, hc⟩ := (hs s hsm).graphOk
      have hown : (nodeRecords s.1 x.1).length ≤ 1 ∧ ∀ r ∈ nodeRecords s.1 x.1, r ∈ nodeRecords parts x.1 := by
        rcases (hspread x.1 (hone x hx)).1 s hsm with h | h <;> rw [h]
        · simp
        · exact ⟨hone x hx, fun r hr => hr⟩
      obtain ⟨vs, a, b, c⟩ := hg.nodeString1_single (fun it hit => (hc it hit).1) feats x.1 (some x.2) H
        (fun f hf r hr => Or.inr (hH x hx f hf r (hown.2 r hr))) hown.1 out
      have d : s.2.nodeString1 feats x.1 (some x.2) out =
          (s.2.nodeTextState feats (x.1, some x.2) out).map fun s => (s.flags.map (·.2), s.out) := by
        unfold Graph.nodeString1 Graph.nodeTextState
        cases s.2.entries x.1 <;> rfl
      rw [d, Option.map_eq_some_iff] at a
      obtain ⟨st, e, f⟩ := a
      obtain ⟨f1, f2⟩ := Prod.mk.inj f
      exact ⟨st, vs, e, f1, f2, (nodeTextState_plain e).2, b, fun y hy => strOk_latest hown.1 _ _ _ (c y hy)⟩)
  refine ⟨replies, h1, seqs, h2, fun steps hst => ?_⟩
  obtain ⟨out, h4, h5, h6⟩ := h3 steps hst
  refine ⟨out, h4, h5, fun y hy => ?_⟩
  have hx : y.1.1 ∈ nodes := by
    obtain ⟨x, hx, hy⟩ := List.mem_flatMap.1 (List.of_mem_zip hy).1
    obtain ⟨f, -, hf⟩ := List.mem_map.1 hy
    rw [← hf]; exact hx
  exact latest_spread (nodeRecords_servers servers hp y.1.1.1) (hone _ hx) _ _ _ (h6 y hy)

/-- The same for the string features of edges; the graph has edge features. -/
theorem C66_edges_at_partial (servers : List (List (List (List Rec)) × Graph)) (hne : servers ≠ [])
    (hs : ∀ s ∈ servers, Built C wm m s.1 s.2) (hm : m.edgeFeatureCount ≠ 0) (hp : (servers.flatMap (·.1)).Perm parts)
    (edges : List (EdgeId × Int)) (feats : List Nat)
    (hone : ∀ x ∈ edges, (edgesBetween parts x.1.src x.1.dst x.1.typ).length ≤ 1)
    (H : Nat → List (Option Bytes) → List (Int × Bytes))
    (hH : ∀ x ∈ edges, ∀ f ∈ feats, ∀ r ∈ edgesBetween parts x.1.src x.1.dst x.1.typ,
      HasHist r.features f (H f r.features) ∨ (r.features[f]? = some none ∧ H f r.features = [])) :
    ∃ replies, servers.mapM (fun s => s.2.getEdgeStrings feats (edges.map fun x => (x.1, some x.2))) = some replies ∧
      ∃ seqs, textSeqs replies = some seqs ∧ ∀ steps, Interleaved seqs steps → ∃ out : List Bytes,
        remoteStrings (edges.length * feats.length) replies steps = some (out.map List.length, out.flatten) ∧
        out.length = edges.length * feats.length ∧
        ∀ y ∈ (edges.flatMap fun x => feats.map fun f => (x, f)).zip out,
          LatestValue ((edgesBetween parts y.1.1.1.src y.1.1.1.dst y.1.1.1.typ).flatMap fun r => H y.1.2 r.features)
            y.1.1.2 y.2 := by
  have hspread := fun (x : EdgeId) hx => spread_one
    (own := fun s : List (List (List Rec)) × Graph => edgesBetween s.1 x.src x.dst x.typ)
    (edgesBetween_servers servers hp x.src x.dst x.typ) hx
  obtain ⟨replies, h1, seqs, h2, h3⟩ := strings_rel servers hne (fun x : EdgeId × Int => (x.1, some x.2))
    (fun s => s.2.edgeTextState feats)
    (fun s x f v => LatestValue ((edgesBetween s.1 x.1.src x.1.dst x.1.typ).flatMap fun r => H f r.features) x.2 v) edges feats (by
      intro s hsm x hx out
      obtain ⟨items, hg, hc⟩ := (hs s hsm).graphOk
      have hown : (edgesBetween s.1 x.1.src x.1.dst x.1.typ).length ≤ 1 ∧
          ∀ r ∈ edgesBetween s.1 x.1.src x.1.dst x.1.typ, r ∈ edgesBetween parts x.1.src x.1.dst x.1.typ := by
        rcases (hspread x.1 (hone x hx)).1 s hsm with h | h <;> rw [h]
        · simp
        · exact ⟨hone x hx, fun r hr => hr⟩
      have hread : ∀ f ∈ feats, ∀ r ∈ edgesBetween s.1 x.1.src x.1.dst x.1.typ,
          StrReadable r.features (some x.2) (H f r.features) f := fun f hf r hr => Or.inr (hH x hx f hf r (hown.2 r hr))
      obtain ⟨vs, a, b, c⟩ := hg.edgeString1_single hm (fun it hit => (hc it hit).2) feats x.1 (some x.2) H hread hown.1 out
      have d : s.2.edgeString1 feats x.1 (some x.2) out =
          (s.2.edgeTextState feats (x.1, some x.2) out).map fun s => (s.flags.map (·.2), s.out) := by
        unfold Graph.edgeString1 Graph.edgeTextState
        cases s.2.entries x.1.src <;> rfl
      obtain ⟨st, e, e'⟩ := hg.edgeTextState_times hm (fun it hit => (hc it hit).2) feats x.1 x.2 H hread out
      rw [d, e, Option.map_some, Option.some.injEq] at a
      obtain ⟨f1, f2⟩ := Prod.mk.inj a
      exact ⟨st, vs, e, f1, f2, e', b, fun y hy => strOk_latest hown.1 _ _ _ (c y hy)⟩)
  refine ⟨replies, h1, seqs, h2, fun steps hst => ?_⟩
  obtain ⟨out, h4, h5, h6⟩ := h3 steps hst
  refine ⟨out, h4, h5, fun y hy => ?_⟩
  have hx : y.1.1 ∈ edges := by
    obtain ⟨x, hx, hy⟩ := List.mem_flatMap.1 (List.of_mem_zip hy).1
    obtain ⟨f, -, hf⟩ := List.mem_map.1 hy
    rw [← hf]; exact hx
  exact latest_spread (edgesBetween_servers servers hp y.1.1.1.src y.1.1.1.dst y.1.1.1.typ) (hone _ hx) _ _ _ (h6 y hy)

/-- Two partitions with strings; nodes 1 and 4 are on the first, node 3 on the second. -/
def C66_a : List (List Rec) :=
  [[⟨1, -1, 0, 1, none, none, [some [97, 98], none, some [99]]⟩, ⟨1, 2, 0, 1, none, none, [none, some [100, 101]]⟩],
   [⟨4, -1, 0, 1, none, none, [none, none, some [110]]⟩]]
def C66_b : List (List Rec) :=
  [[⟨3, -1, 0, 1, none, none, [some [120]]⟩, ⟨3, 1, 0, 1, none, none, [some [121], some [122, 123]]⟩]]

/-- Non-vacuity: interleaved critical sections; nodes and edges on both servers, one of each unknown. -/
example : ∃ g1 g2, Built intCodec none ⟨3, 2, -1⟩ [C66_a] g1 ∧ Built intCodec none ⟨3, 2, -1⟩ [C66_b] g2 ∧
    (∀ n ∈ [(3 : Int), 1, 2, 4], (nodeRecords [C66_a, C66_b] n).length ≤ 1) ∧
    (∀ e ∈ [(⟨3, 1, 0⟩ : EdgeId), ⟨1, 2, 0⟩, ⟨1, 3, 0⟩], (edgesBetween [C66_a, C66_b] e.src e.dst e.typ).length ≤ 1) ∧
    [g1, g2].mapM (fun g => g.getNodeStrings [2, 0] [(3, none), (1, none), (2, none), (4, none)]) =
      some [⟨[0, 0, 1, 2, 0, 0, 1, 0], [0, 0, 0, -1], [99, 97, 98, 110]⟩, ⟨[0, 1, 0, 0, 0, 0, 0, 0], [-1, 0], [120]⟩] ∧
    textSeqs [⟨[0, 0, 1, 2, 0, 0, 1, 0], [0, 0, 0, -1], [99, 97, 98, 110]⟩, ⟨[0, 1, 0, 0, 0, 0, 0, 0], [-1, 0], [120]⟩] =
      some [[⟨2, 0, 0, 0, 1⟩, ⟨3, 0, 1, 0, 2⟩, ⟨6, 0, 3, 0, 1⟩], [⟨1, 1, 0, -1, 1⟩]] ∧
    Interleaved [[(⟨2, 0, 0, 0, 1⟩ : TextStep), ⟨3, 0, 1, 0, 2⟩, ⟨6, 0, 3, 0, 1⟩], [⟨1, 1, 0, -1, 1⟩]]
      [⟨2, 0, 0, 0, 1⟩, ⟨1, 1, 0, -1, 1⟩, ⟨3, 0, 1, 0, 2⟩, ⟨6, 0, 3, 0, 1⟩] ∧
    [g1, g2].mapM (fun g => g.getEdgeStrings [1, 0] [(⟨3, 1, 0⟩, none), (⟨1, 2, 0⟩, none), (⟨1, 3, 0⟩, none)]) =
      some [⟨[0, 0, 2, 0, 0, 0], [0, -1], [100, 101]⟩, ⟨[2, 1, 0, 0, 0, 0], [0, 0], [122, 123, 121]⟩] := by
  obtain ⟨g1, hg1, hb1⟩ := built_of_check (wm := none) (m := ⟨3, 2, -1⟩) (parts := [C66_a]) (by decide +kernel)
  obtain ⟨g2, hg2, hb2⟩ := built_of_check (wm := none) (m := ⟨3, 2, -1⟩) (parts := [C66_b]) (by decide +kernel)
  refine ⟨g1, g2, hb1, hb2, by decide +kernel, by decide +kernel, ?_, by decide +kernel,
    ⟨[(0, ⟨2, 0, 0, 0, 1⟩), (1, ⟨1, 1, 0, -1, 1⟩), (0, ⟨3, 0, 1, 0, 2⟩), (0, ⟨6, 0, 3, 0, 1⟩)], rfl, fun i => ?_⟩, ?_⟩
  · have : (graphOf intCodec none ⟨3, 2, -1⟩ [C66_a]).bind (fun g1 => (graphOf intCodec none ⟨3, 2, -1⟩ [C66_b]).bind
        fun g2 => [g1, g2].mapM (fun g => g.getNodeStrings [2, 0] [(3, none), (1, none), (2, none), (4, none)])) =
      some [⟨[0, 0, 1, 2, 0, 0, 1, 0], [0, 0, 0, -1], [99, 97, 98, 110]⟩, ⟨[0, 1, 0, 0, 0, 0, 0, 0], [-1, 0], [120]⟩] := by
      decide +kernel
    rwa [hg1, Option.bind_some, hg2, Option.bind_some] at this
  · match i with
    | 0 => rfl
    | 1 => rfl
    | i + 2 => rfl
  · have : (graphOf intCodec none ⟨3, 2, -1⟩ [C66_a]).bind (fun g1 => (graphOf intCodec none ⟨3, 2, -1⟩ [C66_b]).bind
        fun g2 => [g1, g2].mapM (fun g => g.getEdgeStrings [1, 0] [(⟨3, 1, 0⟩, none), (⟨1, 2, 0⟩, none), (⟨1, 3, 0⟩, none)])) =
      some [⟨[0, 0, 2, 0, 0, 0], [0, -1], [100, 101]⟩, ⟨[2, 1, 0, 0, 0, 0], [0, 0], [122, 123, 121]⟩] := by
      decide +kernel
    rwa [hg1, Option.bind_some, hg2, Option.bind_some] at this

/-- Histories of strings: node 1 and the edge from 1 to 2 on the first partition, node 3 on the second. -/
def C66_early : List (List Rec) :=
  [[⟨1, -1, 0, 1, none, none, [none, some (serializeTemporal [(2, [97]), (6, [98, 99])])]⟩,
    ⟨1, 2, 0, 1, some 1, none, [none, some (serializeTemporal [(3, [100])])]⟩]]
def C66_late : List (List Rec) := [[⟨3, -1, 0, 1, none, none, [some (serializeTemporal [(4, [101]), (8, [102])])]⟩]]

/-- The histories of these records. -/
def C66_hist (f : Nat) (fl : List (Option Bytes)) : List (Int × Bytes) :=
  if f = 1 then
    if fl = [none, some (serializeTemporal [(3, [100])])] then [(3, [100])]
    else if fl = [none, some (serializeTemporal [(2, [97]), (6, [98, 99])])] then [(2, [97]), (6, [98, 99])] else []
  else if fl = [some (serializeTemporal [(4, [101]), (8, [102])])] then [(4, [101]), (8, [102])] else []

/-- Non-vacuity: two servers, nodes asked for at different times; the timestamp `-1` of a missing feature is taken for
that of the next one, yet the values are right. -/
example : ∃ g1 g2, Built intCodec (some 9) ⟨2, 2, 9⟩ [C66_early] g1 ∧ Built intCodec (some 9) ⟨2, 2, 9⟩ [C66_late] g2 ∧
    (∀ x ∈ [((1 : Int), (7 : Int)), (3, 7), (1, 5)], (nodeRecords [C66_early, C66_late] x.1).length ≤ 1) ∧
    (∀ x ∈ [((1 : Int), (7 : Int)), (3, 7), (1, 5)], ∀ f ∈ [0, 1], ∀ r ∈ nodeRecords [C66_early, C66_late] x.1,
      HasHist r.features f (C66_hist f r.features) ∨ (r.features[f]? = some none ∧ C66_hist f r.features = [])) ∧
    (∀ f ∈ [0, 1], ∀ r ∈ edgesBetween [C66_early, C66_late] 1 2 0,
      HasHist r.features f (C66_hist f r.features) ∨ (r.features[f]? = some none ∧ C66_hist f r.features = [])) ∧
    [g1, g2].mapM (fun g => g.getNodeStrings [0, 1] [(1, some 7), (3, some 7), (1, some 5)]) =
      some [⟨[0, 2, 0, 0, 0, 1], [-1, 6, -1, 2], [98, 99, 97]⟩, ⟨[0, 0, 1, 0, 0, 0], [4, -1], [101]⟩] ∧
    textSeqs [⟨[0, 2, 0, 0, 0, 1], [-1, 6, -1, 2], [98, 99, 97]⟩, ⟨[0, 0, 1, 0, 0, 0], [4, -1], [101]⟩] =
      some [[⟨1, 0, 0, -1, 2⟩, ⟨5, 0, 2, 6, 1⟩], [⟨2, 1, 0, 4, 1⟩]] ∧
    remoteStrings 6 [⟨[0, 2, 0, 0, 0, 1], [-1, 6, -1, 2], [98, 99, 97]⟩, ⟨[0, 0, 1, 0, 0, 0], [4, -1], [101]⟩]
      [⟨1, 0, 0, -1, 2⟩, ⟨2, 1, 0, 4, 1⟩, ⟨5, 0, 2, 6, 1⟩] = some ([0, 2, 1, 0, 0, 1], [98, 99, 101, 97]) ∧
    [g1, g2].mapM (fun g => g.getEdgeStrings [0, 1] [(⟨1, 2, 0⟩, some 7)]) = some [⟨[0, 1], [-1, 3], [100]⟩, ⟨[0, 0], [], []⟩] := by
  obtain ⟨g1, hg1, hb1⟩ := built_of_check (wm := some 9) (m := ⟨2, 2, 9⟩) (parts := [C66_early]) (by decide +kernel)
  obtain ⟨g2, hg2, hb2⟩ := built_of_check (wm := some 9) (m := ⟨2, 2, 9⟩) (parts := [C66_late]) (by decide +kernel)
  have ok1 : HistOk [(2, [97]), (6, [98, 99])] := ⟨by decide, by decide, by decide⟩
  have ok2 : HistOk [(4, [101]), (8, [102])] := ⟨by decide, by decide, by decide⟩
  have ok3 : HistOk [(3, [100])] := ⟨by decide, by decide, by decide⟩
  have n1 : nodeRecords [C66_early, C66_late] 1 =
      [⟨1, -1, 0, 1, none, none, [none, some (serializeTemporal [(2, [97]), (6, [98, 99])])]⟩] := by decide +kernel
  have n3 : nodeRecords [C66_early, C66_late] 3 =
      [⟨3, -1, 0, 1, none, none, [some (serializeTemporal [(4, [101]), (8, [102])])]⟩] := by decide +kernel
  have e1 : edgesBetween [C66_early, C66_late] 1 2 0 =
      [⟨1, 2, 0, 1, some 1, none, [none, some (serializeTemporal [(3, [100])])]⟩] := by decide +kernel
  have k1 : ∀ f ∈ [0, 1], ∀ r ∈ nodeRecords [C66_early, C66_late] 1,
      HasHist r.features f (C66_hist f r.features) ∨ (r.features[f]? = some none ∧ C66_hist f r.features = []) := by
    intro f hf r hr
    rw [n1, List.mem_singleton] at hr
    subst hr
    simp only [List.mem_cons, List.not_mem_nil, or_false] at hf
    rcases hf with rfl | rfl
    · exact Or.inr (by decide +kernel)
    · have : C66_hist 1 [none, some (serializeTemporal [(2, [97]), (6, [98, 99])])] = [(2, [97]), (6, [98, 99])] := by decide +kernel
      refine Or.inl (Or.inr ?_)
      rw [this]
      exact ⟨rfl, ok1⟩
  have k3 : ∀ f ∈ [0, 1], ∀ r ∈ nodeRecords [C66_early, C66_late] 3,
      HasHist r.features f (C66_hist f r.features) ∨ (r.features[f]? = some none ∧ C66_hist f r.features = []) := by
    intro f hf r hr
    rw [n3, List.mem_singleton] at hr
    subst hr
    simp only [List.mem_cons, List.not_mem_nil, or_false] at hf
    rcases hf with rfl | rfl
    · have : C66_hist 0 [some (serializeTemporal [(4, [101]), (8, [102])])] = [(4, [101]), (8, [102])] := by decide +kernel
      refine Or.inl (Or.inr ?_)
      rw [this]
      exact ⟨rfl, ok2⟩
    · exact Or.inl (Or.inl (by decide +kernel))
  refine ⟨g1, g2, hb1, hb2, by decide +kernel, ?_, ?_, ?_, by decide +kernel, by decide +kernel, ?_⟩
  · intro x hx f hf
    simp only [List.mem_cons, List.not_mem_nil, or_false] at hx
    rcases hx with rfl | rfl | rfl
    · exact k1 f hf
    · exact k3 f hf
    · exact k1 f hf
  · intro f hf r hr
    rw [e1, List.mem_singleton] at hr
    subst hr
    simp only [List.mem_cons, List.not_mem_nil, or_false] at hf
    rcases hf with rfl | rfl
    · exact Or.inr (by decide +kernel)
    · have : C66_hist 1 [none, some (serializeTemporal [(3, [100])])] = [(3, [100])] := by decide +kernel
      refine Or.inl (Or.inr ?_)
      rw [this]
      exact ⟨rfl, ok3⟩
  · have : (graphOf intCodec (some 9) ⟨2, 2, 9⟩ [C66_early]).bind (fun g1 => (graphOf intCodec (some 9) ⟨2, 2, 9⟩ [C66_late]).bind
        fun g2 => [g1, g2].mapM (fun g => g.getNodeStrings [0, 1] [(1, some 7), (3, some 7), (1, some 5)])) =
      some [⟨[0, 2, 0, 0, 0, 1], [-1, 6, -1, 2], [98, 99, 97]⟩, ⟨[0, 0, 1, 0, 0, 0], [4, -1], [101]⟩] := by
      decide +kernel
    rwa [hg1, Option.bind_some, hg2, Option.bind_some] at this
  · have : (graphOf intCodec (some 9) ⟨2, 2, 9⟩ [C66_early]).bind (fun g1 => (graphOf intCodec (some 9) ⟨2, 2, 9⟩ [C66_late]).bind
        fun g2 => [g1, g2].mapM (fun g => g.getEdgeStrings [0, 1] [(⟨1, 2, 0⟩, some 7)])) =
      some [⟨[0, 1], [-1, 3], [100]⟩, ⟨[0, 0], [], []⟩] := by
      decide +kernel
    rwa [hg1, Option.bind_some, hg2, Option.bind_some] at this

/-- Two servers with records of node 1 whose feature 1 has a history: the value `[7]` of time 5 on the first server and
the value `[8]` of time 3 on the second.  Neither record has feature 0. -/
def C66_new : List (List Rec) := [[⟨1, -1, 0, 1, none, none, [none, some (serializeTemporal [(5, [7])])]⟩]]
def C66_old : List (List Rec) := [[⟨1, -1, 0, 1, none, none, [none, some (serializeTemporal [(3, [8])])]⟩]]

/-- The claim that the latest value not after the requested time is returned is false: the client counts a timestamp only
for features that are not empty, but servers send timestamps of all features of a node.  A request at time 9 for feature 1
alone returns the value `[7]` of time 5, a request for features 0 and 1 returns the value `[8]` of time 3 when the second
server answers last. -/
theorem C66_newest_refuted : ∃ g1 g2 r1 r2 q1 q2, Built intCodec (some 9) ⟨2, 0, 9⟩ [C66_new] g1 ∧
    Built intCodec (some 9) ⟨2, 0, 9⟩ [C66_old] g2 ∧
    g1.getNodeStrings [1] [(1, some 9)] = some r1 ∧ g2.getNodeStrings [1] [(1, some 9)] = some r2 ∧
    (∃ w1 w2, textSeqs [r1, r2] = some [w1, w2] ∧ remoteStrings 1 [r1, r2] (w1 ++ w2) = some ([1], [7])) ∧
    g1.getNodeStrings [0, 1] [(1, some 9)] = some q1 ∧ g2.getNodeStrings [0, 1] [(1, some 9)] = some q2 ∧
    ∃ w1 w2, textSeqs [q1, q2] = some [w1, w2] ∧ Interleaved [w1, w2] (w1 ++ w2) ∧
      remoteStrings 2 [q1, q2] (w1 ++ w2) = some ([0, 1], [8]) := by
  obtain ⟨g1, hg1, hb1⟩ := built_of_check (wm := some 9) (m := ⟨2, 0, 9⟩) (parts := [C66_new]) (by decide +kernel)
  obtain ⟨g2, hg2, hb2⟩ := built_of_check (wm := some 9) (m := ⟨2, 0, 9⟩) (parts := [C66_old]) (by decide +kernel)
  refine ⟨g1, g2, ⟨[1], [5], [7]⟩, ⟨[1], [3], [8]⟩, ⟨[0, 1], [-1, 5], [7]⟩, ⟨[0, 1], [-1, 3], [8]⟩, hb1, hb2, ?_, ?_,
    ⟨[⟨0, 0, 0, 5, 1⟩], [⟨0, 1, 0, 3, 1⟩], by decide +kernel, by decide +kernel⟩, ?_, ?_,
    [⟨1, 0, 0, -1, 1⟩], [⟨1, 1, 0, -1, 1⟩], by decide +kernel, ⟨[(0, ⟨1, 0, 0, -1, 1⟩), (1, ⟨1, 1, 0, -1, 1⟩)], rfl, fun i => ?_⟩,
    by decide +kernel⟩
  · have : (graphOf intCodec (some 9) ⟨2, 0, 9⟩ [C66_new]).bind (fun g => g.getNodeStrings [1] [(1, some 9)]) =
      some ⟨[1], [5], [7]⟩ := by decide +kernel
    rwa [hg1, Option.bind_some] at this
  · have : (graphOf intCodec (some 9) ⟨2, 0, 9⟩ [C66_old]).bind (fun g => g.getNodeStrings [1] [(1, some 9)]) =
      some ⟨[1], [3], [8]⟩ := by decide +kernel
    rwa [hg2, Option.bind_some] at this
  · have : (graphOf intCodec (some 9) ⟨2, 0, 9⟩ [C66_new]).bind (fun g => g.getNodeStrings [0, 1] [(1, some 9)]) =
      some ⟨[0, 1], [-1, 5], [7]⟩ := by decide +kernel
    rwa [hg1, Option.bind_some] at this
  · have : (graphOf intCodec (some 9) ⟨2, 0, 9⟩ [C66_old]).bind (fun g => g.getNodeStrings [0, 1] [(1, some 9)]) =
      some ⟨[0, 1], [-1, 3], [8]⟩ := by decide +kernel
    rwa [hg2, Option.bind_some] at this
  · match i with
    | 0 => rfl
    | 1 => rfl
    | i + 2 => rfl

end DeepGNN
