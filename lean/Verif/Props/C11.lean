import Verif.Proofs.StringFeatures
import Verif.Proofs.Concrete

/-
C11 String features are returned whole and in order.
-/

namespace DeepGNN

variable {C : WeightCodec} {wm : Option Nat} {m : Meta} {parts : List (List (List Rec))} {g : Graph}

/-- Several rows of string values, one row per node or edge: the reply is the lengths of all values
followed by the values themselves, in order. -/
theorem string_rows {α} (q : α → Bytes → Option (List Nat × Bytes)) (run : List α → Bytes → Option (List Nat × Bytes))
    (hnil : ∀ out, run [] out = some ([], out))
    (hcons : ∀ a l out, run (a :: l) out = (q a out).bind fun x => (run l x.2).map fun y => (x.1 ++ y.1, y.2))
    (P : α → List Bytes → Prop) (l : List α)
    (h : ∀ a ∈ l, ∀ out, ∃ vs : List Bytes, q a out = some (vs.map List.length, out ++ vs.flatten) ∧ P a vs)
    (out : Bytes) :
    ∃ rows : List (List Bytes), run l out = some (rows.flatten.map List.length, out ++ rows.flatten.flatten) ∧
      rows.length = l.length ∧ ∀ x ∈ l.zip rows, P x.1 x.2 := by
  induction l generalizing out with
  | nil => exact ⟨[], by simp [hnil], rfl, by simp⟩
  | cons a l ih =>
    obtain ⟨vs, h1, h2⟩ := h a (by simp) out
    obtain ⟨rows, h3, h4, h5⟩ := ih (fun a ha => h a (by simp [ha])) (out ++ vs.flatten)
    refine ⟨vs :: rows, ?_, by simp [h4], ?_⟩
    · rw [hcons, h1, Option.bind_some, h3]
      simp
    · simp only [List.zip_cons_cons, List.mem_cons, forall_eq_or_imp]
      exact ⟨h2, h5⟩

/-- The string features of one node. -/
theorem Built.nodeString1 (h : Built C wm m parts g) (n : Int) (feats : List Nat)
    (hone : (Spec.nodeRecords parts n).length ≤ 1) (out : Bytes) : g.nodeString1 feats n none out =
      some (feats.map fun f => (Spec.nodeFeature parts n f).length,
        out ++ feats.flatMap fun f => Spec.nodeFeature parts n f) := by
  obtain ⟨items, hg, hc⟩ := h.graphOk
  obtain ⟨vs, h1, h2, h3⟩ := hg.nodeString1_single (fun it hit => (hc it hit).1) feats n none
    (fun _ _ => []) (fun _ _ _ _ => Or.inl rfl) hone out
  have hval : ∀ x ∈ feats.zip vs, x.2 = Spec.nodeFeature parts n x.1 := by
    intro x hx
    have hle := hone
    match hr : Spec.nodeRecords parts n, hle with
    | [], _ =>
      rcases h3 x hx with ⟨-, h4⟩ | ⟨r, h4, -⟩
      · simp [Spec.nodeFeature, hr, h4]
      · rw [hr] at h4; simp at h4
    | [r], _ =>
      rcases h3 x hx with ⟨h4, -⟩ | ⟨r', h4, h5⟩
      · rw [hr] at h4; simp at h4
      · rw [hr, List.mem_singleton] at h4
        subst h4
        have h5 : x.2 = (r'.features[x.1]?.join).getD [] := h5
        simp only [Spec.nodeFeature, hr, List.find?_cons, List.find?_nil]
        by_cases hf : x.1 < r'.features.length
        · simp [hf, h5, Spec.featureOf]
        · simp [hf, h5]
    | a :: b :: l, hle => simp at hle
  have hvs : vs = feats.map fun f => Spec.nodeFeature parts n f := by
    clear h1 h3
    induction feats generalizing vs with
    | nil => exact List.eq_nil_of_length_eq_zero h2
    | cons f fs ih =>
      cases vs with
      | nil => simp at h2
      | cons v vs =>
        simp only [List.zip_cons_cons, List.mem_cons, forall_eq_or_imp] at hval
        rw [List.map_cons, ← ih vs (by simpa using h2) hval.2, hval.1]
  rw [h1, hvs, List.map_map, List.flatMap_def]
  rfl

/-- Node string features for any batch: the reply is the list of lengths and the concatenation of the
stored values in request order, an absent value being empty.  Missing for the full property: nodes with
more than one node record (see `C11_order_refuted`). -/
theorem C11_nodes_partial (h : Built C wm m parts g) (nodes : List Int) (feats : List Nat)
    (hone : ∀ n ∈ nodes, (Spec.nodeRecords parts n).length ≤ 1) :
    g.nodeString feats (nodes.map fun n => (n, none)) [] =
      some (nodes.flatMap fun n => feats.map fun f => (Spec.nodeFeature parts n f).length,
        nodes.flatMap fun n => feats.flatMap fun f => Spec.nodeFeature parts n f) := by
  have key : ∀ n ∈ nodes, ∀ out, g.nodeString1 feats n none out =
      some (feats.map fun f => (Spec.nodeFeature parts n f).length,
        out ++ feats.flatMap fun f => Spec.nodeFeature parts n f) :=
    fun n hn out => h.nodeString1 n feats (hone n hn) out
  have hrun : ∀ out, g.nodeString feats (nodes.map fun n => (n, none)) out =
      some (nodes.flatMap fun n => feats.map fun f => (Spec.nodeFeature parts n f).length,
        out ++ nodes.flatMap fun n => feats.flatMap fun f => Spec.nodeFeature parts n f) := by
    clear hone
    induction nodes with
    | nil => intro out; simp [Graph.nodeString]
    | cons n ns ih =>
      intro out
      rw [List.map_cons, Graph.nodeString, key n (by simp) out, Option.bind_some,
        ih (fun n hn => key n (by simp [hn]))]
      simp
  rw [hrun]
  simp

/-- Node string features at timestamps: one value per node and feature, the latest not after the
node's timestamp. -/
theorem C11_nodes_at_partial (h : Built C wm m parts g) (nodes : List (Int × Int)) (feats : List Nat)
    (hone : ∀ x ∈ nodes, (Spec.nodeRecords parts x.1).length ≤ 1)
    (H : Nat → List (Option Bytes) → List (Int × Bytes))
    (hH : ∀ x ∈ nodes, ∀ f ∈ feats, ∀ r ∈ Spec.nodeRecords parts x.1,
      Spec.HasHist r.features f (H f r.features) ∨ (r.features[f]? = some none ∧ H f r.features = [])) :
    ∃ rows : List (List Bytes), g.nodeString feats (nodes.map fun x => (x.1, some x.2)) [] =
        some (rows.flatten.map List.length, rows.flatten.flatten) ∧ rows.length = nodes.length ∧
      ∀ x ∈ nodes.zip rows, x.2.length = feats.length ∧ ∀ y ∈ feats.zip x.2,
        Spec.LatestValue ((Spec.nodeRecords parts x.1.1).flatMap fun r => H y.1 r.features) x.1.2 y.2 := by
  obtain ⟨items, hg, hc⟩ := h.graphOk
  obtain ⟨rows, h1, h2, h3⟩ := string_rows (fun x out => g.nodeString1 feats x.1 (some x.2) out)
    (fun l out => g.nodeString feats (l.map fun x => (x.1, some x.2)) out) (fun _ => rfl) (fun _ _ _ => rfl)
    (fun x vs => vs.length = feats.length ∧ ∀ y ∈ feats.zip vs,
        Spec.LatestValue ((Spec.nodeRecords parts x.1).flatMap fun r => H y.1 r.features) x.2 y.2) nodes (by
      intro x hx out
      obtain ⟨vs, h1, h2, h3⟩ := hg.nodeString1_single (fun it hit => (hc it hit).1) feats x.1 (some x.2) H
        (fun f hf r hr => Or.inr (hH x hx f hf r hr)) (hone x hx) out
      refine ⟨vs, h1, h2, ?_⟩
      intro y hy
      have hle := hone x hx
      match hr : Spec.nodeRecords parts x.1, hle with
      | [], _ =>
        rcases h3 y hy with ⟨-, h4⟩ | ⟨r, h4, -⟩
        · rw [h4]; exact Or.inr ⟨rfl, by simp⟩
        · rw [hr] at h4; simp at h4
      | [r], _ =>
        rcases h3 y hy with ⟨h4, -⟩ | ⟨r', h4, h5⟩
        · rw [hr] at h4; simp at h4
        · rw [hr, List.mem_singleton] at h4
          subst h4
          have h5 : Spec.LatestValue (H y.1 r'.features) x.2 y.2 := h5
          simpa using h5
      | a :: b :: l, hle => simp at hle) []
  exact ⟨rows, by simpa using h1, h2, h3⟩

/-- Edge string features, with or without timestamps, for graphs with edge features: one value per edge
and feature, that of the edge's record.  Missing for the full property: edges given more than once, and
graphs without any edge feature (see `C11_no_edge_features_refuted`). -/
theorem C11_edges_partial (h : Built C wm m parts g) (hm : m.edgeFeatureCount ≠ 0)
    (edges : List EdgeId) (feats : List Nat)
    (hone : ∀ e ∈ edges, (Spec.edgesBetween parts e.src e.dst e.typ).length ≤ 1) :
    ∃ rows : List (List Bytes), g.edgeString feats (edges.map fun e => (e, none)) [] =
        some (rows.flatten.map List.length, rows.flatten.flatten) ∧ rows.length = edges.length ∧
      ∀ x ∈ edges.zip rows, x.2.length = feats.length ∧ ∀ y ∈ feats.zip x.2,
        (Spec.edgesBetween parts x.1.src x.1.dst x.1.typ = [] ∧ y.2 = []) ∨
        ∃ r, Spec.edgesBetween parts x.1.src x.1.dst x.1.typ = [r] ∧ y.2 = Spec.featureOf r y.1 := by
  obtain ⟨items, hg, hc⟩ := h.graphOk
  obtain ⟨rows, h1, h2, h3⟩ := string_rows (fun e out => g.edgeString1 feats e none out)
    (fun l out => g.edgeString feats (l.map fun e => (e, none)) out) (fun _ => rfl) (fun _ _ _ => rfl)
    (fun e vs => vs.length = feats.length ∧ ∀ y ∈ feats.zip vs,
        (Spec.edgesBetween parts e.src e.dst e.typ = [] ∧ y.2 = []) ∨
        ∃ r, Spec.edgesBetween parts e.src e.dst e.typ = [r] ∧ y.2 = Spec.featureOf r y.1) edges (by
      intro e he out
      obtain ⟨vs, h1, h2, h3⟩ := hg.edgeString1_single hm (fun it hit => (hc it hit).2) feats e none
        (fun _ _ => []) (fun f hf r hr => Or.inl rfl) (hone e he) out
      refine ⟨vs, h1, h2, ?_⟩
      intro y hy
      rcases h3 y hy with h4 | ⟨r, hr, h5⟩
      · exact Or.inl h4
      · right
        have hle := hone e he
        match hl : Spec.edgesBetween parts e.src e.dst e.typ, hle with
        | [], _ => rw [hl] at hr; simp at hr
        | [r'], _ =>
          rw [hl, List.mem_singleton] at hr
          subst hr
          exact ⟨r, rfl, h5⟩
        | a :: b :: l, hle => simp at hle) []
  exact ⟨rows, by simpa using h1, h2, h3⟩

/-- Two nodes with strings; node 2 has no record of its own; one edge with strings. -/
def C11_example : List (List (List Rec)) :=
  [[[⟨1, -1, 0, 1, none, none, [some [97, 98], none, some [99]]⟩,
     ⟨1, 2, 0, 1, none, none, [none, some [100, 101]]⟩]],
   [[⟨3, -1, 0, 1, none, none, [some [120]]⟩]]]

/-- Non-vacuity. -/
example : ∃ g, Built intCodec none ⟨3, 2, -1⟩ C11_example g ∧
    (∀ n ∈ [3, 1, 2, 1], (Spec.nodeRecords C11_example n).length ≤ 1) ∧
    g.nodeString [2, 0] [(3, none), (1, none), (2, none), (1, none)] [] =
      some ([0, 1, 1, 2, 0, 0, 1, 2], [120, 99, 97, 98, 99, 97, 98]) ∧
    (∀ e ∈ [(⟨1, 2, 0⟩ : EdgeId), ⟨1, 3, 0⟩], (Spec.edgesBetween C11_example e.src e.dst e.typ).length ≤ 1) ∧
    g.edgeString [1, 0] [(⟨1, 2, 0⟩, none), (⟨1, 3, 0⟩, none)] [] = some ([2, 0, 0, 0], [100, 101]) := by
  obtain ⟨g, hg, hb⟩ := built_of_check (wm := none) (m := ⟨3, 2, -1⟩) (parts := C11_example)
    (by decide +kernel)
  have this : (graphOf intCodec none ⟨3, 2, -1⟩ C11_example).map (fun g =>
      (g.nodeString [2, 0] [(3, none), (1, none), (2, none), (1, none)] [],
       g.edgeString [1, 0] [(⟨1, 2, 0⟩, none), (⟨1, 3, 0⟩, none)] [])) =
      some (some ([0, 1, 1, 2, 0, 0, 1, 2], [120, 99, 97, 98, 99, 97, 98]), some ([2, 0, 0, 0], [100, 101])) := by
    decide +kernel
  rw [hg] at this
  obtain ⟨e1, e2⟩ := Prod.mk.inj (Option.some.inj this)
  exact ⟨g, hb, by decide +kernel, e1, by decide +kernel, e2⟩

/-- **Refuted** for nodes with records in several partitions: values are appended partition after
partition, so they are not in the order of the lengths.  Here feature 0 of node 1 is in the second
partition and feature 1 in the first; both lengths are 1 and the reply names `[2]` for feature 0 and
`[1]` for feature 1 although the values are `[1]` and `[2]`. -/
theorem C11_order_refuted :
    ∃ (parts : List (List (List Rec))) (g : Graph), Built intCodec none ⟨2, 0, -1⟩ parts g ∧
      Spec.nodeRecords parts 1 = [⟨1, -1, 0, 1, none, none, [none, some [2]]⟩, ⟨1, -1, 0, 1, none, none, [some [1]]⟩] ∧
      g.nodeString [0] [(1, none)] [] = some ([1], [1]) ∧
      g.nodeString [1] [(1, none)] [] = some ([1], [2]) ∧
      g.nodeString [0, 1] [(1, none)] [] = some ([1, 1], [2, 1]) := by
  let P : List (List (List Rec)) :=
    [[[⟨1, -1, 0, 1, none, none, [none, some [2]]⟩]], [[⟨1, -1, 0, 1, none, none, [some [1]]⟩]]]
  obtain ⟨g, hg, hb⟩ := built_of_check (wm := none) (m := ⟨2, 0, -1⟩) (parts := P) (by decide +kernel)
  have this : (graphOf intCodec none ⟨2, 0, -1⟩ P).map (fun g =>
      [g.nodeString [0] [(1, none)] [], g.nodeString [1] [(1, none)] [], g.nodeString [0, 1] [(1, none)] []]) =
      some [some ([1], [1]), some ([1], [2]), some ([1, 1], [2, 1])] := by decide +kernel
  rw [hg] at this
  have this := Option.some.inj this
  simp only [List.cons.injEq] at this
  exact ⟨P, g, hb, by decide +kernel, this.1, this.2.1, this.2.2.1⟩

/-- **Refuted** for graphs without edge features: the edge string query then indexes an empty table
(partition.cc:1056-1064 lacks the check the dense and sparse queries have). -/
theorem C11_no_edge_features_refuted :
    ∃ (parts : List (List (List Rec))) (g : Graph), Built intCodec none ⟨0, 0, -1⟩ parts g ∧
      Spec.edgesBetween parts 1 2 0 = [⟨1, 2, 0, 1, none, none, []⟩] ∧
      g.edgeString [0] [(⟨1, 2, 0⟩, none)] [] = none ∧ g.edgeFeature [⟨1, 2, 0⟩] none [(0, 1)] = some [0] := by
  let P : List (List (List Rec)) := [[[⟨1, -1, 0, 1, none, none, []⟩, ⟨1, 2, 0, 1, none, none, []⟩]]]
  obtain ⟨g, hg, hb⟩ := built_of_check (wm := none) (m := ⟨0, 0, -1⟩) (parts := P) (by decide +kernel)
  have this : (graphOf intCodec none ⟨0, 0, -1⟩ P).map (fun g =>
      (g.edgeString [0] [(⟨1, 2, 0⟩, none)] [], g.edgeFeature [⟨1, 2, 0⟩] none [(0, 1)])) =
      some (none, some [0]) := by decide +kernel
  rw [hg] at this
  obtain ⟨e1, e2⟩ := Prod.mk.inj (Option.some.inj this)
  exact ⟨P, g, hb, by decide +kernel, e1, e2⟩

end DeepGNN
