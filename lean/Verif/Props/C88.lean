import Verif.Proofs.HetGnn
import Verif.Props.C76

/-! C88: the HetGNN example. -/

namespace DeepGNN
open HetGnn Spec

variable {C : WeightCodec} {wm : Option Nat} {m : Meta} {parts : List (List (List Rec))} {g : Graph}

/-- A minibatch has one list of triples for every pair of types `(i, j)`.  It consists, in order, of the pairs of a start node
of type `i` and a node of reported type `j` on its walk, each once; the second node is reached from the first one by a walk
along edges, and the third one is sampled from type `j`.
Missing for the full property: that the node has the type that is reported, see `C88_types_refuted`. -/
theorem C88_triples_partial {a : Answers} {T L : Nat} {E : Int → Int → Int → Prop} (hs : ∀ i, HetSteps E (a.step i))
    (ht : ∀ i hop nodes, ∀ x ∈ a.step i hop nodes, -1 ≤ x.2 ∧ x.2 < T) {N : Nat → Int → Prop}
    (hn : ∀ k n t, (a.negatives k n t).length = n ∧ ∀ x ∈ a.negatives k n t, N t x) :
    ∃ out, generate a T L = some out ∧ out.length = T * T ∧ ∀ i j : Nat, i < T → j < T → ∃ l, out[i * T + j]? = some l ∧
      (l.map fun x => (x.1, x.2.1)) = hetPairs (a.step i) (a.starts i) i L j ∧
      ∀ x ∈ l, x.1 ∈ a.starts i ∧ HetReach E x.1 x.2.1 j ∧ N j x.2.2 :=
  generate_eq hs ht hn

/-- A graph of DeepGNN answers as `C88_triples_partial` needs it, and reports the types of the edges. -/
theorem C88_engine_partial (h : Built C wm m parts g) (T : Nat) (hT : T < 2 ^ 31) (D : Nat → Nat → WDraws) (R : Draws)
    (hD : ∀ hop i, (D hop i).Ok)
    (hgap : ∀ n, Spec.NoGap parts n ((List.range T).map Int.ofNat))
    (hw : ∀ n, C19_weightsOk parts n ((List.range T).map Int.ofNat))
    (h1 : Spec.neighbors parts (-1) ((List.range T).map Int.ofNat) = []) :
    HetSteps (fun v u t => ∃ y ∈ Spec.neighbors parts v ((List.range T).map Int.ofNat), y.dst = u ∧ y.typ = t)
      (engineStep g m.watermark T D R) ∧
    ∀ hop nodes, ∀ x ∈ engineStep g m.watermark T D R hop nodes, -1 ≤ x.2 ∧ x.2 < T := by
  have htyp : ∀ v, ∀ y ∈ Spec.neighbors parts v ((List.range T).map Int.ofNat), 0 ≤ y.typ ∧ y.typ < T := by
    intro v y hy
    obtain ⟨r, hr, rfl⟩ := List.mem_map.mp hy
    have := (List.mem_filter.mp hr).2
    simp only [decide_eq_true_eq] at this
    obtain ⟨t, ht, e⟩ := List.mem_map.mp this.2
    rw [List.mem_range] at ht
    rw [Int.ofNat_eq_natCast] at e
    simp only
    omega
  have hsum : ∀ v, 0 ≤ ((Spec.neighbors parts v ((List.range T).map Int.ofNat)).map (·.weight)).sum := by
    intro v
    have := (hw v).1
    generalize Spec.neighbors parts v ((List.range T).map Int.ofNat) = l at this
    induction l with
    | nil => simp
    | cons y l ih =>
      have h1 := this y (by simp)
      have h2 := ih (fun z hz => this z (by simp [hz]))
      simp only [List.map_cons, List.sum_cons]
      omega
  have key : ∀ hop nodes, ∃ ys : List Nbr, engineStep g m.watermark T D R hop nodes = ys.map (fun y => (y.dst, y.typ)) ∧
      ys.length = nodes.length ∧ ∀ (k : Nat) v y, nodes[k]? = some v → ys[k]? = some y →
        (y ∈ Spec.neighbors parts v ((List.range T).map Int.ofNat) ∨ (y.dst = -1 ∧ y.typ = -1)) := by
    intro hop nodes
    obtain ⟨rows, hr, hl, hx⟩ := C76_client_weighted_partial h (D hop) R (hD hop) nodes
      (.array ((List.range T).map Int.ofNat)) (ts := none) (Or.inl rfl) (by
        intro t ht
        obtain ⟨t', ht', e⟩ := List.mem_map.mp ht
        rw [List.mem_range] at ht'
        rw [Int.ofNat_eq_natCast] at e
        omega) 1 ⟨-1, -1, 0⟩ (fun n _ => hgap n) (fun n _ => hw n)
    refine ⟨rows.flatten, ?_, ?_, ?_⟩
    · unfold engineStep
      rw [show (⟨[nodes.length], nodes⟩ : PyClient.Arr Int) = Spec.vector nodes from rfl, hr]
      simp only [Spec.sampleOf, Spec.table]
      rw [← List.map_flatten, ← List.map_flatten, List.map_map, List.map_map, List.zip_map', List.map_map]
      rfl
    · have hone : ∀ r ∈ rows, r.length = 1 := by
        intro r hr
        obtain ⟨k, hk⟩ := List.getElem?_of_mem hr
        have hlt := (List.getElem?_eq_some_iff.mp hk).1
        exact (hx (nodes[k]'(by omega), r) (by
          apply List.mem_of_getElem? (i := k)
          rw [List.getElem?_zip_eq_some]
          exact ⟨List.getElem?_eq_getElem _, hk⟩)).1
      rw [flatten_len 1 rows hone, hl, Nat.mul_one]
    · intro k v y hv hy
      have hone : ∀ r ∈ rows, r.length = 1 := by
        intro r hr
        obtain ⟨k, hk⟩ := List.getElem?_of_mem hr
        have hlt := (List.getElem?_eq_some_iff.mp hk).1
        exact (hx (nodes[k]'(by omega), r) (by
          apply List.mem_of_getElem? (i := k)
          rw [List.getElem?_zip_eq_some]
          exact ⟨List.getElem?_eq_getElem _, hk⟩)).1
      have hflat : ∀ (rs : List (List Nbr)) (k : Nat), (∀ r ∈ rs, r.length = 1) → rs.flatten[k]? = some y → rs[k]? = some [y] := by
        intro rs
        induction rs with
        | nil => intro k _ h; simp at h
        | cons r rs ih =>
          intro k h1 h
          obtain ⟨z, rfl⟩ := List.length_eq_one_iff.mp (h1 r (by simp))
          cases k with
          | zero => simp at h; simp [h]
          | succ k =>
            rw [List.getElem?_cons_succ]
            exact ih k (fun r hr => h1 r (by simp [hr])) (by simpa using h)
      have hrow := hflat rows k hone hy
      have := hx (v, [y]) (by
        apply List.mem_of_getElem? (i := k)
        rw [List.getElem?_zip_eq_some]
        exact ⟨hv, hrow⟩)
      have h0 := hsum v
      simp only [SamplerCache.checkTypes] at this
      by_cases e : ((Spec.neighbors parts v ((List.range T).map Int.ofNat)).map (·.weight)).sum = 0
      · have := this.2.2 e
        simp only [List.replicate_one, List.cons.injEq, and_true] at this
        right
        rw [this]
        exact ⟨rfl, rfl⟩
      · exact Or.inl (this.2.1 (by omega) y (by simp)).1
  refine ⟨⟨?_, ?_, ?_⟩, ?_⟩
  · intro hop nodes
    obtain ⟨ys, he, hl, _⟩ := key hop nodes
    rw [he, List.length_map, hl]
  · intro hop nodes k v u t hv hu
    obtain ⟨ys, he, hl, hk⟩ := key hop nodes
    rw [he, List.getElem?_map, Option.map_eq_some_iff] at hu
    obtain ⟨y, hy, e⟩ := hu
    simp only [Prod.mk.injEq] at e
    rcases hk k v y hv hy with h2 | h2
    · exact Or.inl ⟨by have := htyp v y h2; omega, y, h2, e⟩
    · exact Or.inr ⟨by omega, by omega⟩
  · intro hop nodes k u t hv hu
    obtain ⟨ys, he, hl, hk⟩ := key hop nodes
    rw [he, List.getElem?_map, Option.map_eq_some_iff] at hu
    obtain ⟨y, hy, e⟩ := hu
    simp only [Prod.mk.injEq] at e
    rcases hk k (-1) y hv hy with h2 | h2
    · rw [h1] at h2; simp at h2
    · omega
  · intro hop nodes x hx
    obtain ⟨ys, he, hl, hk⟩ := key hop nodes
    rw [he] at hx
    obtain ⟨y, hy, rfl⟩ := List.mem_map.mp hx
    obtain ⟨k, hk'⟩ := List.getElem?_of_mem hy
    have hlt := (List.getElem?_eq_some_iff.mp hk').1
    rcases hk k (nodes[k]'(by omega)) y (List.getElem?_eq_getElem _) hk' with h2 | h2
    · have := htyp _ y h2
      simp only
      omega
    · simp only
      omega

/-- `MockGraph`: sampled neighbours of a node are nodes of its adjacency list, and their types are reported; a node without
neighbours gets -1. -/
theorem C88_mock_graph (adj : List (List (List (Nat × Nat)))) {t k : Nat} {a : List (List (Nat × Nat))} {nb : List (Nat × Nat)}
    (ha : adj[t]? = some a) (hk : a[k]? = some nb) (hb : k < 1000000) (hnb : ∀ y ∈ nb, y.2 < 1000000) (count : Nat)
    (choice : Nat → Nat) :
    ∃ out, (MockGraph.init adj).sample1 count choice (k + 1000000 * (t + 1)) = some out ∧ out.length = count ∧
      ∀ x ∈ out, if nb = [] then x = (-1, -1) else ∃ y ∈ nb, x = ((y.2 : Int) + 1000000 * (y.1 + 1), (y.1 : Int)) :=
  sample1_eq adj ha hk hb hnb count choice

/-- An epoch has as many minibatches as it takes to visit all nodes. -/
theorem C88_batches (nodes batch : Nat) (h : 0 < batch) : epochBatches nodes batch nodes = (nodes + batch - 1) / batch :=
  epochBatches_eq batch h nodes nodes (Nat.le_refl _)

/-- The embedding of a node: its content is combined with, for every type, its neighbours of the type `nb i`. -/
def Spec.hetEmbedding {V : Type} (net : Net V) (features : Int → V) (T t : Nat) (id : Int) (nb : Nat → List Int) : V :=
  net.att t (net.content t (features id)) ((List.range T).map fun i => net.neigh i ((nb i).map fun u => net.content i (features u)))

/-- The embedding of a node is a function of its own features and, for every type, of the features of the neighbours sampled
for it: nodes of a batch do not influence each other, and there is one embedding per node, in order.
Missing for the full property: batches of one node in training, see `C88_single_refuted`. -/
theorem C88_embedding_partial {V : Type} (net : Net V) (features : Int → V) (collated : Bool) (T count t : Nat) (hc : 0 < count)
    (nbrs : Nat → List Int → List (List Int)) (ids : List Int)
    (hn : ∀ i < T, (nbrs i ids).length = ids.length ∧ ∀ r ∈ nbrs i ids, r.length = count)
    (h1 : collated = true ∨ ids.length ≠ 1) :
    ∃ out, hetAgg net collated T count t (buildContext features T nbrs ids) = some out ∧ out.length = ids.length ∧
      ∀ (k : Nat) id, ids[k]? = some id →
        out[k]? = some (Spec.hetEmbedding net features T t id fun i => ((nbrs i ids)[k]?).getD []) :=
  hetAgg_eq net features collated T count t hc nbrs ids hn h1

/-- The triples of list `f`: every node is embedded with the networks of its type, central nodes with those of type `f / T`,
the other two with those of type `f % T`, and each with its own neighbours. -/
theorem C88_triple_embeddings_partial {V : Type} (net : Net V) (features : Int → V) (T count f : Nat) (hc : 0 < count)
    (nbrs : Nat → Nat → List Int → List (List Int))
    (hn : ∀ x i ids, (nbrs x i ids).length = ids.length ∧ ∀ r ∈ nbrs x i ids, r.length = count)
    (triples : List (Int × Int × Int)) (h1 : triples.length ≠ 1) :
    ∃ c p n, tripleEmbeddings net features T count nbrs f triples = some (c, p, n) ∧
      c.length = triples.length ∧ p.length = triples.length ∧ n.length = triples.length ∧
      ∀ (k : Nat) x, triples[k]? = some x →
        c[k]? = some (Spec.hetEmbedding net features T (f / T) x.1 fun i => ((nbrs 0 i (triples.map (·.1)))[k]?).getD []) ∧
        p[k]? = some (Spec.hetEmbedding net features T (f % T) x.2.1 fun i => ((nbrs 1 i (triples.map (·.2.1)))[k]?).getD []) ∧
        n[k]? = some (Spec.hetEmbedding net features T (f % T) x.2.2 fun i => ((nbrs 2 i (triples.map (·.2.2)))[k]?).getD []) := by
  obtain ⟨c, hc1, hc2, hc3⟩ := C88_embedding_partial net features false T count (f / T) hc (nbrs 0) (triples.map (·.1))
    (fun i _ => hn 0 i _) (Or.inr (by rw [List.length_map]; exact h1))
  obtain ⟨p, hp1, hp2, hp3⟩ := C88_embedding_partial net features false T count (f % T) hc (nbrs 1) (triples.map (·.2.1))
    (fun i _ => hn 1 i _) (Or.inr (by rw [List.length_map]; exact h1))
  obtain ⟨n, hn1, hn2, hn3⟩ := C88_embedding_partial net features false T count (f % T) hc (nbrs 2) (triples.map (·.2.2))
    (fun i _ => hn 2 i _) (Or.inr (by rw [List.length_map]; exact h1))
  rw [List.length_map] at hc2 hp2 hn2
  refine ⟨c, p, n, by unfold tripleEmbeddings; rw [hc1, hp1, hn1]; rfl, hc2, hp2, hn2, ?_⟩
  intro k x hx
  exact ⟨hc3 k x.1 (by simp [hx]), hp3 k x.2.1 (by simp [hx]), hn3 k x.2.2 (by simp [hx])⟩

/-- The loss is the mean of the losses of all triples if the lists of triples are equally long.
Missing for the full property: other lists, see `C88_padding_refuted`. -/
theorem C88_loss_partial {V : Type} (net : Net V) (loss : V → V → V → Rat) (lists : List (List (V × V × V))) (n : Nat)
    (h : ∀ l ∈ lists, l.length = n) :
    forward net loss lists = (lists.flatten.map fun x => loss x.1 x.2.1 x.2.2).sum / (lists.flatten.length : Rat) :=
  forward_even net loss lists n h

/-- In general it is the mean over the triples and as many triples of zero vectors as it takes to make all lists as long as
the longest one. -/
theorem C88_loss_padded {V : Type} (net : Net V) (loss : V → V → V → Rat) (lists : List (List (V × V × V))) (size : Nat)
    (hle : ∀ l ∈ lists, l.length ≤ size) (hmax : ∃ l ∈ lists, l.length = size) :
    forward net loss lists = ((lists.flatten.map fun x => loss x.1 x.2.1 x.2.2).sum +
        ((lists.length * size - lists.flatten.length : Nat) : Rat) * loss net.zero net.zero net.zero) /
      ((lists.length * size : Nat) : Rat) := by
  have : (lists.map (·.length)).foldl max 0 = size := by
    obtain ⟨l, hl, e⟩ := hmax
    have h1 := (le_foldl_max (lists.map (·.length)) 0).2 _ (List.mem_map.mpr ⟨l, hl, rfl⟩)
    have h2 : ∀ (ls : List Nat) (a : Nat), a ≤ size → (∀ x ∈ ls, x ≤ size) → ls.foldl max a ≤ size := by
      intro ls
      induction ls with
      | nil => intro a ha _; exact ha
      | cons y ls ih =>
        intro a ha hy
        exact ih _ (by have := hy y (by simp); omega) (fun x hx => hy x (by simp [hx]))
    have := h2 (lists.map (·.length)) 0 (by omega) (by
      intro x hx
      obtain ⟨l', hl', rfl⟩ := List.mem_map.mp hx
      exact hle l' hl')
    simp only [e] at h1
    omega
  rw [forward_eq, this]

/-- The loader of nodes from a file gives each node but the last one in exactly one batch, in order, unless the last batch
would have one node.
Missing for the full property: the last node, see `C88_last_refuted`, and the type of the nodes, see `C88_file_refuted`. -/
theorem C88_file_partial (b : Nat) (hb : 0 < b) (lines : List (Nat × Int)) (h : lines = [] ∨ (lines.length - 1) % b ≠ 0) :
    ∃ out, fileLoader b lines.length (lines.map fileNode) = some out ∧
      out.flatMap (·.1) = lines.dropLast.map fun l => (l.1 : Int) + 1000000 := by
  obtain ⟨out, h1, h2⟩ := fileLoader_eq b hb lines.length (lines.map fileNode) (by simp) (by simpa using h)
  refine ⟨out, h1, ?_⟩
  rw [h2, ← List.map_dropLast, List.map_map]
  rfl

/-! Examples -/

/-- Two types; node `n` has edges to `n + 1` (type 0) for even `n` and to nothing for odd `n`. -/
def C88_answers : Answers where
  starts i := [4 + 2 * i, 8]
  step _ _ nodes := nodes.map fun n => if n % 2 = 0 then (n + 1, (n / 2) % 2) else (-1, -1)
  negatives _ n t := List.replicate n (100 + t)

/-- The hypotheses of `C88_triples_partial` are met, and the lists of triples. -/
example : (∀ i, HetSteps (fun v u t => v % 2 = 0 ∧ u = v + 1 ∧ t = (v / 2) % 2) (C88_answers.step i)) ∧
    (∀ i hop nodes, ∀ x ∈ C88_answers.step i hop nodes, -1 ≤ x.2 ∧ x.2 < (2 : Nat)) ∧
    (∀ k n t, (C88_answers.negatives k n t).length = n ∧ ∀ x ∈ C88_answers.negatives k n t, x = 100 + (t : Int)) ∧
    generate C88_answers 2 3 = some [[(4, 5, 100), (8, 9, 100)], [], [(8, 9, 100)], [(6, 7, 101)]] := by
  refine ⟨?_, ?_, ?_, by decide +kernel⟩
  · intro i
    refine ⟨by simp [C88_answers], ?_, ?_⟩
    · intro hop nodes k v u t hv hu
      simp only [C88_answers, List.getElem?_map, hv, Option.map_some, Option.some.injEq] at hu
      by_cases e : v % 2 = 0
      · rw [if_pos e, Prod.mk.injEq] at hu
        exact Or.inl ⟨by omega, e, by omega, by omega⟩
      · rw [if_neg e, Prod.mk.injEq] at hu
        exact Or.inr ⟨by omega, by omega⟩
    · intro hop nodes k u t hv hu
      simp only [C88_answers, List.getElem?_map, hv, Option.map_some, Option.some.injEq] at hu
      rw [if_neg (by decide), Prod.mk.injEq] at hu
      omega
  · intro i hop nodes x hx
    obtain ⟨n, _, rfl⟩ := List.mem_map.mp hx
    by_cases e : n % 2 = 0
    · simp only [e, if_true]; omega
    · simp only [e, if_false]; omega
  · intro k n t
    refine ⟨by simp [C88_answers], ?_⟩
    intro x hx
    exact (List.mem_replicate.mp hx).2

/-- Node 0 of type 0, node 1 of type 1, node 2 of type 0, and edges 0 → 1 and 1 → 2 of type 0. -/
def C88_example : List (List (List Rec)) :=
  [[[⟨0, -1, 0, 1, none, none, []⟩, ⟨0, 1, 0, 1, none, none, []⟩], [⟨1, -1, 1, 1, none, none, []⟩, ⟨1, 2, 0, 1, none, none, []⟩],
    [⟨2, -1, 0, 1, none, none, []⟩]]]

def C88_draws : Nat → Nat → WDraws := fun _ _ => ⟨fun _ => 0, fun _ => (1, 2)⟩

theorem C88_example_sources (n : Int) (types : List Int) :
    Spec.neighbors C88_example n types = (if n = 0 ∧ 0 ∈ types then [⟨1, 0, 1⟩] else []) ++ (if n = 1 ∧ 0 ∈ types then [⟨2, 0, 1⟩] else []) := by
  have : Spec.edgeRecords C88_example = [⟨0, 1, 0, 1, none, none, []⟩, ⟨1, 2, 0, 1, none, none, []⟩] := by decide +kernel
  rw [Spec.neighbors, this]
  simp only [List.filter_cons, List.filter_nil]
  by_cases h0 : n = 0
  · subst h0
    by_cases h2 : (0 : Int) ∈ types <;> simp [h2]
  · by_cases h1 : n = 1
    · subst h1
      by_cases h2 : (0 : Int) ∈ types <;> simp [h2]
    · have e0 : ¬ 0 = n := fun h => h0 h.symm
      have e1 : ¬ 1 = n := fun h => h1 h.symm
      simp [h0, h1, e0, e1]

/-- The hypotheses of `C88_engine_partial` are met. -/
example : ∃ g, Built intCodec none ⟨0, 0, -1⟩ C88_example g ∧ (∀ hop i, (C88_draws hop i).Ok) ∧
    (∀ n, Spec.NoGap C88_example n ((List.range 2).map Int.ofNat)) ∧
    (∀ n, C19_weightsOk C88_example n ((List.range 2).map Int.ofNat)) ∧
    Spec.neighbors C88_example (-1) ((List.range 2).map Int.ofNat) = [] := by
  obtain ⟨g, hg, hb⟩ := built_of_check (wm := none) (m := ⟨0, 0, -1⟩) (parts := C88_example) (by decide +kernel)
  have he : Spec.edgeRecords C88_example = [⟨0, 1, 0, 1, none, none, []⟩, ⟨1, 2, 0, 1, none, none, []⟩] := by decide +kernel
  refine ⟨g, hb, fun _ _ i => (by decide : 1 < 2), ?_, ?_, by rw [C88_example_sources]; rfl⟩
  · intro n x hx y hy
    rw [he] at hx hy
    simp only [List.mem_cons, List.not_mem_nil, or_false] at hx hy
    rcases hx with rfl | rfl <;> rcases hy with rfl | rfl <;> intro h1 h2 h3 <;> first | exact fun _ => h3 | (simp at h1 h2; omega)
  · intro n
    unfold C19_weightsOk
    rw [C88_example_sources]
    by_cases h0 : n = 0
    · subst h0; decide
    · by_cases h1 : n = 1
      · subst h1; decide
      · simp [h0, h1]

/-- Features are numbers, the attention adds. -/
def C88_net : Net Nat where
  content t v := 10 * v + t
  neigh _ l := l.sum
  att t c l := c + l.sum + 1000 * t
  zero := 0

example : hetAgg C88_net false 2 2 1 (buildContext (fun i => i.toNat) 2 (fun i ids => ids.map fun n => [n + i, n]) [3, 5]) =
    some [1000 + 31 + (60 + (41 + 31)), 1000 + 51 + (100 + (61 + 51))] := by decide +kernel

example : tripleEmbeddings C88_net (fun i => i.toNat) 2 1 (fun _ _ ids => ids.map fun n => [n]) 1 [(1, 2, 3), (4, 5, 6)] =
    some ([10 + 10 + 11, 40 + 40 + 41], [1021 + 20 + 21, 1051 + 50 + 51], [1031 + 30 + 31, 1061 + 60 + 61]) := by decide +kernel

example : forward C88_net (fun c p n => (c + p + n : Nat)) [[(1, 2, 3), (4, 5, 6)], [(7, 8, 9), (1, 1, 1)]] = 48 / 4 := by decide +kernel

example : fileLoader 2 4 ([(3, 0), (1, 0), (7, 0), (5, 0)].map fileNode) = some [([1000003, 1000001], 0), ([1000007], 0)] ∧
    ([(3, 0), (1, 0), (7, 0), (5, 0)] : List (Nat × Int)).length - 1 = 3 := by decide +kernel

example : (MockGraph.init [[[(1, 0), (2, 5)], []], [[(0, 0)]]]).sample1 3 id 1000000 =
    some [(2000000, 1), (3000005, 2), (2000000, 1)] ∧
    (MockGraph.init [[[(1, 0), (2, 5)], []], [[(0, 0)]]]).sample1 2 id 1000001 = some [(-1, -1), (-1, -1)] := by decide +kernel

/-! Refuted -/

/-- With a graph of DeepGNN the reported types are those of the edges: node 1 of type 1 is put into the list for pairs of type
0 and 0, with a negative of type 0, and will be embedded as a node of type 0. -/
theorem C88_types_refuted : ∃ g, Built intCodec none ⟨0, 0, -1⟩ C88_example g ∧ ∃ a : Answers,
    (∀ i, a.step i = engineStep g (-1) 2 C88_draws fun _ => 0) ∧
    (∀ i, ∀ x ∈ a.starts i, g.nodeType1 (-1) x = some (i : Int)) ∧
    ∃ out, generate a 2 1 = some out ∧ out[0]? = some [(0, 1, 2)] ∧ g.nodeType1 (-1) 1 = some 1 := by
  obtain ⟨g, hg, hb⟩ := built_of_check (wm := none) (m := ⟨0, 0, -1⟩) (parts := C88_example) (by decide +kernel)
  refine ⟨g, hb, ⟨fun i => if i = 0 then [0] else if i = 1 then [1] else [], fun _ => engineStep g (-1) 2 C88_draws fun _ => 0,
    fun _ n t => List.replicate n (if t = 0 then 2 else 1)⟩, fun _ => rfl, ?_, ?_⟩
  · have this : (graphOf intCodec none ⟨0, 0, -1⟩ C88_example).map (fun g => (g.nodeType1 (-1) 0, g.nodeType1 (-1) 1)) =
      some (some 0, some 1) := by decide +kernel
    rw [hg] at this
    simp only [Option.map_some, Option.some.injEq, Prod.mk.injEq] at this
    intro i x hx
    by_cases h0 : i = 0
    · subst h0; simp at hx; subst hx; exact this.1
    · by_cases h1 : i = 1
      · subst h1; simp at hx; subst hx; exact this.2
      · simp [h0, h1] at hx
  · have h1 : (graphOf intCodec none ⟨0, 0, -1⟩ C88_example).bind (fun g => generate
      ⟨fun i => if i = 0 then [0] else if i = 1 then [1] else [], fun _ => engineStep g (-1) 2 C88_draws fun _ => 0,
        fun _ n t => List.replicate n (if t = 0 then 2 else 1)⟩ 2 1) = some [[(0, 1, 2)], [], [(1, 2, 2)], []] := by decide +kernel
    have h2 : (graphOf intCodec none ⟨0, 0, -1⟩ C88_example).bind (fun g => g.nodeType1 (-1) 1) = some 1 := by decide +kernel
    rw [hg] at h1 h2
    exact ⟨_, h1, rfl, h2⟩

/-- A list of one triple: training fails. -/
theorem C88_single_refuted : ∀ (V : Type) (net : Net V) (features : Int → V) (T count f : Nat)
    (nbrs : Nat → Nat → List Int → List (List Int)) (x : Int × Int × Int), tripleEmbeddings net features T count nbrs f [x] = none := by
  intro V net features T count f nbrs x
  unfold tripleEmbeddings hetAgg
  rw [show contentAgg net false (f / T) (buildContext features T (nbrs 0) ([x].map (·.1))).node = none by
    simp [contentAgg, buildContext]]
  simp

/-- Lists of different length: the loss is not the mean over the triples. -/
theorem C88_padding_refuted : forward C88_net (fun c p n => (c + p + n + 1 : Nat)) [[(1, 1, 1), (1, 1, 1)], []] = 10 / 4 ∧
    (([[(1, 1, 1), (1, 1, 1)], []] : List (List (Nat × Nat × Nat))).flatten.map fun x => ((x.1 + x.2.1 + x.2.2 + 1 : Nat) : Rat)).sum /
      2 = 4 := by
  decide +kernel

/-- The last node of a file gets no embedding, and if the last batch has one node there is an exception instead of it. -/
theorem C88_last_refuted : fileLoader 2 4 ([(3, 0), (1, 0), (7, 0), (5, 0)].map fileNode) = some [([1000003, 1000001], 0), ([1000007], 0)] ∧
    fileLoader 2 3 ([(3, 0), (1, 0), (7, 0)].map fileNode) = none := by decide +kernel

/-- Nodes of another type than 0 are taken for those of type 0, and all nodes of a batch are embedded with the type of the
first. -/
theorem C88_file_refuted : fileLoader 3 3 ([(5, 1), (6, 0), (7, 0)].map fileNode) = some [([1000005, 1000006], 1)] ∧
    mapNodeId (0, 5) = 1000005 ∧ mapNodeId (1, 5) = 2000005 := by decide +kernel

/-- `MockGraph` ignores the requested types: an author gets a paper as neighbour of type 0, author. -/
theorem C88_neighbor_types_refuted : ∀ choice, (MockGraph.init [[[(1, 0)]], [[(0, 0)]]]).sample1 1 choice 1000000 = some [(2000000, 1)] := by
  intro choice
  obtain ⟨out, h1, h2, h3⟩ := C88_mock_graph [[[(1, 0)]], [[(0, 0)]]] (t := 0) (k := 0) rfl rfl (by decide) (by decide) 1 choice
  obtain ⟨x, rfl⟩ := List.length_eq_one_iff.mp h2
  have := h3 x (by simp)
  simp at this
  rw [this] at h1
  exact h1

end DeepGNN
