import Verif.Model.Multihop
import Verif.Spec.Multihop
import Verif.Props.C03
import Verif.Props.C15
import Verif.Props.C19

namespace DeepGNN.Multihop

theorem length_flatten_uniform {α : Type} {k : Nat} : ∀ {rows : List (List α)}, (∀ r ∈ rows, r.length = k) →
    rows.flatten.length = rows.length * k
  | [], _ => by simp
  | r :: rows, h => by
    rw [List.flatten_cons, List.length_append, h r List.mem_cons_self,
      length_flatten_uniform fun x hx => h x (List.mem_cons_of_mem _ hx), List.length_cons, Nat.succ_mul]
    omega

/-- Entry `j` of the joined rows is in row `j / k`. -/
theorem flatten_uniform {α : Type} {k : Nat} : ∀ {rows : List (List α)}, (∀ r ∈ rows, r.length = k) → ∀ {j : Nat} {x : α},
    rows.flatten[j]? = some x → ∃ r, rows[j / k]? = some r ∧ r[j % k]? = some x
  | [], _, j, x, h => by simp at h
  | r :: rows, hk, j, x, h => by
    have hr := hk r List.mem_cons_self
    rw [List.flatten_cons] at h
    rcases Nat.lt_or_ge j k with hj | hj
    · rw [List.getElem?_append_left (by omega)] at h
      exact ⟨r, by rw [Nat.div_eq_of_lt hj]; rfl, by rw [Nat.mod_eq_of_lt hj]; exact h⟩
    · rw [List.getElem?_append_right (by omega), hr] at h
      obtain ⟨r', h1, h2⟩ := flatten_uniform (fun y hy => hk y (List.mem_cons_of_mem _ hy)) h
      have hk0 : 0 < k := by
        rcases Nat.eq_zero_or_pos k with h0 | h0
        · have h3 : r' ∈ r :: rows := List.mem_cons_of_mem _ (List.mem_of_getElem? h1)
          have h4 := hk r' h3
          have h5 := List.mem_of_getElem? h2
          rw [h0] at h4
          rw [List.eq_nil_of_length_eq_zero h4] at h5
          cases h5
        · exact h0
      refine ⟨r', ?_, ?_⟩
      · rw [Nat.div_eq_sub_div hk0 hj, List.getElem?_cons_succ]; exact h1
      · rw [Nat.mod_eq_sub_mod hj]; exact h2

/-- What a client is required to answer: one row of the right length per node, with right entries. -/
def Answers {α : Type} (sample : Nat → List Int → List Int → Nat → Option (List (List α))) (ok : List Int → Int → α → Prop)
    (types : List Int) (count : Nat) : Prop :=
  ∀ i nodes, ∃ rows, sample i nodes types count = some rows ∧ rows.length = nodes.length ∧
    ∀ y ∈ nodes.zip rows, y.2.length = count ∧ ∀ x ∈ y.2, ok types y.1 x

theorem fanoutLoop_spec {α : Type} {dst : α → Int} {sample : Nat → List Int → List Int → Nat → Option (List (List α))}
    {ok : List Int → Int → α → Prop} : ∀ (hops : List (List Int × Nat)), (∀ h ∈ hops, Answers sample ok h.1 h.2) →
      ∀ (i : Nat) (nodes : List Int), ∃ out, fanoutLoop dst sample i nodes hops = some out ∧ Spec.Fanout dst ok nodes hops out
  | [], _, _, _ => ⟨[], rfl, rfl⟩
  | (types, k) :: hops, ha, i, nodes => by
    obtain ⟨rows, h1, h2, h3⟩ := ha (types, k) List.mem_cons_self i nodes
    obtain ⟨out, h4, h5⟩ := fanoutLoop_spec hops (fun h hh => ha h (List.mem_cons_of_mem _ hh)) (i + 1) (rows.flatten.map dst)
    have hk : ∀ r ∈ rows, r.length = k := by
      intro r hr
      obtain ⟨j, hj, rfl⟩ := List.mem_iff_getElem.1 hr
      exact (h3 (nodes[j]'(by omega), rows[j])
        (by rw [← List.getElem_zip (h := by simp [h2]; omega)]; exact List.getElem_mem _)).1
    refine ⟨rows.flatten :: out, ?_, rows.flatten, out, rfl, ?_, ?_, h5⟩
    · rw [fanoutLoop, h1, Option.bind_some, h4, Option.map_some]
    · rw [length_flatten_uniform hk, h2]
    · intro j x hx
      obtain ⟨r, hr, hx2⟩ := flatten_uniform hk hx
      obtain ⟨hj, hr2⟩ := List.getElem?_eq_some_iff.1 hr
      refine ⟨nodes[j / k]'(by omega), List.getElem?_eq_getElem _, ?_⟩
      have := (h3 (nodes[j / k]'(by omega), rows[j / k])
        (by rw [← List.getElem_zip (h := by simp [h2]; omega)]; exact List.getElem_mem _)).2
      rw [hr2] at this
      exact this x (List.mem_of_getElem? hx2)

theorem answers_random {C : WeightCodec} {wm : Option Nat} {m : Meta} {parts : List (List (List Rec))} {g : Graph}
    (h : Built C wm m parts g) (R : Nat → Draws) (default : Int) (types : List Int) (count : Nat) :
    Answers (sampleRandom g R default) (fun types n x => x ∈ (Spec.neighbors parts n types).map Spec.reported ∨
      x = (default, -1)) types count := by
  intro i nodes
  obtain ⟨outs, s', h1, h2, h3⟩ := C15_only_neighbors h (R i) types count (default, -1)
    (nodes.map fun n => ((n, none), List.replicate count (default, -1)))
    (by intro q hq; obtain ⟨n, -, rfl⟩ := List.mem_map.1 hq; simp) 0
  refine ⟨outs, ?_, by simpa using h2, ?_⟩
  · rw [sampleRandom, h1, Option.map_some]
  · intro y hy
    have h4 := h3 ((((y.1 : Int), (none : Option Int)), List.replicate count (default, (-1 : Int))), y.2) (by
      rw [List.zip_map_left]
      exact List.mem_map.2 ⟨y, hy, rfl⟩)
    refine ⟨h4.1, fun x hx => ?_⟩
    rcases h4.2 with h5 | h5
    · exact Or.inl (h5 x hx)
    · have : y.2 = List.replicate count (default, -1) := h5
      rw [this] at hx
      exact Or.inr (List.eq_of_mem_replicate hx)

theorem answers_random_full {C : WeightCodec} {wm : Option Nat} {m : Meta} {parts : List (List (List Rec))} {g : Graph}
    (h : Built C wm m parts g) (R : Nat → Draws) (default : Int) (types : List Int) (count : Nat)
    (hgap : ∀ n, Spec.NoGap parts n types) :
    Answers (sampleRandom g R default) (fun types n x => (Spec.neighbors parts n types ≠ [] →
      x ∈ (Spec.neighbors parts n types).map Spec.reported) ∧ (Spec.neighbors parts n types = [] → x = (default, -1)))
      types count := by
  intro i nodes
  obtain ⟨outs, s', h1, h2, h3⟩ := C15_sampled_partial h (R i) types count (default, -1)
    (nodes.map fun n => ((n, none), List.replicate count (default, -1)))
    (by intro q hq; obtain ⟨n, -, rfl⟩ := List.mem_map.1 hq; simp) (fun q _ => hgap q.1.1) 0
  refine ⟨outs, ?_, by simpa using h2, ?_⟩
  · rw [sampleRandom, h1, Option.map_some]
  · intro y hy
    obtain ⟨h4, h5, h6⟩ := h3 ((((y.1 : Int), (none : Option Int)), List.replicate count (default, (-1 : Int))), y.2) (by
      rw [List.zip_map_left]
      exact List.mem_map.2 ⟨y, hy, rfl⟩)
    simp only [ne_eq, List.map_eq_nil_iff] at h4 h5 h6
    refine ⟨h4, fun x hx => ⟨fun hne => h5 hne x hx, fun he => ?_⟩⟩
    rw [h6 he] at hx
    exact List.eq_of_mem_replicate hx

theorem answers_weight {C : WeightCodec} {wm : Option Nat} {m : Meta} {parts : List (List (List Rec))} {g : Graph}
    (h : Built C wm m parts g) (D : Nat → Nat → WDraws) (hD : ∀ i j, (D i j).Ok) (default : Int) (types : List Int) (count : Nat)
    (hgap : ∀ n, Spec.NoGap parts n types) (hw : ∀ n, C19_weightsOk parts n types) :
    Answers (sampleByWeight g D default) (fun types n x =>
      (0 < ((Spec.neighbors parts n types).map (·.weight)).sum → x ∈ Spec.neighbors parts n types) ∧
      (((Spec.neighbors parts n types).map (·.weight)).sum = 0 → x = ⟨default, -1, 0⟩)) types count := by
  intro i nodes
  obtain ⟨outs, s', h1, h2, h3⟩ := C19_sampled_partial h (D i) (hD i) types count ⟨default, -1, 0⟩
    (nodes.map fun n => (n, List.replicate count ⟨default, -1, 0⟩))
    (by intro q hq; obtain ⟨n, -, rfl⟩ := List.mem_map.1 hq; simp) (fun q _ => hgap q.1) (fun q _ => hw q.1) 0
  refine ⟨outs, ?_, by simpa using h2, ?_⟩
  · rw [sampleByWeight, h1, Option.map_some]
  · intro y hy
    obtain ⟨h4, h5, h6⟩ := h3 ((y.1, List.replicate count ⟨default, -1, 0⟩), y.2) (by
      rw [List.zip_map_left]
      exact List.mem_map.2 ⟨y, hy, rfl⟩)
    refine ⟨h4, fun x hx => ⟨fun hp => (h5 hp x hx).1, fun hz => ?_⟩⟩
    have h7 := h6 hz
    simp only at h7
    rw [h7] at hx
    exact List.eq_of_mem_replicate hx

variable {C : WeightCodec} {wm : Option Nat} {m : Meta} {parts : List (List (List Rec))} {g : Graph}

theorem neighbors1 (h : Built C wm m parts g) (hw : Spec.ExactWeights parts) (types : List Int) (n : Int)
    (hgap : Spec.NoGap parts n types) :
    g.fullNeighbor1 none (sortUnique types) n = some (Spec.neighbors parts n types, (Spec.neighbors parts n types).length) := by
  have h0 : Spec.neighbors parts n (sortUnique types) = Spec.neighbors parts n types := by
    simp only [Spec.neighbors, sortUnique_mem]
  obtain ⟨nbrs, h1, -, h2⟩ := C03_complete_partial h n (sortUnique types) (sortUnique_sorted types) (by
    intro x hx y hy hxn hyn hyt hex
    simp only [sortUnique_mem] at hyt hex ⊢
    exact hgap x hx y hy hxn hyn hyt hex)
  rw [h0] at h1 h2
  have h3 := h2 hw
  subst h3
  simp only [Graph.fullNeighbor, List.mapM_cons, List.mapM_nil] at h1
  cases e : g.fullNeighbor1 none (sortUnique types) n with
  | none => rw [e] at h1; exact absurd h1 (by simp)
  | some r =>
    rw [e] at h1
    simp at h1
    rw [← h1.1]
    exact congrArg some (Prod.ext rfl (by rw [h1.2, h1.1]))

theorem neighborsAll (h : Built C wm m parts g) (hw : Spec.ExactWeights parts) (nodes types : List Int)
    (hgap : ∀ n, Spec.NoGap parts n types) :
    clientNeighbors g nodes types = some (nodes.flatMap fun n => Spec.neighbors parts n types,
      nodes.map fun n => (Spec.neighbors parts n types).length) := by
  have h1 : nodes.mapM (g.fullNeighbor1 none (sortUnique types)) =
      some (nodes.map fun n => (Spec.neighbors parts n types, (Spec.neighbors parts n types).length)) := by
    induction nodes with
    | nil => rfl
    | cons n nodes ih => rw [List.mapM_cons, neighbors1 h hw types n (hgap n), ih]; rfl
  simp only [clientNeighbors, Graph.fullNeighbor, h1]
  simp [List.flatMap_def, Function.comp_def]

theorem full_eq (h : Built C wm m parts g) (hw : Spec.ExactWeights parts) (nodes types : List Int)
    (hgap : ∀ n, Spec.NoGap parts n types) :
    fullNeighbor g nodes types = some (nodes.flatMap (fun n => Spec.neighbors parts n types),
      nodes.zipIdx.flatMap fun x => (List.range (Spec.neighbors parts x.1 types).length).map fun j => (x.2, j)) := by
  rw [fullNeighbor]
  split
  · rename_i he; subst he; rfl
  · rw [neighborsAll h hw nodes types hgap, Option.map_some, List.zipIdx_map, List.flatMap_map]
    rfl

theorem insertUnique_length (x : Int) : ∀ l, (insertUnique x l).length ≤ l.length + 1
  | [] => by simp [insertUnique]
  | y :: ys => by
    rw [insertUnique]
    have := insertUnique_length x ys
    split
    · simp
    · split <;> simp only [List.length_cons] <;> omega

theorem sortUnique_length : ∀ l, (sortUnique l).length ≤ l.length
  | [] => by simp [sortUnique]
  | x :: xs => by
    have h1 := sortUnique_length xs
    have h2 := insertUnique_length x (sortUnique xs)
    have : sortUnique (x :: xs) = insertUnique x (sortUnique xs) := rfl
    rw [this, List.length_cons]
    omega

theorem edges_nbrs (nodes types : List Int) {β : Type} (f : Nbr → β) (f' : Nat × Int × Int → β)
    (hf : ∀ i e, f' (i, e.dst, e.weight) = f e) :
    (nodes.flatMap fun n => Spec.neighbors parts n types).map f = (Spec.frontierEdges parts nodes types).map f' := by
  conv => lhs; rw [← List.zipIdx_map_fst 0 nodes]
  rw [List.flatMap_map, Spec.frontierEdges, List.map_flatMap, List.map_flatMap]
  simp only [List.map_map, Function.comp_def, hf]

theorem edges_idx (nodes types : List Int) :
    (nodes.zipIdx.flatMap fun x => (List.range (Spec.neighbors parts x.1 types).length).map fun j => (x.2, j)).map (·.1) =
      (Spec.frontierEdges parts nodes types).map (·.1) := by
  rw [Spec.frontierEdges, List.map_flatMap, List.map_flatMap]
  simp only [List.map_map, Function.comp_def, List.map_const', List.length_range]

theorem hop_eq (h : Built C wm m parts g) (hw : Spec.ExactWeights parts) (max : Nat) (types : List Int)
    (hgap : ∀ n, Spec.NoGap parts n types) (prev : Layer) :
    (max * prev.nodes.length < (Spec.frontierEdges parts (prev.nodes.take prev.len) types).length →
      hop g max types prev = none) ∧
    ((Spec.frontierEdges parts (prev.nodes.take prev.len) types).length ≤ max * prev.nodes.length →
      ∃ next adj, hop g max types prev = some (next, adj) ∧ Spec.HopOk parts max types prev next adj) := by
  have e1 := edges_nbrs (parts := parts) (prev.nodes.take prev.len) types (·.dst) (·.2.1) (fun _ _ => rfl)
  have e2 := edges_nbrs (parts := parts) (prev.nodes.take prev.len) types (·.weight) (·.2.2) (fun _ _ => rfl)
  have e3 := edges_idx (parts := parts) (prev.nodes.take prev.len) types
  have e5 := congrArg List.length e1
  have e6 := congrArg List.length e3
  rw [List.length_map, List.length_map] at e5 e6
  rw [hop]
  simp only [full_eq h hw _ types hgap, Option.bind_some]
  generalize hU : sortUnique ((List.flatMap (fun n => Spec.neighbors parts n types) (List.take prev.len prev.nodes)).map (·.dst)) = U
  have e4 := edges_nbrs (parts := parts) (prev.nodes.take prev.len) types (fun x => U.idxOf x.dst) (fun e => U.idxOf e.2.1)
    (fun _ _ => rfl)
  rw [e2, e3, e4]
  rw [if_neg (by rw [List.length_map]; omega), List.zip_map']
  have hmem : ∀ d, d ∈ U ↔ ∃ n ∈ prev.nodes.take prev.len, ∃ e ∈ Spec.neighbors parts n types, e.dst = d := by
    intro d
    rw [← hU, sortUnique_mem, List.mem_map]
    constructor
    · rintro ⟨e, he, hd⟩
      obtain ⟨n, hn, he⟩ := List.mem_flatMap.1 he
      exact ⟨n, hn, e, he, hd⟩
    · rintro ⟨n, hn, e, he, hd⟩
      exact ⟨e, List.mem_flatMap.2 ⟨n, hn, he⟩, hd⟩
  have hUlen : U.length ≤ (Spec.frontierEdges parts (prev.nodes.take prev.len) types).length := by
    rw [← e5, ← hU]
    have := sortUnique_length ((List.flatMap (fun n => Spec.neighbors parts n types) (List.take prev.len prev.nodes)).map (·.dst))
    rwa [List.length_map] at this
  constructor
  · intro hbig
    rw [if_pos (by rw [List.length_map]; exact hbig)]
  · intro hsmall
    rw [if_neg (by rw [List.length_map]; omega)]
    refine ⟨_, _, rfl, U, (Spec.frontierEdges parts (prev.nodes.take prev.len) types).map fun e => (e.1, U.idxOf e.2.1),
      ?_, hmem, rfl, ?_, rfl, ?_, rfl, ?_, ?_, ?_, ?_, rfl⟩
    · rw [← hU]; exact sortUnique_sorted _
    · simp only [pad, List.length_append, List.length_replicate]; omega
    · rw [List.map_map]
      apply List.map_congr_left
      intro e he
      have hd : e.2.1 ∈ U := by
        rw [← hU, sortUnique_mem, e1]
        exact List.mem_map_of_mem he
      simp only [Function.comp_def]
      rw [List.getElem?_eq_getElem (List.idxOf_lt_length_of_mem hd), List.getElem_idxOf]
    · simp only [pad, List.length_map]
    · simp only [pad, List.length_append, List.length_replicate, List.length_map]; omega
    · simp only [pad, List.length_append, List.length_replicate, List.length_map]; omega
    · rw [List.length_map]

theorem edges_le (nodes types : List Int) (max : Nat) (hm : ∀ n, (Spec.neighbors parts n types).length ≤ max) :
    (Spec.frontierEdges parts nodes types).length ≤ max * nodes.length := by
  rw [Spec.frontierEdges]
  generalize 0 = k
  induction nodes generalizing k with
  | nil => simp
  | cons n nodes ih =>
    rw [List.zipIdx_cons, List.flatMap_cons, List.length_append, List.length_map, List.length_cons, Nat.mul_succ]
    have := ih (k + 1); have := hm n
    simp only at *
    omega

theorem hops_spec (h : Built C wm m parts g) (hw : Spec.ExactWeights parts) (max : Nat) : ∀ (ts : List (List Int)),
    (∀ t ∈ ts, ∀ n, Spec.NoGap parts n t) → ∀ (prev : Layer) (out : List (Layer × Adj)), hops g max ts prev = some out →
      Spec.HopsOk parts max ts prev out
  | [], _, prev, out, e => (Option.some.inj e).symm
  | t :: ts, hg, prev, out, e => by
    rw [hops] at e
    have h1 := hop_eq h hw max t (hg t List.mem_cons_self) prev
    rcases Nat.lt_or_ge (max * prev.nodes.length) (Spec.frontierEdges parts (prev.nodes.take prev.len) t).length with h2 | h2
    · rw [h1.1 h2] at e; exact absurd e (by simp)
    · obtain ⟨next, adj, h3, h4⟩ := h1.2 h2
      rw [h3, Option.bind_some] at e
      obtain ⟨more, h5, h6⟩ := Option.map_eq_some_iff.1 e
      exact ⟨next, adj, more, h6.symm, h4, hops_spec h hw max ts (fun t' ht => hg t' (List.mem_cons_of_mem _ ht)) next more h5⟩

theorem hops_some (h : Built C wm m parts g) (hw : Spec.ExactWeights parts) (max : Nat) : ∀ (ts : List (List Int)),
    (∀ t ∈ ts, ∀ n, Spec.NoGap parts n t) → (∀ t ∈ ts, ∀ n, (Spec.neighbors parts n t).length ≤ max) →
      ∀ (prev : Layer), ∃ out, hops g max ts prev = some out
  | [], _, _, _ => ⟨_, rfl⟩
  | t :: ts, hg, hm, prev => by
    have h2 := edges_le (prev.nodes.take prev.len) t max (hm t List.mem_cons_self)
    obtain ⟨next, adj, h3, -⟩ := (hop_eq h hw max t (hg t List.mem_cons_self) prev).2
      (Nat.le_trans h2 (Nat.mul_le_mul_left _ (by rw [List.length_take]; omega)))
    obtain ⟨out, h4⟩ := hops_some h hw max ts (fun t' ht => hg t' (List.mem_cons_of_mem _ ht))
      (fun t' ht => hm t' (List.mem_cons_of_mem _ ht)) next
    refine ⟨(next, adj) :: out, ?_⟩
    rw [hops, h3, Option.bind_some, h4, Option.map_some]

end DeepGNN.Multihop
