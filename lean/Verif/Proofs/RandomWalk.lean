import Verif.Model.RandomWalk
import Verif.Spec.RandomWalk
import Verif.Proofs.SubGraph

namespace DeepGNN.RandomWalk

open Spec (Chain Edge)

variable {C : WeightCodec} {wm : Option Nat} {m : Meta} {parts : List (List (List Rec))} {g : Graph}

theorem chain_snoc {R : Int → Int → Prop} : ∀ {l : List Int} {a b : Int}, Chain R (l ++ [a]) → R a b → Chain R (l ++ [a] ++ [b])
  | [], a, b, _, h => ⟨h, trivial⟩
  | [x], a, b, h, h' => ⟨h.1, h', trivial⟩
  | x :: y :: l, a, b, h, h' => ⟨h.1, chain_snoc (l := y :: l) h.2 h'⟩

theorem pick_mem {x : Rat} {n : Int} : ∀ {acc : Rat} {l : List (Int × Rat)}, pick x acc l = some n → n ∈ l.map (·.1)
  | _, [], h => by cases h
  | acc, (a, w) :: l, h => by
    rw [pick] at h
    split at h
    · exact List.mem_cons_of_mem _ (pick_mem h)
    · cases h; exact List.mem_cons_self

theorem pick_some {x : Rat} : ∀ {acc : Rat} {l : List (Int × Rat)}, l ≠ [] → x ≤ acc + total l → ∃ n, pick x acc l = some n
  | _, [], h, _ => absurd rfl h
  | acc, (a, w) :: l, _, h => by
    rw [pick]
    split
    · rename_i hlt
      have e : acc + total ((a, w) :: l) = acc + w + total l := by
        simp only [total, List.map_cons, List.foldr_cons]
        grind
      rw [e] at h
      cases l with
      | nil =>
        simp only [total, List.map_nil, List.foldr_nil] at h
        grind
      | cons b l => exact pick_some (by simp) h
    · exact ⟨a, rfl⟩

/-- The step of a walk is along an edge, or back along one, or none was possible. -/
theorem step_ok {R : Int → Int → Prop} {p q u : Rat} {default : Int} {w w' : Walker} {nbs : List Nbr}
    (h : step p q u default w nbs = some w') (hn : ∀ n ∈ nbs, R w.curr n.dst)
    (hp : (w.nbs.lookup w.curr).isSome → R w.past w.curr) (hd : ∀ n ∈ nbs, n.dst ≠ default) (hk : (w.nbs.lookup default).isSome = false) :
    w'.row = w.row ++ [w'.curr] ∧ (R w.curr w'.curr ∨ R w'.curr w.curr ∨ w'.curr = default) ∧
      ((w'.nbs.lookup w'.curr).isSome → R w'.past w'.curr) ∧ (w'.nbs.lookup default).isSome = false := by
  rw [step] at h
  have lookup_mem : ∀ (l : List (Int × Int)) (k : Int), (l.lookup k).isSome → k ∈ l.map (·.1) := by
    intro l
    induction l with
    | nil => intro k h; simp at h
    | cons a l ih =>
      intro k h
      obtain ⟨a1, a2⟩ := a
      rw [List.lookup_cons] at h
      split at h
      · rename_i he
        simp only [beq_iff_eq] at he
        simp [he]
      · exact List.mem_cons_of_mem _ (ih k h)
  split at h
  · simp only [Option.some.injEq] at h
    subst h
    refine ⟨rfl, Or.inr (Or.inr rfl), ?_, hk⟩
    intro hx
    simp only [hk] at hx
    cases hx
  · rw [Option.map_eq_some_iff] at h
    obtain ⟨next, h1, rfl⟩ := h
    have h2 := pick_mem h1
    refine ⟨rfl, ?_, ?_, ?_⟩
    · rw [transitions, List.map_append, List.mem_append] at h2
      rcases h2 with h2 | h2
      · cases hl : w.nbs.lookup w.curr with
        | none => rw [hl] at h2; simp at h2
        | some x =>
          rw [hl] at h2
          simp only [List.map_cons, List.map_nil, List.mem_singleton] at h2
          refine Or.inr (Or.inl ?_)
          simp only
          rw [h2]
          exact hp (by rw [hl]; rfl)
      · simp only [List.mem_map, List.mem_filterMap] at h2
        obtain ⟨y, ⟨n, hnm, hy⟩, rfl⟩ := h2
        refine Or.inl ?_
        split at hy
        · cases hy
        · split at hy <;>
          · cases hy
            exact hn n hnm
    · intro hx
      have := lookup_mem _ _ hx
      simp only [List.map_map, List.mem_map, Function.comp_apply] at this
      obtain ⟨n, hnm, he⟩ := this
      simp only
      rw [← he]
      exact hn n hnm
    · cases hl : (List.lookup default (nbs.map fun n => (n.dst, n.weight))).isSome with
      | false => rfl
      | true =>
        have := lookup_mem _ _ hl
        simp only [List.map_map, List.mem_map, Function.comp_apply] at this
        obtain ⟨n, hnm, he⟩ := this
        exact absurd he (hd n hnm)

/-- What holds of a walk after some steps. -/
structure Ok (R : Int → Int → Prop) (default : Int) (n : Int) (k : Nat) (w : Walker) : Prop where
  row : ∃ l, w.row = l ++ [w.curr]
  walk : Spec.WalkRow (fun a b => R a b ∨ R b a) default k n w.row
  parent : (w.nbs.lookup w.curr).isSome → R w.past w.curr
  keys : (w.nbs.lookup default).isSome = false

theorem Ok.step {R : Int → Int → Prop} {p q u : Rat} {default n : Int} {k : Nat} {w w' : Walker} {nbs : List Nbr} (h : Ok R default n k w)
    (hs : step p q u default w nbs = some w') (hn : ∀ x ∈ nbs, R w.curr x.dst) (hd : ∀ x ∈ nbs, x.dst ≠ default) : Ok R default n (k + 1) w' := by
  obtain ⟨h1, h2, h3, h4⟩ := step_ok hs hn h.parent hd h.keys
  refine ⟨⟨w.row, h1⟩, ⟨?_, ?_, ?_⟩, h3, h4⟩
  · rw [h1, List.length_append, h.walk.1]; rfl
  · rw [h1, List.head?_append, h.walk.2.1]; rfl
  · obtain ⟨l, hl⟩ := h.row
    have hc := h.walk.2.2
    rw [hl] at hc
    rw [h1, hl]
    apply chain_snoc hc
    rcases h2 with h2 | h2 | h2
    · exact Or.inl (Or.inl h2)
    · exact Or.inl (Or.inr h2)
    · exact Or.inr h2

/-- Walks and nodes side by side. -/
def AllOk (R : Int → Int → Prop) (default : Int) (k : Nat) : List Int → List Walker → Prop
  | [], [] => True
  | n :: ns, w :: ws => Ok R default n k w ∧ AllOk R default k ns ws
  | _, _ => False

theorem stepAll_ok {R : Int → Int → Prop} {p q : Rat} {u : Nat → Rat} {default : Int} {k : Nat} (N : Int → List Nbr)
    (hN : ∀ a, ∀ x ∈ N a, R a x.dst ∧ x.dst ≠ default) : ∀ {ns : List Int} {i : Nat} {ws ws' : List Walker}, AllOk R default k ns ws →
    stepAll p q default u i ws (ws.flatMap fun w => N w.curr) (ws.map fun w => (N w.curr).length) = some ws' →
    AllOk R default (k + 1) ns ws'
  | [], _, [], ws', _, h => by cases h; trivial
  | n :: ns, i, w :: ws, ws', ha, h => by
    rw [List.flatMap_cons, List.map_cons, stepAll, List.take_left, List.drop_left, Option.bind_eq_some_iff] at h
    obtain ⟨w', h1, h2⟩ := h
    rw [Option.map_eq_some_iff] at h2
    obtain ⟨ws'', h3, rfl⟩ := h2
    exact ⟨ha.1.step h1 (fun x hx => (hN _ x hx).1) (fun x hx => (hN _ x hx).2), stepAll_ok N hN ha.2 h3⟩

/-- Neighbours found are ends of edges; weights are those of the files. -/
theorem clientNeighbors_fn (h : Built C wm m parts g) (types : List Int) (hgap : ∀ n, Spec.NoGap parts n types) :
    ∃ N : Int → List Nbr, (∀ nodes, Multihop.clientNeighbors g nodes types =
      some (nodes.flatMap N, nodes.map fun n => (N n).length)) ∧
      ∀ n, (N n).map (·.dst) = (Spec.neighbors parts n types).map (·.dst) := by
  have h1 : ∀ n, ∃ l, g.fullNeighbor1 none (sortUnique types) n = some (l, (Spec.neighbors parts n types).length) ∧
      l.map (·.dst) = (Spec.neighbors parts n types).map (·.dst) := fun n => SubGraph.neighbors1_dst h types n (hgap n)
  obtain ⟨N, hN⟩ := Classical.axiomOfChoice h1
  refine ⟨N, ?_, fun n => (hN n).2⟩
  intro nodes
  have h2 : ∀ n, (Spec.neighbors parts n types).length = (N n).length := by
    intro n
    have := congrArg List.length (hN n).2
    simpa using this.symm
  have h3 : nodes.mapM (g.fullNeighbor1 none (sortUnique types)) = some (nodes.map fun n => (N n, (N n).length)) := by
    induction nodes with
    | nil => rfl
    | cons n nodes ih =>
      rw [List.mapM_cons, (hN n).1, ih, h2 n]
      rfl
  simp only [Multihop.clientNeighbors, Graph.fullNeighbor, h3]
  simp [List.flatMap_def, Function.comp_def]

/-- Neighbours found are ends of edges. -/
theorem clientNeighbors_edge (h : Built C wm m parts g) (types : List Int) :
    ∃ N : Int → List Nbr, (∀ nodes, Multihop.clientNeighbors g nodes types =
      some (nodes.flatMap N, nodes.map fun n => (N n).length)) ∧ ∀ n, ∀ x ∈ N n, Edge parts types n x.dst := by
  have h1 : ∀ n, ∃ l : List Nbr, g.fullNeighbor1 none (sortUnique types) n = some (l, l.length) ∧
      ∀ x ∈ l, Edge parts types n x.dst := by
    intro n
    obtain ⟨l, h1, h2⟩ := C03_only_requested h n (sortUnique types)
    refine ⟨l, ?_, ?_⟩
    · simp only [Graph.fullNeighbor, List.mapM_cons, List.mapM_nil, Option.bind_eq_bind, Option.pure_def] at h1
      cases h3 : g.fullNeighbor1 none (sortUnique types) n with
      | none => rw [h3] at h1; simp at h1
      | some r =>
        rw [h3] at h1
        simp only [Option.bind_some, List.map_cons, List.map_nil, List.flatten_cons, List.flatten_nil, List.append_nil,
          Option.some.injEq, Prod.mk.injEq, List.cons.injEq, and_true] at h1
        exact congrArg some (Prod.ext h1.1 h1.2)
    · intro x hx
      have h3 := h2.subset (List.mem_map_of_mem (f := fun x : Nbr => (x.dst, x.typ)) hx)
      obtain ⟨y, hy, he⟩ := List.mem_map.1 h3
      have h4 : Spec.neighbors parts n (sortUnique types) = Spec.neighbors parts n types := by
        simp only [Spec.neighbors, sortUnique_mem]
      rw [h4] at hy
      rw [← (Prod.mk.inj he).1]
      exact SubGraph.mem_dst.1 (List.mem_map_of_mem hy)
  obtain ⟨N, hN⟩ := Classical.axiomOfChoice h1
  refine ⟨N, ?_, fun n => (hN n).2⟩
  intro nodes
  have h3 : nodes.mapM (g.fullNeighbor1 none (sortUnique types)) = some (nodes.map fun n => (N n, (N n).length)) := by
    induction nodes with
    | nil => rfl
    | cons n nodes ih =>
      rw [List.mapM_cons, (hN n).1, ih]
      rfl
  simp only [Multihop.clientNeighbors, Graph.fullNeighbor, h3]
  simp [List.flatMap_def, Function.comp_def]

theorem walkLoop_ok (h : Built C wm m parts g) {types : List Int} {p q : Rat} {default : Int}
    {D : Nat → Nat → Rat} (hdef : ∀ a, ¬ Edge parts types a default) {nodes : List Int} : ∀ {k j i : Nat} {ws ws' : List Walker},
    AllOk (Edge parts types) default j nodes ws → walkLoop g types p q default D k i ws = some ws' →
    AllOk (Edge parts types) default (j + k) nodes ws'
  | 0, j, i, ws, ws', ha, hw => by cases hw; exact ha
  | k + 1, j, i, ws, ws', ha, hw => by
    obtain ⟨N, h1, h2⟩ := clientNeighbors_edge h types
    rw [walkLoop, h1, Option.bind_some, List.flatMap_map, List.map_map, Option.bind_eq_some_iff] at hw
    obtain ⟨ws'', h3, h4⟩ := hw
    have hN : ∀ a, ∀ x ∈ N a, Edge parts types a x.dst ∧ x.dst ≠ default := by
      intro a x hx
      have he := h2 a x hx
      exact ⟨he, fun e => hdef a (e ▸ he)⟩
    have h5 := stepAll_ok N hN ha h3
    have := walkLoop_ok h hdef h5 h4
    rwa [show j + 1 + k = j + (k + 1) by omega] at this

theorem allOk_init (R : Int → Int → Prop) (default : Int) : ∀ nodes : List Int,
    AllOk R default 0 nodes (nodes.map fun n => ⟨[n], n, n, []⟩)
  | [] => trivial
  | n :: nodes => ⟨⟨⟨[], rfl⟩, ⟨rfl, rfl, trivial⟩, by simp, rfl⟩, allOk_init R default nodes⟩

theorem allOk_get {R : Int → Int → Prop} {default : Int} {k : Nat} : ∀ {ns : List Int} {ws : List Walker}, AllOk R default k ns ws →
    ws.length = ns.length ∧ ∀ (i : Nat) (n : Int) (w : Walker), ns[i]? = some n → ws[i]? = some w → Ok R default n k w
  | [], [], _ => ⟨rfl, by simp⟩
  | n :: ns, w :: ws, h => by
    have ih := allOk_get h.2
    refine ⟨by simp [ih.1], ?_⟩
    intro i n' w' hn hw
    cases i with
    | zero =>
      simp only [List.getElem?_cons_zero, Option.some.injEq] at hn hw
      subst hn; subst hw
      exact h.1
    | succ i =>
      rw [List.getElem?_cons_succ] at hn hw
      exact ih.2 i n' w' hn hw

theorem step_some {p q u : Rat} {default : Int} {w : Walker} {nbs : List Nbr} (hp : 0 < p) (hq : 0 < q) (hu : u ≤ 1)
    (hn : ∀ n ∈ nbs, 0 ≤ n.weight) (hw : ∀ x ∈ w.nbs, 0 ≤ x.2) :
    ∃ w', step p q u default w nbs = some w' ∧ ∀ x ∈ w'.nbs, 0 ≤ x.2 := by
  rw [step]
  split
  · exact ⟨_, rfl, hw⟩
  · rename_i hl
    have hdiv : ∀ (a : Int) (b : Rat), 0 ≤ a → 0 < b → 0 ≤ (a : Rat) / b := by
      intro a b ha hb
      rw [Rat.div_def]
      exact Rat.mul_nonneg (Rat.intCast_nonneg.2 ha) (Rat.le_of_lt (Rat.inv_pos.2 hb))
    have hpos : ∀ x ∈ transitions p q w nbs, 0 ≤ x.2 := by
      intro x hx
      rw [transitions, List.mem_append] at hx
      rcases hx with hx | hx
      · cases hk : w.nbs.lookup w.curr with
        | none => rw [hk] at hx; simp at hx
        | some y =>
          rw [hk] at hx
          simp only [List.mem_singleton] at hx
          rw [hx]
          have hy : (w.curr, y) ∈ w.nbs := by
            clear hx hl hw
            generalize w.nbs = l at hk ⊢
            induction l with
            | nil => simp at hk
            | cons a l ih =>
              obtain ⟨a1, a2⟩ := a
              rw [List.lookup_cons] at hk
              split at hk
              · rename_i he
                simp only [beq_iff_eq] at he
                cases hk
                rw [he]
                exact List.mem_cons_self
              · exact List.mem_cons_of_mem _ (ih hk)
          exact hdiv y p (hw _ hy) hp
      · simp only [List.mem_filterMap] at hx
        obtain ⟨n, hnm, hy⟩ := hx
        split at hy
        · cases hy
        · split at hy
          · cases hy
            exact Rat.intCast_nonneg.2 (hn n hnm)
          · cases hy
            exact hdiv _ q (hn n hnm) hq
    have htot : ∀ l : List (Int × Rat), (∀ x ∈ l, 0 ≤ x.2) → 0 ≤ total l := by
      intro l
      induction l with
      | nil => intro _; simp [total]
      | cons a l ih =>
        intro h
        have h1 := ih fun x hx => h x (List.mem_cons_of_mem _ hx)
        have h2 := h a List.mem_cons_self
        simp only [total, List.map_cons, List.foldr_cons] at h1 ⊢
        exact Rat.add_nonneg h2 h1
    have hle : total (transitions p q w nbs) * u ≤ 0 + total (transitions p q w nbs) := by
      have h1 := htot _ hpos
      rw [Rat.zero_add]
      have := Rat.mul_le_mul_of_nonneg_left hu h1
      rwa [Rat.mul_one] at this
    obtain ⟨n, hn'⟩ := pick_some hl hle
    refine ⟨_, by rw [hn']; rfl, ?_⟩
    intro x hx
    simp only [List.mem_map] at hx
    obtain ⟨y, hy, rfl⟩ := hx
    exact hn y hy

theorem stepAll_some {p q : Rat} {u : Nat → Rat} {default : Int} (hp : 0 < p) (hq : 0 < q) (hu : ∀ i, u i ≤ 1) (N : Int → List Nbr)
    (hN : ∀ a, ∀ x ∈ N a, 0 ≤ x.weight) : ∀ {i : Nat} {ws : List Walker}, (∀ w ∈ ws, ∀ x ∈ w.nbs, 0 ≤ x.2) →
    ∃ ws', stepAll p q default u i ws (ws.flatMap fun w => N w.curr) (ws.map fun w => (N w.curr).length) = some ws' ∧
      ∀ w ∈ ws', ∀ x ∈ w.nbs, 0 ≤ x.2
  | i, [], _ => ⟨[], rfl, by simp⟩
  | i, w :: ws, h => by
    obtain ⟨w', h1, h2⟩ := step_some (u := u i) (default := default) hp hq (hu i) (hN w.curr) (h w List.mem_cons_self)
    obtain ⟨ws', h3, h4⟩ := stepAll_some (default := default) hp hq hu N hN (i := i + 1) (ws := ws)
      (fun v hv => h v (List.mem_cons_of_mem _ hv))
    refine ⟨w' :: ws', ?_, ?_⟩
    · rw [List.flatMap_cons, List.map_cons, stepAll, List.take_left, List.drop_left, h1, Option.bind_some, h3]
      rfl
    · intro v hv
      rcases List.mem_cons.1 hv with rfl | hv
      · exact h2
      · exact h4 v hv

theorem walkLoop_some (h : Built C wm m parts g) (hw : Spec.ExactWeights parts) {types : List Int} (hgap : ∀ n, Spec.NoGap parts n types)
    (hpos : ∀ n, ∀ x ∈ Spec.neighbors parts n types, 0 ≤ x.weight) {p q : Rat} {default : Int} {D : Nat → Nat → Rat} (hp : 0 < p) (hq : 0 < q)
    (hu : ∀ i j, D i j ≤ 1) : ∀ {k i : Nat} {ws : List Walker}, (∀ w ∈ ws, ∀ x ∈ w.nbs, 0 ≤ x.2) →
    ∃ ws', walkLoop g types p q default D k i ws = some ws'
  | 0, i, ws, _ => ⟨ws, rfl⟩
  | k + 1, i, ws, hws => by
    obtain ⟨ws', h1, h2⟩ := stepAll_some (default := default) hp hq (hu i) (fun n => Spec.neighbors parts n types) hpos (i := 0) hws
    obtain ⟨ws'', h3⟩ := walkLoop_some h hw hgap hpos (default := default) (D := D) hp hq hu (k := k) (i := i + 1) h2
    refine ⟨ws'', ?_⟩
    rw [walkLoop, Multihop.neighborsAll h hw _ types hgap, Option.bind_some, List.flatMap_map, List.map_map]
    have h1' : stepAll p q default (D i) 0 ws (List.flatMap (fun a => Spec.neighbors parts a.curr types) ws)
      (List.map ((fun n => (Spec.neighbors parts n types).length) ∘ fun x => x.curr) ws) = some ws' := h1
    rw [h1', Option.bind_some, h3]

end DeepGNN.RandomWalk
