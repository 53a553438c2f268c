import Verif.Proofs.Node2vec
import Verif.Props.C41

/-
C42: random walks follow edges.
-/

namespace DeepGNN

open RandomWalk

variable {C : WeightCodec} {wm : Option Nat} {m : Meta} {parts : List (List (List Rec))} {g : Graph}

/-- C42 (partial: a step may go against an edge, and no edge leads to the default node): for all starts, walk
lengths, parameters and random numbers, there is one row per start with `walk_len + 1` entries, the start first, and every step is along
an edge of the graph, or along an edge backwards, or yields the default node. -/
theorem C42_walk_partial (h : Built C wm m parts g) {types : List Int} {p q : Rat} {default : Int}
    {D : Nat → Nat → Rat} (hdef : ∀ a, ¬ Spec.Edge parts types a default) {nodes : List Int} {len : Nat} {rows : List (List Int)}
    (hr : randomWalk g nodes types len p q default D = some rows) :
    rows.length = nodes.length ∧ ∀ (i : Nat) (n : Int) (row : List Int), nodes[i]? = some n → rows[i]? = some row →
      Spec.WalkRow (fun a b => Spec.Edge parts types a b ∨ Spec.Edge parts types b a) default len n row := by
  rw [randomWalk, Option.map_eq_some_iff] at hr
  obtain ⟨ws, h1, rfl⟩ := hr
  have h2 := walkLoop_ok h hdef (allOk_init _ default nodes) h1
  rw [Nat.zero_add] at h2
  have h3 := allOk_get h2
  refine ⟨by rw [List.length_map, h3.1], ?_⟩
  intro i n row hn hrow
  rw [List.getElem?_map, Option.map_eq_some_iff] at hrow
  obtain ⟨w, hw, rfl⟩ := hrow
  exact (h3.2 i n w hn hw).walk

/-- On graphs with every edge in both directions the steps are along edges. -/
theorem C42_undirected (h : Built C wm m parts g) {types : List Int} {p q : Rat} {default : Int}
    {D : Nat → Nat → Rat} (hdef : ∀ a, ¬ Spec.Edge parts types a default)
    (hsym : ∀ a b, Spec.Edge parts types a b → Spec.Edge parts types b a) {nodes : List Int} {len : Nat} {rows : List (List Int)}
    (hr : randomWalk g nodes types len p q default D = some rows) :
    rows.length = nodes.length ∧ ∀ (i : Nat) (n : Int) (row : List Int), nodes[i]? = some n → rows[i]? = some row →
      Spec.WalkRow (Spec.Edge parts types) default len n row := by
  have h1 := C42_walk_partial h hdef hr
  refine ⟨h1.1, ?_⟩
  intro i n row hn hrow
  obtain ⟨a, b, c⟩ := h1.2 i n row hn hrow
  refine ⟨a, b, ?_⟩
  clear a b hn hrow
  have key : ∀ l : List Int, Spec.Chain (fun a b => (Spec.Edge parts types a b ∨ Spec.Edge parts types b a) ∨ b = default) l →
      Spec.Chain (fun a b => Spec.Edge parts types a b ∨ b = default) l := by
    intro l
    induction l with
    | nil => intro _; trivial
    | cons x l ih =>
      cases l with
      | nil => intro _; trivial
      | cons y l =>
        intro hc
        refine ⟨?_, ih hc.2⟩
        rcases hc.1 with (h1 | h1) | h1
        · exact Or.inl h1
        · exact Or.inl (hsym _ _ h1)
        · exact Or.inr h1
  exact key row c

/-- A walk returns, for positive parameters and random numbers up to 1, if weights are not negative (and exact, C02). -/
theorem C42_returns (h : Built C wm m parts g) (hw : Spec.ExactWeights parts) {types : List Int} (hgap : ∀ n, Spec.NoGap parts n types)
    (hpos : ∀ n, ∀ x ∈ Spec.neighbors parts n types, 0 ≤ x.weight) {p q : Rat} (hp : 0 < p) (hq : 0 < q) (default : Int)
    {D : Nat → Nat → Rat} (hD : ∀ i j, D i j ≤ 1) (nodes : List Int) (len : Nat) :
    ∃ rows, randomWalk g nodes types len p q default D = some rows := by
  obtain ⟨ws, hws⟩ := walkLoop_some h hw hgap hpos (default := default) hp hq hD (k := len) (i := 0)
    (ws := nodes.map fun n => ⟨[n], n, n, []⟩) (by
      intro w hw
      simp only [List.mem_map] at hw
      obtain ⟨n, -, rfl⟩ := hw
      simp)
  exact ⟨_, by rw [randomWalk, hws]; rfl⟩

theorem C42_edgeWeight_pos {types : List Int} (hpos : ∀ n, ∀ x ∈ Spec.neighbors parts n types, 0 < x.weight) {a b : Int} :
    Spec.Edge parts types a b ↔ 0 < Spec.edgeWeight parts types a b := by
  rw [← SubGraph.mem_dst, Spec.edgeWeight]
  have hp := hpos a
  generalize Spec.neighbors parts a types = l at hp ⊢
  induction l with
  | nil => simp
  | cons n l ih =>
    have h1 := ih fun x hx => hp x (List.mem_cons_of_mem _ hx)
    have h2 := hp n List.mem_cons_self
    rw [List.map_cons, List.mem_cons]
    by_cases he : n.dst = b
    · rw [List.filter_cons_of_pos (by simpa using he), List.map_cons, List.sum_cons]
      have : 0 ≤ ((l.filter fun x => decide (x.dst = b)).map (·.weight)).sum := by
        have hp' : ∀ x ∈ l, 0 < x.weight := fun x hx => hp x (List.mem_cons_of_mem _ hx)
        clear h1 ih hp
        induction l with
        | nil => simp
        | cons y l ih =>
          have := ih fun x hx => hp' x (List.mem_cons_of_mem _ hx)
          have := hp' y List.mem_cons_self
          rw [List.filter_cons]
          split
          · rw [List.map_cons, List.sum_cons]; omega
          · assumption
      constructor
      · intro _; omega
      · intro _; exact Or.inl he.symm
    · rw [List.filter_cons_of_neg (by simpa using he)]
      constructor
      · rintro (h | h)
        · exact absurd h.symm he
        · exact h1.1 h
      · exact fun h => Or.inr (h1.2 h)

/-- The transition weights are those of node2vec: on graphs with every edge in both directions, of the same weight and at most one between
two nodes, the random number of a step that follows a step from `a` to `b` chooses the next node with a share in proportion to its node2vec
weight.  Other walks and earlier steps are arbitrary. -/
theorem C42_node2vec (h : Built C wm m parts g) (hw : Spec.ExactWeights parts) {types : List Int} (hgap : ∀ n, Spec.NoGap parts n types)
    (hpos : ∀ n, ∀ x ∈ Spec.neighbors parts n types, 0 < x.weight) {p q : Rat} (hp : 0 < p) (hq : 0 < q) {default : Int}
    (hdef : ∀ a, ¬ Spec.Edge parts types a default)
    (hsym : ∀ a b, Spec.edgeWeight parts types a b = Spec.edgeWeight parts types b a)
    (hone : ∀ a, ((Spec.neighbors parts a types).map (·.dst)).Nodup)
    {D : Nat → Nat → Rat} (hD : ∀ i j, D i j ≤ 1) {nodes : List Int} {len : Nat} {rows : List (List Int)}
    (hr : randomWalk g nodes types (len + 1) p q default D = some rows) {j : Nat} {pre : List Int} {a b : Int}
    (hj : rows[j]? = some (pre ++ [a, b])) (hb : b ≠ default) :
    ∃ next : Rat → Int, Spec.Proportional next (Spec.node2vec parts types p q a b) ∧ ∀ u, u ≤ 1 → ∃ rows',
      randomWalk g nodes types (len + 2) p q default (fun i k => if i = len + 1 ∧ k = j then u else D i k) = some rows' ∧
      rows'[j]? = some (pre ++ [a, b, next u]) := by
  have hE := @C42_edgeWeight_pos parts types hpos
  have hsymE : ∀ a b, Spec.Edge parts types a b → Spec.Edge parts types b a := fun a b hab => by
    rw [hE, hsym, ← hE]; exact hab
  -- the step from `a` to `b` is along an edge
  have hab : Spec.Edge parts types a b := by
    have h1 := C42_undirected h hdef hsymE hr
    have hjl : j < nodes.length := by
      have := (List.getElem?_eq_some_iff.1 hj).1; omega
    have h2 := (h1.2 j _ _ (List.getElem?_eq_getElem hjl) hj).2.2
    have key : ∀ pre : List Int, Spec.Chain (fun a b => Spec.Edge parts types a b ∨ b = default) (pre ++ [a, b]) →
        Spec.Edge parts types a b ∨ b = default := by
      intro pre
      induction pre with
      | nil => intro hc; exact hc.1
      | cons x pre ih =>
        intro hc
        cases pre with
        | nil => exact ih hc.2
        | cons y pre => exact ih hc.2
    rcases key pre h2 with h3 | h3
    · exact h3
    · exact absurd h3 hb
  -- the walk before the step
  rw [randomWalk, Option.map_eq_some_iff] at hr
  obtain ⟨ws, h1, rfl⟩ := hr
  rw [List.getElem?_map, Option.map_eq_some_iff] at hj
  obtain ⟨w, hwj, hrow⟩ := hj
  have hN : ∀ ws : List Walker, Multihop.clientNeighbors g (ws.map (·.curr)) types =
      some (ws.flatMap (fun w => Spec.neighbors parts w.curr types), ws.map fun w => (Spec.neighbors parts w.curr types).length) := by
    intro ws
    rw [Multihop.neighborsAll h hw _ types hgap, List.flatMap_map, List.map_map]; rfl
  have htrail : Trail (fun n => Spec.neighbors parts n types) default w := by
    have h2 := h1
    rw [walkLoop_snoc, Option.bind_eq_some_iff] at h2
    obtain ⟨ws0, h3, h4⟩ := h2
    rw [hN, Option.bind_some] at h4
    have h5 : ∀ w ∈ ws0, ∃ l, w.row = l ++ [w.curr] := by
      have h6 := allOk_get (walkLoop_ok h hdef (allOk_init _ default nodes) h3)
      intro v hv
      obtain ⟨i, hi⟩ := List.mem_iff_getElem?.1 hv
      have hil : i < nodes.length := by
        have := (List.getElem?_eq_some_iff.1 hi).1; omega
      exact (h6.2 i _ v (List.getElem?_eq_getElem hil) hi).row
    exact (stepAll_trail h5 h4 w (List.mem_of_getElem? hwj)).1
  have hlast : w.past = a ∧ w.curr = b := by
    have h6 := allOk_get (walkLoop_ok h hdef (allOk_init _ default nodes) h1)
    have hjl : j < nodes.length := by
      have := (List.getElem?_eq_some_iff.1 hwj).1; omega
    obtain ⟨l, hl⟩ := (h6.2 j _ w (List.getElem?_eq_getElem hjl) hwj).row
    have hc : w.curr = b := by
      rw [hrow, show pre ++ [a, b] = (pre ++ [a]) ++ [b] by simp] at hl
      exact (List.append_inj' hl rfl).2 |> fun h => by injection h with h; exact h.symm
    rcases htrail with h7 | ⟨-, pre', h7⟩
    · exact absurd (hc ▸ h7) hb
    · rw [hrow] at h7
      have := (List.append_inj' h7 rfl).2
      injection this with e1 e2
      exact ⟨e1.symm, hc⟩
  have hnbs : w.nbs = (Spec.neighbors parts a types).map (fun n => (n.dst, n.weight)) := by
    rcases htrail with h7 | ⟨h7, -⟩
    · exact absurd (hlast.2 ▸ h7) hb
    · rw [h7, hlast.1]
  -- its transitions
  obtain ⟨x, hx⟩ := Option.isSome_iff_exists.1 (lookup_isSome.2 (SubGraph.mem_dst.2 hab))
  have hxw : Spec.edgeWeight parts types b a = x := by
    rw [hsym, Spec.edgeWeight]; exact lookup_sum (hone a) hx
  have hxpos : 0 < x := hxw ▸ hE.1 (hsymE _ _ hab)
  have htr : transitions p q w (Spec.neighbors parts b types) = (a, (x : Rat) / p) ::
      (Spec.neighbors parts b types).filterMap fun n => if n.dst = a then none
        else if (((Spec.neighbors parts a types).map (fun n => (n.dst, n.weight))).lookup n.dst).isSome then some (n.dst, (n.weight : Rat))
        else some (n.dst, (n.weight : Rat) / q) := by
    rw [transitions, hnbs, hlast.1, hlast.2, hx]; rfl
  have hdivp : ∀ (a : Int) (b : Rat), 0 < a → 0 < b → 0 < (a : Rat) / b := by
    intro a b ha hb
    rw [Rat.div_def]
    exact Rat.mul_pos (Rat.intCast_pos.2 ha) (Rat.inv_pos.2 hb)
  obtain ⟨next, hn1, hn2⟩ := step_share (p := p) (q := q) (default := default) (w := w) (nbs := Spec.neighbors parts b types)
    (weight := Spec.node2vec parts types p q a b) (scale := 1) (by decide) (by rw [htr]; exact List.cons_ne_nil _ _) (by
      rw [htr]
      intro y hy
      rcases List.mem_cons.1 hy with rfl | hy
      · exact hdivp x p hxpos hp
      · simp only [List.mem_filterMap] at hy
        obtain ⟨n, hnm, hy⟩ := hy
        split at hy
        · cases hy
        · split at hy
          · cases hy
            exact Rat.intCast_pos.2 (hpos b n hnm)
          · cases hy
            exact hdivp _ q (hpos b n hnm) hq) (by
      intro c
      rw [htr, Rat.one_mul, Spec.node2vec]
      have he := explored_sum (q := q) a c
        (fun d => (((Spec.neighbors parts a types).map (fun n => (n.dst, n.weight))).lookup d).isSome) (Spec.neighbors parts b types)
      by_cases hca : c = a
      · rw [if_pos hca] at he ⊢
        rw [List.filter_cons_of_pos (by simpa using hca.symm), List.map_cons, List.sum_cons, he, Rat.add_zero, hca, hxw]
      · rw [if_neg hca] at he ⊢
        rw [List.filter_cons_of_neg (by simpa using fun h => hca h.symm), he]
        have hiff := lookup_isSome (b := c) (l := Spec.neighbors parts a types)
        rw [SubGraph.mem_dst] at hiff
        by_cases hac : Spec.Edge parts types a c
        · rw [if_pos (hiff.2 hac), if_pos hac]; rfl
        · rw [if_neg fun h => hac (hiff.1 h), if_neg hac]; rfl)
  refine ⟨next, hn1, fun u hu => ?_⟩
  have hD' : ∀ i k, (if i = len + 1 ∧ k = j then u else D i k) ≤ 1 := by
    intro i k; split
    · exact hu
    · exact hD i k
  obtain ⟨rows', hr'⟩ := C42_returns h hw hgap (fun n x hx => by have := hpos n x hx; omega) hp hq default hD' nodes (len + 2)
  refine ⟨rows', hr', ?_⟩
  rw [randomWalk, Option.map_eq_some_iff] at hr'
  obtain ⟨ws', h2, rfl⟩ := hr'
  rw [walkLoop_snoc, walkLoop_congr (D' := D) _ (fun t _ ht => by
    funext k; rw [if_neg (fun h => by omega)]), h1, Option.bind_some, hN, Option.bind_some] at h2
  obtain ⟨w', h3, h4⟩ := stepAll_get (fun n => Spec.neighbors parts n types) h2 hwj
  simp only [Nat.zero_add, and_self, if_true] at h4
  obtain ⟨w'', h5, h6⟩ := hn2 u hu
  rw [hlast.2, h5] at h4
  cases h4
  rw [List.getElem?_map, h3, Option.map_some, h6, hrow]
  simp

/-- The first step: the shares of the neighbours are in proportion to the weights of the edges, except that the start is never chosen. -/
theorem C42_first (h : Built C wm m parts g) (hw : Spec.ExactWeights parts) {types : List Int} (hgap : ∀ n, Spec.NoGap parts n types)
    (hpos : ∀ n, ∀ x ∈ Spec.neighbors parts n types, 0 < x.weight) {p q : Rat} (hp : 0 < p) (hq : 0 < q) {default : Int}
    {D : Nat → Nat → Rat} (hD : ∀ i j, D i j ≤ 1) {nodes : List Int} {j : Nat} {n : Int} (hj : nodes[j]? = some n)
    (hn : ∃ c, c ≠ n ∧ Spec.Edge parts types n c) :
    ∃ next : Rat → Int, Spec.Proportional next (fun c => if c = n then 0 else (Spec.edgeWeight parts types n c : Rat)) ∧
      ∀ u, u ≤ 1 → ∃ rows, randomWalk g nodes types 1 p q default (fun i k => if k = j then u else D i k) = some rows ∧
        rows[j]? = some [n, next u] := by
  have htr : transitions p q ⟨[n], n, n, []⟩ (Spec.neighbors parts n types) =
      (Spec.neighbors parts n types).filterMap fun x => if x.dst = n then none
        else if (false : Bool) then some (x.dst, (x.weight : Rat)) else some (x.dst, (x.weight : Rat) / q) := by
    rw [transitions]; rfl
  have hqi : 0 < q⁻¹ := Rat.inv_pos.2 hq
  obtain ⟨next, hn1, hn2⟩ := step_share (p := p) (q := q) (default := default) (w := ⟨[n], n, n, []⟩) (nbs := Spec.neighbors parts n types)
    (weight := fun c => if c = n then 0 else (Spec.edgeWeight parts types n c : Rat)) (scale := q⁻¹) hqi (by
      obtain ⟨c, hc, he⟩ := hn
      rw [← SubGraph.mem_dst, List.mem_map] at he
      obtain ⟨x, hx, rfl⟩ := he
      rw [htr]
      refine List.ne_nil_of_mem (a := (x.dst, (x.weight : Rat) / q)) (List.mem_filterMap.2 ⟨x, hx, ?_⟩)
      rw [if_neg hc]; rfl) (by
      rw [htr]
      intro y hy
      simp only [List.mem_filterMap] at hy
      obtain ⟨x, hxm, hy⟩ := hy
      split at hy
      · cases hy
      · split at hy
        · rename_i hf; cases hf
        · cases hy
          rw [Rat.div_def]
          exact Rat.mul_pos (Rat.intCast_pos.2 (hpos n x hxm)) hqi) (by
      intro c
      rw [htr]
      have he := explored_sum (q := q) n c (fun _ => false) (Spec.neighbors parts n types)
      rw [he]
      by_cases hc : c = n
      · rw [if_pos hc, if_pos hc, Rat.mul_zero]
      · rw [if_neg hc, if_neg hc, if_neg (by decide), Rat.div_def, Rat.mul_comm]; rfl)
  refine ⟨next, hn1, fun u hu => ?_⟩
  have hD' : ∀ i k, (if k = j then u else D i k) ≤ 1 := by
    intro i k; split
    · exact hu
    · exact hD i k
  obtain ⟨rows', hr'⟩ := C42_returns h hw hgap (fun n x hx => by have := hpos n x hx; omega) hp hq default hD' nodes 1
  refine ⟨rows', hr', ?_⟩
  rw [randomWalk, Option.map_eq_some_iff] at hr'
  obtain ⟨ws', h2, rfl⟩ := hr'
  rw [walkLoop_snoc, walkLoop, Option.bind_some, Multihop.neighborsAll h hw _ types hgap, List.flatMap_map, List.map_map,
    Option.bind_some] at h2
  obtain ⟨w', h3, h4⟩ := stepAll_get (fun n => Spec.neighbors parts n types) h2 (j := j) (w := ⟨[n], n, n, []⟩)
    (by rw [List.getElem?_map, hj]; rfl)
  simp only [Nat.zero_add, if_true] at h4
  obtain ⟨w'', h5, h6⟩ := hn2 u hu
  rw [h5] at h4
  cases h4
  rw [List.getElem?_map, h3, Option.map_some, h6]
  rfl

/-- Edges 1 - 2, 1 - 3, 2 - 3 and 3 - 4 in both directions. -/
def C42_square : List (List (List Rec)) :=
  [[[⟨1, -1, 0, 1, none, none, []⟩, ⟨1, 2, 0, 2, none, none, []⟩, ⟨1, 3, 0, 3, none, none, []⟩],
    [⟨2, -1, 0, 1, none, none, []⟩, ⟨2, 1, 0, 2, none, none, []⟩, ⟨2, 3, 0, 4, none, none, []⟩]],
   [[⟨3, -1, 0, 1, none, none, []⟩, ⟨3, 1, 0, 3, none, none, []⟩, ⟨3, 2, 0, 4, none, none, []⟩, ⟨3, 4, 0, 5, none, none, []⟩],
    [⟨4, -1, 0, 1, none, none, []⟩, ⟨4, 3, 0, 5, none, none, []⟩]]]

theorem C42_square_weight (a b : Int) : Spec.edgeWeight C42_square [0] a b = Spec.edgeWeight C42_square [0] b a := by
  have hall : ∀ r ∈ Spec.edgeRecords C42_square, (r.src = 1 ∨ r.src = 2 ∨ r.src = 3 ∨ r.src = 4) ∧
    (r.dst = 1 ∨ r.dst = 2 ∨ r.dst = 3 ∨ r.dst = 4) := by decide +kernel
  have hz : ∀ x y : Int, ¬ ((x = 1 ∨ x = 2 ∨ x = 3 ∨ x = 4) ∧ (y = 1 ∨ y = 2 ∨ y = 3 ∨ y = 4)) →
      Spec.edgeWeight C42_square [0] x y = 0 := by
    intro x y hn
    rw [Spec.edgeWeight, List.filter_eq_nil_iff.2, List.map_nil, List.sum_nil]
    intro n hm hd
    rw [Spec.neighbors, List.mem_map] at hm
    obtain ⟨r, hr, rfl⟩ := hm
    obtain ⟨h1, h2⟩ := List.mem_filter.1 hr
    have h3 := of_decide_eq_true h2
    have h4 := hall r h1
    have h5 : r.dst = y := of_decide_eq_true hd
    rw [h3.1, h5] at h4
    exact hn h4
  by_cases h : (a = 1 ∨ a = 2 ∨ a = 3 ∨ a = 4) ∧ (b = 1 ∨ b = 2 ∨ b = 3 ∨ b = 4)
  · obtain ⟨rfl | rfl | rfl | rfl, rfl | rfl | rfl | rfl⟩ := h <;> decide +kernel
  · rw [hz a b h, hz b a fun h' => h ⟨h'.2, h'.1⟩]

/-- The hypotheses of `C42_node2vec` are met after the step from 1 to 3; the weights of the next step are those of node2vec. -/
example : ∃ g, Built intCodec none ⟨0, 0, -1⟩ C42_square g ∧ Spec.ExactWeights C42_square ∧ (∀ n, Spec.NoGap C42_square n [0]) ∧
    (∀ n, ∀ x ∈ Spec.neighbors C42_square n [0], 0 < x.weight) ∧ (∀ a, ¬ Spec.Edge C42_square [0] a (-1)) ∧
    (∀ a b, Spec.edgeWeight C42_square [0] a b = Spec.edgeWeight C42_square [0] b a) ∧
    (∀ a, ((Spec.neighbors C42_square a [0]).map (·.dst)).Nodup) ∧
    randomWalk g [2, 1] [0] 1 2 4 (-1) (fun _ _ => 1) = some [[2, 3], [1, 3]] ∧
    [1, 2, 4, 3, 7].map (Spec.node2vec C42_square [0] 2 4 1 3) = [3 / 2, 4, 5 / 4, 0, 0] := by
  obtain ⟨g, hg, hb⟩ := built_of_check (wm := none) (m := ⟨0, 0, -1⟩) (parts := C42_square) (by decide +kernel)
  have h1 : (graphOf intCodec none ⟨0, 0, -1⟩ C42_square).bind (fun g => randomWalk g [2, 1] [0] 1 2 4 (-1) (fun _ _ => 1)) =
      some [[2, 3], [1, 3]] := by decide +kernel
  rw [hg] at h1
  have hrec : ∀ r ∈ Spec.edgeRecords C42_square, r.typ = 0 ∧ 0 < r.weight ∧ r.dst ≠ -1 := by decide +kernel
  refine ⟨g, hb, ?_, ?_, ?_, ?_, C42_square_weight, ?_, h1, by decide +kernel⟩
  · exact exact_of_total (by decide +kernel) (by decide +kernel)
  · intro n x hx y hy _ _ _ _
    rw [(hrec x hx).1]; decide
  · intro n x hx
    rw [Spec.neighbors, List.mem_map] at hx
    obtain ⟨r, hr, rfl⟩ := hx
    exact (hrec r (List.mem_filter.1 hr).1).2.1
  · rintro a ⟨r, hr, -, he, -⟩
    exact (hrec r hr).2.2 he
  · intro a
    rw [Spec.neighbors, List.map_map]
    by_cases h : a = 1 ∨ a = 2 ∨ a = 3 ∨ a = 4
    · obtain rfl | rfl | rfl | rfl := h <;> decide +kernel
    · have hall : ∀ r ∈ Spec.edgeRecords C42_square, (r.src = 1 ∨ r.src = 2 ∨ r.src = 3 ∨ r.src = 4) := by decide +kernel
      rw [List.filter_eq_nil_iff.2]
      · exact List.nodup_nil
      · intro r hr hd
        have h3 := of_decide_eq_true hd
        have h4 := hall r hr
        rw [h3.1] at h4
        exact h h4

/-- An edge from 1 to itself and one to 2. -/
def C42_loop : List (List (List Rec)) :=
  [[[⟨1, -1, 0, 1, none, none, []⟩, ⟨1, 1, 0, 9, none, none, []⟩, ⟨1, 2, 0, 1, none, none, []⟩], [⟨2, -1, 0, 1, none, none, []⟩]]]

/-- The first step never takes an edge from the start to itself, whatever its weight: with weights 9 and 1 the other edge is always
taken. -/
theorem C42_loop_refuted : ∃ g, Built intCodec none ⟨0, 0, -1⟩ C42_loop g ∧ Spec.edgeWeight C42_loop [0] 1 1 = 9 ∧
    ∀ D : Nat → Nat → Rat, (∀ i j, D i j ≤ 1) → randomWalk g [1] [0] 1 1 1 (-1) D = some [[1, 2]] := by
  obtain ⟨g, hg, hb⟩ := built_of_check (wm := none) (m := ⟨0, 0, -1⟩) (parts := C42_loop) (by decide +kernel)
  refine ⟨g, hb, by decide +kernel, ?_⟩
  intro D hD
  have h1 : (graphOf intCodec none ⟨0, 0, -1⟩ C42_loop).bind (fun g => Multihop.clientNeighbors g [1] [0]) =
    some ([⟨1, 0, 9⟩, ⟨2, 0, 1⟩], [2]) := by decide +kernel
  rw [hg, Option.bind_some] at h1
  have t1 : transitions 1 1 ⟨[1], 1, 1, []⟩ [⟨1, 0, 9⟩, ⟨2, 0, 1⟩] = [(2, 1)] := by decide +kernel
  have htot : ∀ n : Int, total [(n, 1)] = 1 := fun n => Rat.add_zero 1
  have hpick : ∀ (n : Int) (u : Rat), u ≤ 1 → pick u 0 [(n, 1)] = some n := by
    intro n u hu
    rw [pick, if_neg]
    rw [Rat.zero_add]
    exact Rat.not_lt.2 hu
  simp only [randomWalk, walkLoop, stepAll, step, List.map_cons, List.map_nil, h1, Option.bind_some,
    show ([⟨1, 0, 9⟩, ⟨2, 0, 1⟩] : List Nbr).take 2 = [⟨1, 0, 9⟩, ⟨2, 0, 1⟩] from rfl,
    t1, List.cons_ne_nil, if_false, htot, Rat.one_mul, hpick _ _ (hD _ _), Option.map_some, List.cons_append, List.nil_append]

/-- Two nodes joined by an edge in one direction. -/
def C42_example : List (List (List Rec)) :=
  [[[⟨1, -1, 0, 1, none, none, []⟩, ⟨1, 2, 0, 1, none, none, []⟩], [⟨2, -1, 0, 1, none, none, []⟩]]]

theorem C42_example_edge {types : List Int} {a b : Int} (h : Spec.Edge C42_example types a b) : a = 1 ∧ b = 2 := by
  obtain ⟨r, hr, rfl, rfl, -⟩ := h
  revert r
  decide +kernel

/-- Walks on a graph with two paths: the hypotheses are met and the walks are not trivial. -/
example : ∃ g, Built intCodec none ⟨0, 0, -1⟩ C41_example g ∧ (∀ n, Spec.NoGap C41_example n [0]) ∧
    (∀ a, ¬ Spec.Edge C41_example [0] a (-1)) ∧
    randomWalk g [2, 1] [0] 3 1 2 (-1) (fun i j => if i = j then 1 / 4 else 1) = some [[2, 3, 1, 2], [1, 3, 1, 2]] := by
  obtain ⟨g, hg, hb⟩ := built_of_check (wm := none) (m := ⟨0, 0, -1⟩) (parts := C41_example) (by decide +kernel)
  have h1 : (graphOf intCodec none ⟨0, 0, -1⟩ C41_example).bind (fun g => randomWalk g [2, 1] [0] 3 1 2 (-1)
      (fun i j => if i = j then 1 / 4 else 1)) = some [[2, 3, 1, 2], [1, 3, 1, 2]] := by decide +kernel
  rw [hg] at h1
  refine ⟨g, hb, fun n => C41_example_gap [0] n (by decide), ?_, h1⟩
  rintro a ⟨r, hr, -, he, -⟩
  revert r
  decide +kernel

/-- The full claim fails: with one edge from 1 to 2 a walk from 1 goes back from 2 to 1, where no edge leads; then it stops although the
edge from 1 to 2 could be taken again. -/
theorem C42_backwards_refuted : ∃ g, Built intCodec none ⟨0, 0, -1⟩ C42_example g ∧
    (∀ D : Nat → Nat → Rat, (∀ i j, D i j ≤ 1) → randomWalk g [1] [0] 3 1 1 (-1) D = some [[1, 2, 1, -1]]) ∧
    ¬ Spec.Edge C42_example [0] 2 1 ∧ Spec.Edge C42_example [0] 1 2 := by
  obtain ⟨g, hg, hb⟩ := built_of_check (wm := none) (m := ⟨0, 0, -1⟩) (parts := C42_example) (by decide +kernel)
  refine ⟨g, hb, ?_, fun h => absurd (C42_example_edge h).1 (by decide), ?_⟩
  · intro D hD
    have h1 : (graphOf intCodec none ⟨0, 0, -1⟩ C42_example).bind (fun g => Multihop.clientNeighbors g [1] [0]) =
      some ([⟨2, 0, 1⟩], [1]) := by decide +kernel
    have h2 : (graphOf intCodec none ⟨0, 0, -1⟩ C42_example).bind (fun g => Multihop.clientNeighbors g [2] [0]) =
      some ([], [0]) := by decide +kernel
    rw [hg, Option.bind_some] at h1 h2
    have t1 : transitions 1 1 ⟨[1], 1, 1, []⟩ [⟨2, 0, 1⟩] = [(2, 1)] := by decide +kernel
    have t2 : transitions 1 1 ⟨[1, 2], 1, 2, [(2, 1)]⟩ [] = [(1, 1)] := by decide +kernel
    have t3 : transitions 1 1 ⟨[1, 2, 1], 2, 1, []⟩ [⟨2, 0, 1⟩] = [] := by decide +kernel
    have htot : ∀ n : Int, total [(n, 1)] = 1 := fun n => Rat.add_zero 1
    have hpick : ∀ (n : Int) (u : Rat), u ≤ 1 → pick u 0 [(n, 1)] = some n := by
      intro n u hu
      rw [pick, if_neg]
      rw [Rat.zero_add]
      exact Rat.not_lt.2 hu
    simp only [randomWalk, walkLoop, stepAll, step, List.map_cons, List.map_nil, h1, Option.bind_some, List.take_one, List.head?_cons,
      Option.toList_some, t1, List.cons_ne_nil, if_false, htot, Rat.one_mul, hpick _ _ (hD _ _), Option.map_some, List.cons_append, List.nil_append,
      h2, List.take_nil, t2, t3, if_true]
  · exact ⟨⟨1, 2, 0, 1, none, none, []⟩, by decide +kernel, rfl, rfl, by decide⟩

end DeepGNN
