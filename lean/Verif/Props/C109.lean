import Verif.Proofs.Shuffle
import Verif.Props.C63

/-
C109 Merging the samples of two servers is fair.
The client draws how many elements it keeps of its reservoir and how many it takes from the reply, shuffles both and uses the first ones of each.
-/

namespace DeepGNN

open Spec

/-- Over all equally likely draws of a shuffle of `m` elements of which the first `c` are used, element `j` is among them with the share
`c / (m - 1)`, or `(c - 1) / (m - 1)` if it is one of the first `c` elements already.  Missing for the property: the shares should all be `c / m`. -/
theorem C109_share_partial (m c j : Nat) (hm : 2 ≤ m) (hc : c ≤ m) (hj : j < m) :
    (m - 1) * keptHits m c j = (c - if j < c then 1 else 0) * (shuffleDraws (m - 1)).length := by
  obtain ⟨n, rfl⟩ : ∃ n, m = n + 2 := ⟨m - 2, by omega⟩
  rw [kept_eq n c j hc hj, show n + 2 - 1 = n + 1 by omega, shuffle_total]
  rw [← Nat.mul_assoc, ← Nat.mul_assoc, Nat.mul_comm (n + 1)]

/-- Non-vacuity: two of four elements; the first two are used in one third of the cases, the others in two thirds. -/
example : (List.range 4).map (keptHits 4 2) = [2, 2, 4, 4] ∧ (shuffleDraws 3).length = 6 := by decide +kernel

/-- All elements are used if all are asked for. -/
theorem C109_all (m j : Nat) (hm : 2 ≤ m) (hj : j < m) : keptHits m m j = (shuffleDraws (m - 1)).length := by
  have := C109_share_partial m m j hm (Nat.le_refl _) hj
  rw [if_pos hj] at this
  exact Nat.eq_of_mul_eq_mul_left (by omega) this

/-- Whenever some but not all elements are used, no element has its fair share `c / m`. -/
theorem C109_unfair_refuted (m c j : Nat) (hc : 0 < c) (hm : c < m) (hj : j < m) :
    m * keptHits m c j ≠ c * (shuffleDraws (m - 1)).length := by
  obtain ⟨n, rfl⟩ : ∃ n, m = n + 2 := ⟨m - 2, by omega⟩
  rw [kept_eq n c j (by omega) hj, show n + 2 - 1 = n + 1 by omega, shuffle_total]
  have hT : 0 < (shuffleDraws n).length := by
    clear hm hj
    induction n with
    | zero => simp [shuffleDraws]
    | succ n ih => rw [shuffle_total]; exact Nat.mul_pos (by omega) ih
  rw [← Nat.mul_assoc, ← Nat.mul_assoc]
  intro he
  have he := Nat.eq_of_mul_eq_mul_right hT he
  split at he
  · rw [Nat.mul_sub, Nat.add_mul, Nat.mul_add, Nat.mul_comm c n] at he
    omega
  · rw [Nat.sub_zero, Nat.add_mul, Nat.mul_add, Nat.mul_comm c n] at he
    omega

/-! A reservoir that is not filled has the elements in order. -/

theorem algL_fill_order {α : Type} (xs : List α) (d : Nat) : ∀ (i : Nat) (pre rest : List α) (a : AlgL), a.seen = pre.length → d = xs.length - i →
    i ≤ xs.length → d ≤ rest.length → a.k = pre.length + rest.length →
    AlgL.fill (store xs) xs.length i a (pre ++ rest) =
      some (pre ++ xs.drop i ++ rest.drop d, xs.length, { a with seen := a.seen + d, next := a.next + d }) := by
  induction d with
  | zero =>
    intro i pre rest a hs hd hi hr hk
    obtain rfl : i = xs.length := by omega
    rw [AlgL.fill, if_neg (by omega)]
    simp
  | succ d ih =>
    intro i pre rest a hs hd hi hr hk
    match rest, hr with
    | y :: rest, hr =>
      have hlt : i < xs.length := by omega
      rw [AlgL.fill, if_pos (by constructor <;> (try simp at hk) <;> omega)]
      have hst : store xs (pre ++ y :: rest) a.seen i = some ((pre ++ [xs[i]]) ++ rest) := by
        rw [store, if_pos (by simp; omega), List.getElem?_eq_getElem hlt, Option.map_some, hs, List.set_append_right _ _ (by omega), Nat.sub_self,
          List.set_cons_zero]
        simp
      rw [hst, Option.bind_some, ih (i + 1) (pre ++ [xs[i]]) rest _ (by simp [hs]) (by omega) (by omega) (by simpa using hr) (by simp at hk ⊢; omega)]
      rw [List.drop_eq_getElem_cons hlt]
      simp only [List.append_assoc, List.drop_succ_cons, Option.some.injEq, Prod.mk.injEq, true_and, List.cons_append,
        List.nil_append]
      congr 1 <;> omega

theorem algL_order {α : Type} (R : Draws) (blocks : List (List α)) : ∀ (pre rest : List α) (a : AlgL) (s : Nat), a.seen = pre.length →
    blocks.flatten.length ≤ rest.length → a.k = pre.length + rest.length →
    ∃ a', blocks.foldlM (fun st xs => AlgL.add R (store xs) xs.length st) (pre ++ rest, a, s) =
      some (pre ++ blocks.flatten ++ rest.drop blocks.flatten.length, a', s) := by
  induction blocks with
  | nil => intro pre rest a s _ _ _; exact ⟨a, by simp⟩
  | cons xs blocks ih =>
    intro pre rest a s hs hl hk
    rw [List.flatten_cons, List.length_append] at hl
    rw [List.foldlM_cons, AlgL.add]
    dsimp only
    rw [algL_fill_order xs xs.length 0 pre rest a hs (by omega) (by omega) (by omega) hk]
    simp only [Option.bind_some, Nat.sub_self, if_true, List.drop_zero, Option.bind_eq_bind]
    obtain ⟨a', ha⟩ := ih (pre ++ xs) (rest.drop xs.length) { a with seen := a.seen + xs.length, next := a.next + xs.length } s
      (by simp [hs]) (by rw [List.length_drop]; omega) (by simp; omega)
    refine ⟨a', ?_⟩
    rw [ha, List.flatten_cons, List.drop_drop, List.length_append]
    simp only [List.append_assoc]

theorem serverUniform1_rows {α : Type} {g : Graph} {blocksOf : Option Int → Partition → Nat → Option (List (List α))}
    {q : Int × Option Int} {N : List α} (h : OffersBy g blocksOf q N) (hN : 0 < N.length) (R : Draws) (count : Nat) (hc : 0 < count) (default : α) (s : Nat) :
    ∃ x s', g.serverUniform1 R true (blocksOf q.2) count default q.1 s = some (some x, s') ∧ x.1 = N.length ∧ x.2.length = count ∧
      (∀ z ∈ x.2.take (min N.length count), z ∈ N) ∧ (N.length ≤ count → x.2.take N.length = N) := by
  obtain ⟨a, s', h1, h2⟩ := serverUniform1_ok h R count (fun _ => hc) default s
  cases a with
  | none => rw [h2.none rfl] at hN; simp at hN
  | some x =>
    obtain ⟨e1, e2, e3, -⟩ := h2.some x rfl
    refine ⟨x, s', h1, e1, e2, ?_, ?_⟩
    · obtain ⟨chosen, ps, q1, q2, -, q4⟩ := e3 rfl
      rw [List.length_replicate] at q2
      intro z hz
      rw [q1, List.take_append_of_le_length (by omega)] at hz
      have : some z ∈ ps.map fun p => N[p]? := by rw [q4]; exact List.mem_map_of_mem (List.mem_of_mem_take hz)
      obtain ⟨p, -, hp⟩ := List.mem_map.1 this
      exact List.mem_of_getElem? hp
    · intro hle
      obtain ⟨es, bs, h3, h4, rfl⟩ := h
      simp only [Graph.serverUniform1] at h1
      cases hn : g.nodeMap q.1 with
      | none => rw [hn] at h1; simp at h1
      | some off =>
        rw [hn] at h1
        simp only [h3, Option.bind_some, h4, if_true] at h1
        obtain ⟨a', ha⟩ := algL_order R bs.flatten [] (List.replicate count default) { k := count } s rfl (by simpa using hle) (by simp)
        rw [List.nil_append, List.nil_append] at ha
        rw [ha] at h1
        simp only [Option.map_some, Option.some.injEq, Prod.mk.injEq] at h1
        rw [← h1.1]
        simp

variable {C : WeightCodec}

/-- A request for one node to two servers, which know the node, merges their two rows. -/
theorem uniformServers_two {g k : Graph} {Ra Rb : Draws} {types : List Int} {count : Nat} {default : Int × Int} {n : Int} {x y : Nat × List (Int × Int)}
    {sa sb : Nat}
    (ha : g.serverUniform1 Ra true (fun p id => p.sampleBlocks true id none (sortUnique types)) count default n 0 = some (some x, sa))
    (hb : k.serverUniform1 Rb true (fun p id => p.sampleBlocks true id none (sortUnique types)) count default n 0 = some (some y, sb))
    (hx : x.2.length = count) (hy : y.2.length = count) (R : Draws) (s : Nat) (P : List (Int × Int) → Prop)
    (hP : ∀ s, ∃ out seen s', [x, y].foldlM (addRow R true count) (List.replicate count default, 0, s) = some (out, seen, s') ∧ P out) :
    ∃ row s', uniformServers [(g, Ra), (k, Rb)] R true types count default [(n, none)] s = some ([row], s') ∧ P row := by
  have h1 : ([(g, Ra), (k, Rb)].mapM fun z : Graph × Draws => z.1.serverUniform z.2 true (sortUnique types) count default [(n, none)]) =
      some ([[some x], [some y]].map (uReply [n])) := by
    simp only [List.mapM_cons, List.mapM_nil, Graph.serverUniform, Graph.serverUniformLoop, ha, hb, Option.bind_some, Option.elim]
    simp [uReply, knownNodes]
  rw [uniformServers, h1, Option.bind_some]
  simp only [List.map_cons (f := fun x : Int × Option Int => x.1), List.map_nil]
  have h0 := remoteUniform_start R true count default [n] [[some x], [some y]] s
  simp only [List.map_cons, List.map_nil] at h0 ⊢
  rw [h0]
  obtain ⟨outs, s', e1, e2, e3⟩ := uniformNodes_eq R true count default (fun _ out => P out) [n] [⟨[], [some x]⟩, ⟨[], [some y]⟩] (by
      intro v hv
      simp only [List.mem_cons, List.not_mem_nil, or_false] at hv
      rcases hv with rfl | rfl
      · refine ⟨⟨rfl, ?_⟩, by simp, ?_⟩
        · intro a ha b hb _
          simp at ha hb; subst ha hb; rfl
        · intro z hz; simp at hz; subst hz; exact hx
      · refine ⟨⟨rfl, ?_⟩, by simp, ?_⟩
        · intro a ha b hb _
          simp at ha hb; subst ha hb; rfl
        · intro z hz; simp at hz; subst hz; exact hy) s (by
      intro p hp s
      have hp0 : p = 0 := by simpa using hp
      subst hp0
      exact hP s)
  match outs, e2 with
  | [row], _ => exact ⟨row, s', e1, e3 0 row rfl⟩

/-- Node `n` has neighbours on two servers, together more than `count`, and those of the first server fit.  For all draws of servers and client: if the
first neighbour of a server is sampled then also another neighbour of the same server, if it has others (and at most `count`). -/
theorem C109_together (a b : List (List (List Rec)) × Graph) (hb : ∀ x ∈ [a, b], ∃ wm m, Built C wm m x.1 x.2)
    (Ra Rb R : Draws) (types : List Int) (count : Nat) (default : Int × Int) (n : Int)
    (hgap : ∀ x ∈ [a, b], Spec.NoGap x.1 n types) (h0 : 0 < (neighbors a.1 n types).length) (hfit : (neighbors a.1 n types).length ≤ count)
    (hmore : count < (neighbors a.1 n types).length + (neighbors b.1 n types).length)
    (hnd : ((neighbors a.1 n types ++ neighbors b.1 n types).map reported).Nodup) (s : Nat) :
    ∃ row s', uniformServers [(a.2, Ra), (b.2, Rb)] R true types count default [(n, none)] s = some ([row], s') ∧
      (2 ≤ (neighbors a.1 n types).length → ∀ z, ((neighbors a.1 n types).map reported).head? = some z → z ∈ row →
        ∃ y ∈ row, y ≠ z ∧ y ∈ (neighbors a.1 n types).map reported) ∧
      (2 ≤ (neighbors b.1 n types).length → (neighbors b.1 n types).length ≤ count →
        ∀ z, ((neighbors b.1 n types).map reported).head? = some z → z ∈ row →
        ∃ y ∈ row, y ≠ z ∧ y ∈ (neighbors b.1 n types).map reported) := by
  obtain ⟨wa, ma, ba⟩ := hb a (by simp)
  obtain ⟨wb, mb, bb⟩ := hb b (by simp)
  have oa := ba.offers true types n (hgap a (by simp))
  have ob := bb.offers true types n (hgap b (by simp))
  rw [List.map_append] at hnd
  rw [← List.length_map (f := reported)] at h0 hfit
  rw [← List.length_map (f := reported), ← List.length_map (as := neighbors b.1 n types) (f := reported)] at hmore
  simp only [← List.length_map (f := reported) (as := neighbors a.1 n types), ← List.length_map (f := reported) (as := neighbors b.1 n types)]
  obtain ⟨A, hA⟩ : ∃ A, (neighbors a.1 n types).map reported = A := ⟨_, rfl⟩
  obtain ⟨B, hB⟩ : ∃ B, (neighbors b.1 n types).map reported = B := ⟨_, rfl⟩
  rw [hA] at oa hnd h0 hfit hmore ⊢
  rw [hB] at ob hnd hmore ⊢
  obtain ⟨x, sa, x0, x1, x2, -, x4⟩ := serverUniform1_rows oa h0 Ra count (by omega) default 0
  obtain ⟨y, sb, y0, y1, y2, y3, y4⟩ := serverUniform1_rows ob (by omega) Rb count (by omega) default 0
  obtain ⟨ndA, ndB, disj⟩ := List.nodup_append.1 hnd
  refine uniformServers_two x0 y0 x2 y2 R s _ ?_
  intro s
  have hx4 := x4 hfit
  obtain ⟨out1, seen1, s1, e1, e2, e3, -⟩ := mergeAdd_inv R (all := []) (out0 := List.replicate count default) (out := List.replicate count default)
    (total := 0) (seen := 0) ⟨by omega, fun _ => rfl, [], by simp, by simp, ⟨rfl, by simp, by simp, rfl⟩⟩ x.1 (x.2.take (min x.1 count))
    (by simp [x2]) s
  rw [List.length_replicate] at e1 e3
  obtain ⟨rfl, -, e4⟩ := e3 (by omega)
  obtain ⟨ps, p1, p2, p3⟩ := e2.picked
  have hl1 : out1.length = count := by simpa using p3.len
  obtain ⟨out2, seen2, s2, f1, f2, -⟩ := mergeAdd_inv R e2 y.1 (y.2.take (min y.1 count)) (by simp [y2]) s1
  rw [List.length_replicate] at f1
  have f1' := f1
  rw [← hl1] at f1'
  obtain ⟨L, Q, g1, g2, g3, g4, g5⟩ := mergeAdd_parts R (y.2.take (min y.1 out1.length)) out1 out2 (0 + x.1) y.1 s1 seen2 s2 (by omega) (by omega) f1'
  rw [hl1] at g2 g3 g5
  obtain ⟨ps2, -, -, p4⟩ := f2.picked
  have hl2 : out2.length = count := by simpa using p4.len
  refine ⟨out2, seen2, s2, ?_, ?_⟩
  · have m1 := mergeAdd_mono R (rowUpdate_take x2) _ _ _ _ e1
    have m2 := mergeAdd_mono R (rowUpdate_take y2) _ _ _ _ f1
    simp only [List.foldlM_cons, List.foldlM_nil, addRow, if_true, m1, Option.bind_eq_bind, Option.bind_some, m2]
    rfl
  have hL : ∀ j ∈ L, j < A.length ∧ out2[j]? = A[j]? := by
    intro j hj
    obtain ⟨h1, h2⟩ := g1 j hj
    have h3 := e4 j (by omega)
    rw [Nat.zero_add] at h3
    refine ⟨by omega, ?_⟩
    rw [h2, h3, show min x.1 count = A.length by omega, hx4]
  have hQ : ∀ j < count, j ∉ L → ∃ q ∈ Q, ∃ z, (y.2.take (min y.1 count))[q]? = some z ∧ out2[j]? = some z ∧ z ∈ B := by
    intro j hj hjl
    obtain ⟨q, q1, q2, q3⟩ := g2 j hj hjl
    refine ⟨q, q1, _, List.getElem?_eq_getElem q2, by rw [q3, List.getElem?_eq_getElem q2], ?_⟩
    apply y3
    rw [← y1]
    exact List.getElem_mem q2
  have hinA : ∀ i j, i < A.length → A[i]? = A[j]? → i = j := fun i j hi he => (List.getElem?_inj hi ndA).1 he
  have hinB : ∀ i j, i < B.length → B[i]? = B[j]? → i = j := fun i j hi he => (List.getElem?_inj hi ndB).1 he
  constructor
  · intro h2 z hz hzr
    rw [List.head?_eq_getElem?] at hz
    obtain ⟨j, hj, hje⟩ := List.getElem_of_mem hzr
    have hje' : out2[j]? = some z := by rw [List.getElem?_eq_getElem hj, hje]
    by_cases hjl : j ∈ L
    · obtain ⟨k1, k2⟩ := hL j hjl
      obtain rfl : j = 0 := hinA j 0 k1 (by rw [← k2, hje', hz])
      obtain ⟨p, hp, hp0⟩ := g4 hjl (by omega)
      obtain ⟨k3, k4⟩ := hL p hp
      refine ⟨A[p], List.mem_of_getElem? (by rw [k4, List.getElem?_eq_getElem k3]), ?_, List.getElem_mem k3⟩
      intro he
      exact hp0 (hinA p 0 k3 (by rw [List.getElem?_eq_getElem k3, he, hz]))
    · obtain ⟨q, -, w, -, w2, w3⟩ := hQ j (by omega) hjl
      rw [hje', Option.some.injEq] at w2
      exact absurd rfl (disj z (List.mem_of_getElem? hz) z (w2 ▸ w3))
  · intro h2 hle z hz hzr
    rw [List.head?_eq_getElem?] at hz
    obtain ⟨j, hj, hje⟩ := List.getElem_of_mem hzr
    have hje' : out2[j]? = some z := by rw [List.getElem?_eq_getElem hj, hje]
    have hyB : y.2.take (min y.1 count) = B := by rw [show min y.1 count = B.length by omega, y4 hle]
    by_cases hjl : j ∈ L
    · obtain ⟨k1, k2⟩ := hL j hjl
      rw [k2] at hje'
      exact absurd rfl (disj z (List.mem_of_getElem? hje') z (List.mem_of_getElem? hz))
    · obtain ⟨q, q1, w, w1, w2, w3⟩ := hQ j (by omega) hjl
      rw [hje', Option.some.injEq] at w2
      subst w2
      rw [hyB] at w1
      have hqB : q < B.length := (List.getElem?_eq_some_iff.1 w1).1
      obtain rfl : q = 0 := hinB q 0 hqB (by rw [w1, hz])
      obtain ⟨p, hp, hp0⟩ := g5 q1 (by omega) (by omega)
      obtain ⟨k3, i, k4⟩ := g3 p hp
      rw [hyB] at k3 k4
      refine ⟨B[p], List.mem_of_getElem? (by rw [k4, List.getElem?_eq_getElem k3]), ?_, List.getElem_mem k3⟩
      intro he
      exact hp0 (hinB p 0 k3 (by rw [List.getElem?_eq_getElem k3, he, hz]))

/-- Two samples without replacement for node 1, with neighbours 2 and 3 on one server and 4 and 5 on the other: for all draws of servers and client
the pairs of 2 with 4, 2 with 5 and 3 with 4 are never returned. -/
theorem C109_pairs_refuted : ∃ g k, Built intCodec none ⟨0, 0, -1⟩ C63_first g ∧ Built intCodec none ⟨0, 0, -1⟩ C63_second k ∧
    ∀ (Ra Rb R : Draws) (s : Nat), ∃ x y s', uniformServers [(g, Ra), (k, Rb)] R true [0] 2 (-1, -1) [(1, none)] s = some ([[x, y]], s') ∧
      ∀ z ∈ [((2 : Int), (4 : Int)), (2, 5), (3, 4)], [x, y] ≠ [(z.1, 0), (z.2, 0)] ∧ [x, y] ≠ [(z.2, 0), (z.1, 0)] := by
  obtain ⟨g, k, hb, hk⟩ := C63_graphs
  refine ⟨g, k, hb, hk, ?_⟩
  intro Ra Rb R s
  have hbs : ∀ x ∈ [(C63_first, g), (C63_second, k)], ∃ wm m, Built intCodec wm m x.1 x.2 := by
    intro x hx
    simp only [List.mem_cons, List.not_mem_nil, or_false] at hx
    rcases hx with rfl | rfl
    · exact ⟨_, _, hb⟩
    · exact ⟨_, _, hk⟩
  have hgap : ∀ x ∈ [(C63_first, g), (C63_second, k)], Spec.NoGap x.1 1 [0] := by
    intro x hx
    simp only [List.mem_cons, List.not_mem_nil, or_false] at hx
    rcases hx with rfl | rfl <;> (unfold Spec.NoGap; dsimp only; decide +kernel)
  obtain ⟨row, s', h1, h2, h3⟩ := C109_together (C := intCodec) (C63_first, g) (C63_second, k) hbs Ra Rb R [0] 2 (-1, -1) 1 hgap
    (by dsimp only; decide +kernel) (by dsimp only; decide +kernel) (by dsimp only; decide +kernel) (by dsimp only; decide +kernel) s
  obtain ⟨outs, s2, e1, e2, e3⟩ := C63_without_partial (C := intCodec) [(C63_first, g), (C63_second, k)] hbs [Ra, Rb] rfl R [0] 2 (by decide) (-1, -1) [1]
    (fun x hx n hn => by obtain rfl : n = 1 := by simpa using hn
                         exact hgap x hx) s
  simp only [List.map_cons, List.map_nil, List.zip_cons_cons, List.zip_nil_right] at e1
  rw [h1] at e1
  simp only [Option.some.injEq, Prod.mk.injEq] at e1
  obtain ⟨rfl, rfl⟩ := e1
  obtain ⟨chosen, ps, q1, q2, -⟩ := e3 (1, row) (by simp)
  simp only [List.flatMap_cons, List.flatMap_nil, List.append_nil] at q2
  rw [show ((neighbors C63_first 1 [0] ++ neighbors C63_second 1 [0]).map reported) = [(2, 0), (3, 0), (4, 0), (5, 0)] by decide +kernel] at q2
  have hlen : row.length = 2 := by
    dsimp only at q1
    rw [q1, List.length_append, List.length_drop]
    simp at q2 ⊢; omega
  have ha : (neighbors C63_first 1 [0]).map reported = [(2, 0), (3, 0)] := by decide +kernel
  have hbn : (neighbors C63_second 1 [0]).map reported = [(4, 0), (5, 0)] := by decide +kernel
  dsimp only at h2 h3
  rw [ha] at h2
  rw [hbn] at h3
  have h2 := h2 (by decide +kernel) (2, 0) rfl
  have h3 := h3 (by decide +kernel) (by decide +kernel) (4, 0) rfl
  match row, hlen with
  | [x, y], _ =>
    refine ⟨x, y, s', h1, ?_⟩
    have key : ∀ p q : Int × Int, [x, y] = [p, q] → ((2, 0) ∈ [p, q] → ∃ y ∈ [p, q], y ≠ (2, 0) ∧ y ∈ [((2 : Int), (0 : Int)), (3, 0)]) ∧
        ((4, 0) ∈ [p, q] → ∃ y ∈ [p, q], y ≠ (4, 0) ∧ y ∈ [((4 : Int), (0 : Int)), (5, 0)]) := by
      intro p q he
      rw [← he]
      exact ⟨h2, h3⟩
    intro z hz
    simp only [List.mem_cons, List.not_mem_nil, or_false] at hz
    rcases hz with rfl | rfl | rfl
    · exact ⟨fun h => absurd (key _ _ h) (by decide), fun h => absurd (key _ _ h) (by decide)⟩
    · exact ⟨fun h => absurd (key _ _ h) (by decide), fun h => absurd (key _ _ h) (by decide)⟩
    · exact ⟨fun h => absurd (key _ _ h) (by decide), fun h => absurd (key _ _ h) (by decide)⟩

/-- The pair of 3 and 5 is merged for some draws, and the two neighbours of either server. -/
example : mergeAdd (fun i => i) (store [4, 5]) 2 2 ([2, 3], 2, 0) = some ([5, 3], 2, 4) ∧
    mergeAdd (fun _ => 0) (store [4, 5]) 2 2 ([2, 3], 2, 0) = some ([2, 3], 2, 3) ∧
    mergeAdd (fun _ => 1) (store [4, 5]) 2 2 ([2, 3], 2, 0) = some ([5, 4], 2, 3) := by
  simp [mergeAdd, splitCounts, sampleN, replaceSlots, List.range_succ, store, swapAt, List.mergeSort, List.merge]

end DeepGNN
