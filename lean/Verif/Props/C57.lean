import Verif.Proofs.RemoteShare
import Verif.Props.C26

/-
C57 Weighted samples merged from several servers follow the weights.
-/

namespace DeepGNN

open Spec

theorem sum_indicator {α : Type} (l : List α) (f : α → Bool) : (l.map fun a => if f a = true then (1 : Int) else 0).sum = (l.filter f).length := by
  induction l with
  | nil => rfl
  | cons a l ih =>
    rw [List.map_cons, List.sum_cons, ih, List.filter_cons]
    split <;> simp [Int.add_comm]

theorem evSum_eq (es : List ((Int × List Nbr) × Option Nat)) : evSum es = cellSum (es.map (·.1)) := by
  induction es with
  | nil => rfl
  | cons e es ih => simp only [evSum, ih, cellSum, List.map_cons, List.sum_cons]

theorem weighted_eq (i : Nat) (y : Nbr) (es : List ((Int × List Nbr) × Option Nat)) :
    weighted (fun v => if v = some y then 1 else 0) i es = sampleWeight (es.map (·.1)) i y := by
  induction es with
  | nil => rfl
  | cons e es ih =>
    simp only [weighted, ih, sampleWeight, totalWeight, List.map_cons, List.filter_cons]
    split <;> rename_i h <;> simp [h]

theorem perm_sampleWeight {a b : List (Int × List Nbr)} (h : a.Perm b) (i : Nat) (y : Nbr) : sampleWeight a i y = sampleWeight b i y := by
  have : ∀ {a b : List Int}, a.Perm b → a.sum = b.sum := by
    intro a b h
    induction h with
    | nil => rfl
    | cons x _ ih => simp [ih]
    | swap x y l => simp only [List.sum_cons]; omega
    | trans _ _ h1 h2 => exact h1.trans h2
  exact this ((h.filter _).map _)

theorem perm_totalWeight {a b : List (Int × List Nbr)} (h : a.Perm b) : totalWeight a = totalWeight b := by
  have : ∀ {a b : List Int}, a.Perm b → a.sum = b.sum := by
    intro a b h
    induction h with
    | nil => rfl
    | cons x _ ih => simp [ih]
    | swap x y l => simp only [List.sum_cons]; omega
    | trans _ _ h1 h2 => exact h1.trans h2
  exact this (h.map _)

/-- For all requests, servers, answers with weights that float32 sums exactly, and for every order in which replies are stored and
callbacks run: if the neighbours of the node at position `p` have positive total weight, then over all lists of `R` random numbers from
the middle of `Q` equal intervals of `[0, 1)`, `Q` fine enough for the weights, the neighbour `y` ends in place `i` of the row in a
share of the lists equal to the total weight of the servers that offered `y` for this place, divided by the total weight of all servers. -/
theorem C57_share (count : Nat) (default : Nbr) (nodes : List Int) (outs0 : List (List Nbr))
    (h0 : outs0.length = nodes.length) (hc : ∀ o ∈ outs0, o.length = count)
    (servers : List (List (Option (Int × List Nbr)))) (ha : ∀ as ∈ servers, Answers nodes as)
    (hrow : ∀ as ∈ servers, ∀ x, some x ∈ as → x.2.length = count ∧ 0 ≤ x.1)
    (hsum : ∀ p, totalWeight (answersAt servers p) ≤ 2 ^ 24)
    (evs : List (Ev WReply)) (hev : Schedule (servers.map (wReply nodes)) evs)
    (p i : Nat) (hp : p < nodes.length) (hi : i < count) (hpos : 0 < totalWeight (answersAt servers p))
    (Q R : Nat) (hQ : ∀ d : Nat, 0 < d → d ≤ totalWeight (answersAt servers p) → d ∣ Q)
    (hR : servers.length * (nodes.length * count) ≤ R) (y : Nbr) :
    totalWeight (answersAt servers p) *
        ((tuples Q R).filter fun cs => decide (((remoteWeighted (midDraws Q cs) count default nodes outs0 evs servers.length).bind
          fun rows => rows[p]?.bind (·[i]?)) = some y)).length =
      (tuples Q R).length * sampleWeight (answersAt servers p) i y := by
  obtain ⟨order, h1, h2⟩ : ∃ order : List (WReply × Nat), order.Perm (servers.map (wReply nodes)).zipIdx ∧
      ∀ D, (eachReply (mergeWeighted D count default) ⟨[], []⟩ ((nodes.zip outs0).map fun x => WCell.mk x.1 0 x.2, 0)
        (servers.map (wReply nodes)).length evs).out = order.foldlM (fun a x => mergeWeighted D count default x.2 x.1 a)
          ((nodes.zip outs0).map fun x => WCell.mk x.1 0 x.2, 0) :=
    ⟨_, (eachReply_order (mergeWeighted (midDraws 0 []) count default) ⟨[], []⟩ ([], 0) _ evs hev).1,
      fun D => (eachReply_order (mergeWeighted D count default) ⟨[], []⟩ _ _ evs hev).2.1⟩
  rw [List.length_map] at h2
  obtain ⟨todo, ids, rfl, h4, h5⟩ := order_servers servers (wReply nodes) order h1
  have hperm : ∀ p, (answersAt todo p).Perm (answersAt servers p) := fun p => h5.filterMap _
  have hw : ∀ p, cellSum (answersAt todo p) = totalWeight (answersAt servers p) := fun p => perm_totalWeight (hperm p)
  have hlen : todo.length = servers.length := h5.length_eq
  have hcells : CellsOk count (nodes.map fun _ => (0 : Int)) ((nodes.zip outs0).map fun x => WCell.mk x.1 0 x.2) := by
    constructor
    · rw [List.map_map]
      have e1 : ((fun x : WCell => x.weight) ∘ fun x : Int × List Nbr => WCell.mk x.1 0 x.2) = fun _ => 0 := rfl
      rw [e1, List.map_const', List.map_const', List.length_zip]
      congr 1
      omega
    · intro c hc'
      obtain ⟨x, hx, rfl⟩ := List.mem_map.1 hc'
      exact hc _ (List.of_mem_zip hx).2
  have hw0 : (nodes.map fun _ => (0 : Int))[p]? = some 0 := by simp [hp]
  obtain ⟨es, e1, e2, e3, e4, e5⟩ := foldlM_slot count default nodes p i hi todo ids h4
    (fun as has => ⟨ha as (h5.subset has), hrow as (h5.subset has)⟩) (nodes.map fun _ => 0) (by simp) (by simp)
    (by
      intro q w hq
      obtain ⟨x, -, rfl⟩ := Option.map_eq_some_iff.1 ((List.getElem?_map ..).symm.trans hq)
      rw [hw, Int.zero_add]
      exact hsum q) 0 hw0 0
  have hcp : ((nodes.zip outs0).map fun x => WCell.mk x.1 0 x.2)[p]? = some ⟨nodes[p], 0, outs0[p]⟩ := by
    simp [hp, h0]
  have hval : ∀ cs, ((remoteWeighted (midDraws Q cs) count default nodes outs0 evs servers.length).bind
      fun rows => rows[p]?.bind (·[i]?)) = slotFold (from' Q 0 cs) i default es 0 (outs0[p])[i]? := by
    intro cs
    obtain ⟨cells', r', c', f1, f2, f3⟩ := e5 (midDraws Q cs) _ hcells (by
      rw [List.map_map]
      have : ((fun x : WCell => x.node) ∘ fun x : Int × List Nbr => WCell.mk x.1 0 x.2) = Prod.fst := rfl
      rw [this, List.map_fst_zip (by omega)]) _ hcp
    rw [remoteWeighted, h2, f1]
    simp only [Option.map_some, Option.bind_some, List.getElem?_map, f2]
    exact f3
  have hes : evSum es = totalWeight (answersAt servers p) := by rw [evSum_eq, e1, hw]
  have key := slot_share Q (fun v => if v = some y then 1 else 0) i default es R 0 0 (outs0[p])[i]? (Int.le_refl 0)
    (by
      intro e he
      have : e.1 ∈ answersAt servers p := by
        rw [← (hperm p).mem_iff, ← e1]
        exact List.mem_map_of_mem he
      exact answersAt_nonneg (fun as has x hx => (hrow as has x hx).2) p _ this)
    (by rw [hes]; omega) (by rw [hes]; intro d hd hd2; exact hQ d hd (by omega)) e2 e3
    (by
      intro j hj
      have := e4 j hj
      rw [hlen] at this
      omega)
  rw [hes, Int.zero_add, weighted_eq, e1, perm_sampleWeight (hperm p)] at key
  simp only [hval]
  rw [← sum_indicator]
  simp only [decide_eq_true_eq]
  rw [key, length_tuples]
  simp

/-- Three servers know node 5; the second one has no weight for it. -/
def C57_weights : List (List (Option (Int × List Nbr))) :=
  [[some (2, [⟨50, 0, 2⟩])], [some (0, [⟨-1, -1, 0⟩])], [some (1, [⟨52, 1, 1⟩])]]

/-- The third server answers first. -/
def C57_events : List (Ev WReply) :=
  [.recv 2 (wReply [5] (C57_weights.getD 2 [])), .recv 0 (wReply [5] (C57_weights.getD 0 [])), .run 2, .run 0,
    .recv 1 (wReply [5] (C57_weights.getD 1 [])), .run 1]

/-- Non-vacuity: neighbour 50 has two thirds of the weight and is the result for 144 of the 216 lists of three numbers. -/
example (old : Nbr) (y : Nbr) : 3 * (((tuples 6 3).filter fun cs => decide (((remoteWeighted (midDraws 6 cs) 1 ⟨-1, -1, 0⟩ [5] [[old]]
      C57_events 3).bind fun rows => rows[0]?.bind (·[0]?)) = some y)).length : Int) =
    216 * sampleWeight (answersAt C57_weights 0) 0 y := by
  have := C57_share 1 ⟨-1, -1, 0⟩ [5] [[old]] rfl (by simp) C57_weights (C26_answers _ _ (by decide)) (by
    intro as has x hx
    have : ∀ as ∈ C57_weights, ∀ y ∈ as, ∀ x ∈ y.toList, x.2.length = 1 ∧ 0 ≤ x.1 := by decide
    exact this as has _ hx x (by simp)) (by
    intro p
    cases p with
    | zero => decide
    | succ p => simp [answersAt, C57_weights, totalWeight]) C57_events (by constructor <;> decide +kernel) 0 0 (by decide) (by decide)
    (by decide) 6 3 (by
      intro d h1 h2
      have : totalWeight (answersAt C57_weights 0) = 3 := by decide
      rw [this] at h2
      have : d = 1 ∨ d = 2 ∨ d = 3 := by omega
      rcases this with rfl | rfl | rfl <;> decide) (by decide) y
  have h1 : totalWeight (answersAt C57_weights 0) = 3 := by decide
  have h2 : (tuples 6 3).length = 216 := by decide +kernel
  rw [h1, h2] at this
  exact this

example : ((tuples 6 3).filter fun cs => decide (((remoteWeighted (midDraws 6 cs) 1 ⟨-1, -1, 0⟩ [5] [[⟨7, 7, 7⟩]]
      C57_events 3).bind fun rows => rows[0]?.bind (·[0]?)) = some ⟨50, 0, 2⟩)).length = 144 := by decide +kernel

end DeepGNN
