import Verif.Model.SagePairs
import Verif.Spec.SagePairs
import Verif.Props.C45
import Verif.Props.C79
import Verif.Proofs.Retry

/-
Lemmas for C95 and C96.
-/

namespace DeepGNN.SagePairs

open Sage Sage.Arith

/-- Position `i` comes before position `j`. -/
def Before (row : List Int) (i j : Nat) : Prop := row.getD j 0 < row.getD i 0 ∨ (row.getD i 0 = row.getD j 0 ∧ i < j)

instance (row : List Int) (i j : Nat) : Decidable (Before row i j) := inferInstanceAs (Decidable (_ ∨ _))

theorem before_irrefl (row : List Int) (i : Nat) : ¬ Before row i i := by unfold Before; omega

theorem before_asymm {row : List Int} {i j : Nat} (h : Before row i j) : ¬ Before row j i := by unfold Before at *; omega

theorem insertTop_perm (row : List Int) (i : Nat) (l : List Nat) : (insertTop row i l).Perm (i :: l) := by
  induction l with
  | nil => exact .refl _
  | cons j l ih =>
    rw [insertTop]
    split
    · exact (ih.cons j).trans (.swap _ _ _)
    · exact .refl _

theorem insertTop_sorted (row : List Int) (i : Nat) (l : List Nat) (hi : ∀ j ∈ l, i < j) (h : l.Pairwise (Before row)) :
    (insertTop row i l).Pairwise (Before row) := by
  induction l with
  | nil => simp [insertTop]
  | cons j l ih =>
    rw [List.pairwise_cons] at h
    have hij := hi j List.mem_cons_self
    rw [insertTop]
    split
    · rename_i hlt
      rw [List.pairwise_cons]
      refine ⟨fun b hb => ?_, ih (fun j' hj' => hi j' (List.mem_cons_of_mem _ hj')) h.2⟩
      rcases List.mem_cons.1 ((insertTop_perm row i l).mem_iff.1 hb) with hb | hb
      · rw [hb]; exact Or.inl hlt
      · exact h.1 b hb
    · rename_i hlt
      rw [List.pairwise_cons]
      refine ⟨fun b hb => ?_, List.pairwise_cons.2 h⟩
      have hib := hi b hb
      rcases List.mem_cons.1 hb with hb | hb
      · subst hb; unfold Before; omega
      · have := h.1 b hb
        unfold Before at this ⊢
        omega

theorem topK_sorted (row : List Int) : (topK row).Perm (List.range row.length) ∧ (topK row).Pairwise (Before row) := by
  have key : ∀ l : List Nat, l.Pairwise (· < ·) → (l.foldr (insertTop row) []).Perm l ∧ (l.foldr (insertTop row) []).Pairwise (Before row) := by
    intro l
    induction l with
    | nil => exact fun _ => ⟨.refl _, .nil⟩
    | cons a l ih =>
      intro h
      rw [List.pairwise_cons] at h
      have ih := ih h.2
      rw [List.foldr_cons]
      exact ⟨(insertTop_perm row a _).trans (ih.1.cons a), insertTop_sorted row a _ (fun j hj => h.1 j (ih.1.mem_iff.1 hj)) ih.2⟩
  exact key _ List.pairwise_lt_range

theorem topK_topK : Metrics.TopK topK := by
  intro row
  refine ⟨(topK_sorted row).1, (topK_sorted row).2.imp ?_⟩
  intro i j h
  unfold Before at h
  omega

theorem position_count {R : Nat → Nat → Prop} [DecidableRel R] (hirr : ∀ i, ¬ R i i) (hasym : ∀ i j, R i j → ¬ R j i) :
    ∀ (idx : List Nat), idx.Pairwise R → ∀ (p : Nat) (h : p < idx.length), idx.countP (fun i => decide (R i idx[p])) = p
  | [], _, p, h => absurd h (Nat.not_lt_zero _)
  | a :: idx, hs, 0, h => by
    rw [List.countP_eq_zero]
    intro i hi
    rw [List.getElem_cons_zero]
    rcases List.mem_cons.1 hi with hi | hi
    · rw [hi]; simpa using hirr a
    · simpa using hasym _ _ ((List.pairwise_cons.1 hs).1 i hi)
  | a :: idx, hs, p + 1, h => by
    have hp : p < idx.length := by simpa using h
    have h2 := (List.pairwise_cons.1 hs).1 _ (List.getElem_mem hp)
    rw [List.countP_cons_of_pos, List.getElem_cons_succ, position_count hirr hasym idx (List.pairwise_cons.1 hs).2 p hp]
    rw [List.getElem_cons_succ]
    simpa using h2

/-- The rank of position `c` is the number of positions before it. -/
theorem ranks_topK (row : List Int) {c : Nat} (hc : c < row.length) :
    (Metrics.ranks topK row).getD c 0 = (List.range row.length).countP fun i => decide (Before row i c) := by
  have ht := topK_topK
  have hinv := Metrics.ranks_inverse ht row
  obtain ⟨h1, h1s⟩ := topK_sorted row
  have hlen : (topK row).length = row.length := by rw [h1.length_eq, List.length_range]
  have hrl := Metrics.ranks_length ht row
  have h2 := ht ((topK row).map fun (i : Nat) => -(i : Int))
  rw [List.length_map, hlen] at h2
  have hc' : c < (Metrics.ranks topK row).length := by omega
  have hp : (Metrics.ranks topK row)[c] < row.length := List.mem_range.1 (h2.1.mem_iff.1 (List.getElem_mem hc'))
  have hp' : (Metrics.ranks topK row)[c] < (topK row).length := by omega
  have e : (topK row)[(Metrics.ranks topK row)[c]] = c := by
    have := congrArg (fun l => l[c]?) hinv
    simp only [List.getElem?_map, List.getElem?_eq_getElem hc', Option.map_some, List.getElem?_range hc,
      List.getD_eq_getElem?_getD, List.getElem?_eq_getElem hp', Option.getD_some] at this
    exact Option.some.inj this
  have := position_count (before_irrefl row) (fun _ _ => before_asymm) (topK row) h1s _ hp'
  simp only [e] at this
  rw [← h1.countP_eq, this, List.getD_eq_getElem?_getD, List.getElem?_eq_getElem hc', Option.getD_some]

theorem countP_range_getD (l : List Int) (f : Int → Bool) : (List.range l.length).countP (fun i => f (l.getD i 0)) = l.countP f := by
  have := Metrics.map_getElem_range l (0 : Int)
  conv => rhs; rw [← this]
  rw [List.countP_map]
  rfl

/-- The rank of the positive: the number of negatives that are as good. -/
theorem rankLast_eq {α : Type} (key : α → Int) (neg : List α) (p : α) :
    rankLast key neg p = neg.countP fun n => decide (key p ≤ key n) := by
  unfold rankLast
  have hl := Metrics.ranks_length topK_topK ((neg ++ [p]).map key)
  rw [List.length_map, List.length_append, List.length_singleton] at hl
  have e : ((Metrics.ranks topK ((neg ++ [p]).map key)).getLast?).getD 0 = (Metrics.ranks topK ((neg ++ [p]).map key)).getD neg.length 0 := by
    rw [List.getLast?_eq_getElem?, List.getD_eq_getElem?_getD, hl]
    rfl
  rw [e, ranks_topK _ (by simp)]
  have hlen : ((neg ++ [p]).map key).length = neg.length + 1 := by simp
  rw [hlen, List.range_succ, List.countP_append, List.countP_singleton, if_neg (by simpa using before_irrefl _ _), Nat.add_zero]
  have hp : ((neg ++ [p]).map key).getD neg.length 0 = key p := by simp
  have hn : ∀ i, i < neg.length → ((neg ++ [p]).map key).getD i 0 = (neg.map key).getD i 0 := by
    intro i hi
    rw [List.map_append]
    simp [List.getD_eq_getElem?_getD, List.getElem?_append_left (show i < (neg.map key).length by simpa using hi)]
  have : (List.range neg.length).countP (fun i => decide (Before ((neg ++ [p]).map key) i neg.length)) =
      (List.range neg.length).countP (fun i => decide (key p ≤ (neg.map key).getD i 0)) := by
    refine List.countP_congr fun i hi => ?_
    have hi := List.mem_range.1 hi
    simp only [decide_eq_true_eq]
    unfold Before
    rw [hp, hn i hi]
    omega
  rw [this]
  have h3 := countP_range_getD (neg.map key) (fun x => decide (key p ≤ x))
  rw [List.length_map] at h3
  rw [h3, List.countP_map]
  rfl

theorem lookup_range' {β : Type} (a b c : List β) : lookup (a ++ b ++ c) (List.range' a.length b.length) = some b := by
  unfold lookup
  have := mapM_range' (fun i => (a ++ b ++ c)[i]?) id b a.length (by
    intro i hi
    rw [List.append_assoc, List.getElem?_append_right (by omega), Nat.add_sub_cancel_left, List.getElem?_append_left hi,
      List.getElem?_eq_getElem hi]
    rfl)
  rw [this, List.map_id]

section
variable {α : Type} [Arith α]

theorem inner_eq (a b : Vec α) : inner a b = Spec.innerProduct a b := rfl

theorem mapM_take {β γ : Type} {f : β → Option γ} {l : List β} {r : List γ} (h : l.mapM f = some r) (n : Nat) :
    (l.take n).mapM f = some (r.take n) := by
  induction l generalizing r n with
  | nil => rw [List.mapM_nil] at h; cases h; simp
  | cons a l ih =>
    rw [List.mapM_cons] at h
    cases n with
    | zero => simp
    | succ n =>
      cases ha : f a with
      | none => rw [ha] at h; cases h
      | some y =>
        cases hl : l.mapM f with
        | none => rw [ha, hl] at h; cases h
        | some ys =>
          rw [ha, hl] at h
          cases h
          rw [List.take_succ_cons, List.mapM_cons, ha, ih hl n]
          rfl

/-- The nodes kept beside the vectors of the sources are the sources. -/
theorem unsup_nodes (counts : List Nat) (sample : Nat → List Int → Nat → List (List Int)) (seeds rest : List Int) :
    ((lookup ((queryNeighbor counts sample (seeds ++ rest)).2.headD []) (List.range' 0 seeds.length)).bind
      (lookup (queryNeighbor counts sample (seeds ++ rest)).1)) = some seeds := by
  have h := C79_ids counts sample (seeds ++ rest)
  unfold srcNodes at h
  simp only at h
  generalize (queryNeighbor counts sample (seeds ++ rest)).1 = nodes at h ⊢
  generalize (queryNeighbor counts sample (seeds ++ rest)).2.headD [] = idx at h ⊢
  have hl : idx.length = seeds.length + rest.length := by
    have := Retry.length_mapM h
    rw [← this, List.length_append]
  have e : lookup idx (List.range' 0 seeds.length) = some (idx.take seeds.length) := by
    have := lookup_range' (β := Nat) [] (idx.take seeds.length) (idx.drop seeds.length)
    rw [List.nil_append, List.take_append_drop, List.length_take, Nat.min_eq_left (by omega)] at this
    exact this
  rw [e]
  have := mapM_take h seeds.length
  rw [List.take_append_of_le_length (Nat.le_refl _), List.take_length] at this
  exact this

/-- The unsupervised model, given the output of the layers. -/
theorem unsup_eq {aggs : List (Agg α)} {counts dims : List Nat} {concat : Bool} {features : List Int → Option (Mat α)}
    {sample : Nat → List Int → Nat → List (List Int)} {seeds pos neg : List Int} {E : Spec.Tree → Vec α} {ts tp tn : List Spec.Tree}
    (norm : Vec α → Vec α) (key : α → Int) (one zero' : α → α) (weight : α)
    (hf : forward aggs counts dims concat features sample (seeds ++ pos ++ neg) = some ((ts ++ tp ++ tn).map E))
    (hs : ts.map Spec.Tree.id = seeds) (hp : tp.map Spec.Tree.id = pos) (hn : tn.map Spec.Tree.id = neg) (hl : pos.length = seeds.length) :
    unsup aggs counts dims concat features norm key one zero' weight sample seeds pos neg =
      some ⟨seeds, ts.map fun t => norm (E t),
        divNat (add (total ((ts.zip tp).map fun p => one (Spec.innerProduct (norm (E p.1)) (norm (E p.2)))))
          (mul weight (total ((ts.flatMap fun t => tn.map fun u => zero' (Spec.innerProduct (norm (E t)) (norm (E u))))))))
          seeds.length,
        Spec.meanRat ((ts.zip tp).map fun p => Spec.reciprocalRank key (Spec.innerProduct (norm (E p.1)) (norm (E p.2)))
          (tn.map fun u => Spec.innerProduct (norm (E p.1)) (norm (E u))))⟩ := by
  have ls : ts.length = seeds.length := by rw [← hs, List.length_map]
  have lp : tp.length = pos.length := by rw [← hp, List.length_map]
  have ln : tn.length = neg.length := by rw [← hn, List.length_map]
  have hlen : ts.length = tp.length := by omega
  have e1 : ((ts ++ tp ++ tn).map E).map norm = ts.map (fun t => norm (E t)) ++ tp.map (fun t => norm (E t)) ++ tn.map (fun t => norm (E t)) := by
    simp [List.map_map, Function.comp_def]
  generalize hN : (fun t => norm (E t)) = N at e1
  have hNt : ∀ t, norm (E t) = N t := fun t => by rw [← hN]
  have l1 : lookup (ts.map N ++ tp.map N ++ tn.map N) (List.range' 0 seeds.length) = some (ts.map N) := by
    have := lookup_range' [] (ts.map N) (tp.map N ++ tn.map N)
    rw [List.nil_append, List.length_map, ls, ← List.append_assoc] at this
    exact this
  have l2 : lookup (ts.map N ++ tp.map N ++ tn.map N) (List.range' seeds.length pos.length) = some (tp.map N) := by
    have := lookup_range' (ts.map N) (tp.map N) (tn.map N)
    rw [List.length_map, List.length_map, ls, lp] at this
    exact this
  have l3 : lookup (ts.map N ++ tp.map N ++ tn.map N)
      (List.range' (seeds.length + pos.length) ((seeds ++ pos ++ neg).length - (seeds.length + pos.length))) = some (tn.map N) := by
    have := lookup_range' (ts.map N ++ tp.map N) (tn.map N) []
    rw [List.append_nil, List.length_append, List.length_map, List.length_map, List.length_map, ls, lp, ln] at this
    rw [List.length_append, List.length_append, Nat.add_sub_cancel_left]
    exact this
  have l4 := unsup_nodes counts sample seeds (pos ++ neg)
  rw [← List.append_assoc] at l4
  have haff : affinity (ts.map N) (tp.map N) = some ((ts.zip tp).map fun p => Spec.innerProduct (N p.1) (N p.2)) := by
    unfold affinity
    rw [if_pos (by rw [List.length_map, List.length_map, hlen]), List.zipWith_map]
    congr 1
    rw [List.zip, List.map_zipWith]
    rfl
  have hneg : negCost (ts.map N) (tn.map N) = ts.map fun t => tn.map fun u => Spec.innerProduct (N t) (N u) := by
    unfold negCost
    rw [List.map_map]
    refine List.map_congr_left fun t _ => ?_
    simp only [Function.comp_apply, List.map_map]
    rfl
  unfold unsup mergeNodes
  simp only [hf, e1, Option.bind_eq_bind, Option.bind_some, l1, l2, l3]
  obtain ⟨mid, hm1, hm2⟩ := Option.bind_eq_some_iff.1 l4
  rw [hm1, Option.bind_some, hm2, Option.bind_some]
  unfold calcMrr xentLoss
  simp only [haff, hneg, Option.bind_eq_bind, Option.bind_some, hNt]
  congr 2
  · rw [List.map_map, List.length_map, ls]
    congr 3
    rw [List.map_flatten, List.map_map, List.flatMap_def]
    congr 3
    simp only [Function.comp_def, List.map_map]
  · have : List.zipWith (rankLast key) (ts.map fun t => tn.map fun u => Spec.innerProduct (N t) (N u))
        ((ts.zip tp).map fun p => Spec.innerProduct (N p.1) (N p.2)) =
        (ts.zip tp).map fun p => ((tn.map fun u => Spec.innerProduct (N p.1) (N u)).filter fun n =>
          decide (key (Spec.innerProduct (N p.1) (N p.2)) ≤ key n)).length := by
      clear l1 l2 l3 hf hm1 hm2 l4 e1 haff hneg hs hp ls lp
      induction ts generalizing tp with
      | nil => rfl
      | cons t ts ih =>
        cases tp with
        | nil => cases hlen
        | cons u tp =>
          simp only [List.map_cons, List.zip_cons_cons, List.zipWith_cons_cons]
          rw [ih (by simpa using hlen), rankLast_eq, List.countP_eq_length_filter]
    rw [this, Spec.meanRat, List.map_map, List.length_map, List.length_map]
    rfl

end
end DeepGNN.SagePairs
