import Verif.Proofs.Weighted

/-
How often each neighbour is chosen when one neighbour is sampled, over all draws of a fine enough grid.
-/

namespace DeepGNN

open Spec

/-! Counting -/

theorem sum_lt (w t : Nat) (hw : w ≤ t) (A B : Int) :
    ((List.range t).map fun a => if a < w then A else B).sum = w * A + ((t : Int) - w) * B := by
  induction t with
  | zero => obtain rfl : w = 0 := by omega
            simp
  | succ t ih =>
    rw [List.range_succ, List.map_append, List.sum_append]
    by_cases h : w ≤ t
    · rw [ih h]
      simp only [List.map_cons, List.map_nil, List.sum_cons, List.sum_nil, Int.add_zero]
      rw [if_neg (by omega), show ((t + 1 : Nat) : Int) - w = ((t : Int) - w) + 1 by omega, Int.add_mul, Int.one_mul]
      omega
    · obtain rfl : w = t + 1 := by omega
      have : ((List.range t).map fun a => if a < t + 1 then A else B) = (List.range t).map fun _ => A := by
        apply List.map_congr_left
        intro a ha
        have := List.mem_range.1 ha
        rw [if_pos (by omega)]
      rw [this]
      simp only [List.map_const', List.length_range, List.map_cons, List.map_nil, List.sum_cons,
        List.sum_nil, Int.add_zero]
      rw [if_pos (by omega), Int.sub_self, Int.zero_mul, Int.add_zero]
      have : ∀ n : Nat, (List.replicate n A).sum = n * A := by
        intro n
        induction n with
        | zero => simp
        | succ n ih =>
          rw [List.replicate_succ, List.sum_cons, ih, show ((n + 1 : Nat) : Int) = n + 1 by omega, Int.add_mul]
          omega
      rw [this, show ((t + 1 : Nat) : Int) = t + 1 by omega, Int.add_mul, Int.one_mul]

theorem sum_mod (w t q : Nat) (hw : w ≤ t) (A B : Int) :
    ((List.range (t * q)).map fun a => if a % t < w then A else B).sum = q * (w * A + ((t : Int) - w) * B) := by
  induction q with
  | zero => simp
  | succ q ih =>
    rw [Nat.mul_succ, List.range_add, List.map_append, List.sum_append, ih, List.map_map]
    have : ((List.range t).map ((fun a => if a % t < w then A else B) ∘ fun x => t * q + x)) =
        (List.range t).map fun a => if a < w then A else B := by
      apply List.map_congr_left
      intro a ha
      have := List.mem_range.1 ha
      simp only [Function.comp]
      rw [Nat.mul_add_mod, Nat.mod_eq_of_lt this]
    rw [this, sum_lt w t hw, show ((q + 1 : Nat) : Int) = q + 1 by omega, Int.add_mul, Int.one_mul]

theorem sum_flatMap {α} (l : List α) (f : α → List Int) : (l.flatMap f).sum = (l.map fun a => (f a).sum).sum := by
  induction l with
  | nil => rfl
  | cons a l ih => rw [List.flatMap_cons, List.sum_append, ih, List.map_cons, List.sum_cons]

theorem sum_tuples_succ (M k : Nat) (f : List Nat → Int) :
    ((tuples M (k + 1)).map f).sum = ((List.range M).map fun a => ((tuples M k).map fun cs => f (a :: cs)).sum).sum := by
  simp only [tuples]
  rw [List.map_flatMap, sum_flatMap]
  simp only [List.map_map, Function.comp_def]

theorem sum_const {α} (l : List α) (c : Int) : (l.map fun _ => c).sum = l.length * c := by
  induction l with
  | nil => simp
  | cons a l ih =>
    rw [List.map_cons, List.sum_cons, ih, List.length_cons, show ((l.length + 1 : Nat) : Int) = l.length + 1 by omega,
      Int.add_mul]
    omega

theorem length_tuples (M k : Nat) : ((tuples M k).length : Int) = (M : Int) ^ k := by
  induction k with
  | zero => rfl
  | succ k ih =>
    have h1 := sum_const (tuples M (k + 1)) 1
    have h2 := sum_tuples_succ M k fun _ => 1
    rw [h1] at h2
    simp only [sum_const, Int.mul_one, List.length_range] at h2
    rw [h2, ih, Int.pow_succ, Int.mul_comm]

/-- The type chosen by the coins, for one sample. -/
def chooseGroup (coin : Nat → Nat) (c : Nat) : List (List Nbr) → Int → Option (List Nbr)
  | [], _ => none
  | l :: ls, total =>
    if total = 0 then none
    else if nsum l = total ∨ (coin c : Int) % total < nsum l then some l
    else chooseGroup coin (c + 1) ls (total - nsum l)

theorem chooseGroup_shift (coin : Nat → Nat) (c : Nat) (ls : List (List Nbr)) (t : Int) :
    chooseGroup coin (c + 1) ls t = chooseGroup (fun i => coin (i + 1)) c ls t := by
  induction ls generalizing c t with
  | nil => rfl
  | cons l ls ih => simp only [chooseGroup, ih]

theorem weightedGroups_zero (D : WDraws) (rate : Int × Int) (xs : List WGroup) (t : Int) (c r : Nat) :
    weightedGroups D rate xs t 0 c r = some [] := by
  cases xs <;> simp [weightedGroups]

theorem binomial_one (D : WDraws) (c : Nat) (a b : Int) :
    D.binomial c 1 a b = if (D.coin c : Int) % b < a then 1 else 0 := by
  simp only [WDraws.binomial, List.range_one, List.filter_cons, List.filter_nil, Nat.add_zero]
  split <;> rename_i h <;> simp only [decide_eq_true_eq] at h <;> simp [h]

theorem weightedGroups_one (D : WDraws) (rate : Int × Int) (ls : List (List Nbr)) (hl : GroupsOk ls)
    (hle : nsum ls.flatten ≤ 2 ^ 24) (c : Nat) :
    weightedGroups D rate (ls.map GW) (nsum ls.flatten) 1 c 0 =
      match chooseGroup D.coin c ls (nsum ls.flatten) with
      | none => some []
      | some l => (weightedTake D (GW l) rate 1 0).map (·.1) := by
  induction ls generalizing c with
  | nil => rfl
  | cons l ls ih =>
    have hok : GroupsOk ls := fun k hk => hl k (by simp [hk])
    obtain ⟨hne, hn⟩ := hl l (by simp)
    have hs0 := hn.sum
    have hs1 := hok.nonNeg.sum
    rw [List.flatten_cons, nsum_append] at hle ⊢
    rw [List.map_cons, weightedGroups, chooseGroup]
    by_cases h0 : nsum l + nsum ls.flatten = 0
    · rw [if_pos (Or.inl h0), if_pos h0]
    · rw [if_neg (by omega), if_neg h0, GW_last hne, Option.bind_some]
      by_cases h1 : nsum l = nsum l + nsum ls.flatten ∨
          (D.coin c : Int) % (nsum l + nsum ls.flatten) < nsum l
      · rw [if_pos h1]
        have hk : (if nsum l = nsum l + nsum ls.flatten then 1
          else D.binomial c 1 (nsum l) (nsum l + nsum ls.flatten)) = 1 := by
          split
          · rfl
          · rename_i h2
            rw [binomial_one, if_pos]
            rcases h1 with h1 | h1
            · exact absurd h1 h2
            · exact h1
        dsimp only
        rw [hk]
        simp only [Nat.sub_self, weightedGroups_zero, Option.map_some, List.append_nil]
        cases weightedTake D (GW l) rate 1 0 <;> rfl
      · rw [if_neg h1]
        have hk : (if nsum l = nsum l + nsum ls.flatten then 1
          else D.binomial c 1 (nsum l) (nsum l + nsum ls.flatten)) = 0 := by
          rw [if_neg (fun h => h1 (Or.inl h)), binomial_one, if_neg (fun h => h1 (Or.inr h))]
        dsimp only
        rw [hk]
        rw [show weightedTake D (GW l) rate 0 0 = some ([], 0) from rfl]
        simp only [Option.bind_some, List.nil_append, Nat.sub_zero]
        rw [show nsum l + nsum ls.flatten - nsum l = nsum ls.flatten by omega, f32_small (by omega),
          ih hok (by omega) (c + 1)]
        exact Option.map_id'

/-- Each type is chosen in proportion to its weight. -/
theorem chooseGroup_count (M : Nat) (F : Option (List Nbr) → Int) (ls : List (List Nbr)) (hl : GroupsOk ls)
    (hpos : 0 < nsum ls.flatten) (hM : ∀ d : Nat, 0 < d → (d : Int) ≤ nsum ls.flatten → d ∣ M)
    (K : Nat) (hK : ls.length ≤ K) :
    nsum ls.flatten * ((tuples M K).map fun cs => F (chooseGroup (fun i => cs.getD i 0) 0 ls (nsum ls.flatten))).sum =
      (M : Int) ^ K * (ls.map fun l => nsum l * F (some l)).sum := by
  induction ls generalizing K with
  | nil => simp at hpos
  | cons l ls ih =>
    have hok : GroupsOk ls := fun k hk => hl k (by simp [hk])
    obtain ⟨hne, hn⟩ := hl l (by simp)
    have hs0 := hn.sum
    have hs1 := hok.nonNeg.sum
    rw [List.flatten_cons, nsum_append] at hpos hM ⊢
    obtain ⟨K, rfl⟩ : ∃ K', K = K' + 1 := ⟨K - 1, by simp at hK; omega⟩
    simp only [List.length_cons, Nat.add_le_add_iff_right] at hK
    rw [List.map_cons, List.sum_cons]
    by_cases h0 : nsum ls.flatten = 0
    · have hz : ∀ ls : List (List Nbr), GroupsOk ls → nsum ls.flatten = 0 → (ls.map fun l => nsum l * F (some l)).sum = 0 := by
        intro ls
        induction ls with
        | nil => intros; rfl
        | cons k ls ih =>
          intro hok h
          have h1 := (hok k (by simp)).2.sum
          have h2 : GroupsOk ls := fun l hl => hok l (by simp [hl])
          have h3 := h2.nonNeg.sum
          rw [List.flatten_cons, nsum_append] at h
          rw [List.map_cons, List.sum_cons, ih h2 (by omega), show nsum k = 0 by omega]
          simp
      rw [hz ls hok h0, h0, Int.add_zero, Int.add_zero]
      have : ((tuples M (K + 1)).map fun cs => F (chooseGroup (fun i => cs.getD i 0) 0 (l :: ls) (nsum l))) =
          (tuples M (K + 1)).map fun _ => F (some l) := by
        apply List.map_congr_left
        intro cs _
        rw [chooseGroup, if_neg (by omega), if_pos (Or.inl rfl)]
      rw [this, sum_const, length_tuples]
      simp only [Int.mul_left_comm]
    · obtain ⟨w, hw⟩ := Int.eq_ofNat_of_zero_le hs0
      obtain ⟨t, ht⟩ := Int.eq_ofNat_of_zero_le (show 0 ≤ nsum l + nsum ls.flatten by omega)
      obtain ⟨q, hq⟩ := hM t (by omega) (by omega)
      have ihr := ih hok (by omega) (fun d h1 h2 => hM d h1 (by omega)) K hK
      rw [sum_tuples_succ]
      have hinner : ((List.range M).map fun a => ((tuples M K).map fun cs => F (chooseGroup (fun i => (a :: cs).getD i 0) 0
          (l :: ls) (nsum l + nsum ls.flatten))).sum) = (List.range M).map fun a => if a % t < w then
            (M : Int) ^ K * F (some l) else ((tuples M K).map fun cs => F (chooseGroup (fun i => cs.getD i 0) 0 ls
              (nsum ls.flatten))).sum := by
        apply List.map_congr_left
        intro a _
        by_cases h : a % t < w
        · rw [if_pos h, ← length_tuples, ← sum_const]
          congr 1
          apply List.map_congr_left
          intro cs _
          rw [chooseGroup, if_neg (by omega), if_pos]
          right
          simp only [List.getD_cons_zero]
          rw [ht, hw]
          exact_mod_cast h
        · rw [if_neg h]
          congr 1
          apply List.map_congr_left
          intro cs _
          rw [chooseGroup, if_neg (by omega), if_neg, chooseGroup_shift]
          · simp only [List.getD_cons_succ]
            rw [show nsum l + nsum ls.flatten - nsum l = nsum ls.flatten by omega]
          · simp only [List.getD_cons_zero, not_or]
            refine ⟨by omega, ?_⟩
            rw [ht, hw]
            exact_mod_cast h
      rw [hinner]
      generalize ((tuples M K).map fun cs => F (chooseGroup (fun i => cs.getD i 0) 0 ls
              (nsum ls.flatten))).sum = S at ihr ⊢
      rw [hq, sum_mod w t q (by omega), ← hq, Int.mul_add, Int.pow_succ]
      have e1 : (M : Int) = t * q := by exact_mod_cast hq
      rw [ht, hw, show (t : Int) - w = nsum ls.flatten by omega, Int.mul_add, Int.mul_add, ihr]
      generalize (M : Int) ^ K = P
      generalize (ls.map fun l => nsum l * F (some l)).sum = G
      have : (t : Int) * (q * (w * (P * F (some l)))) + t * (q * (P * G)) =
        (t * q) * (P * (w * F (some l))) + (t * q) * (P * G) := by
        simp only [Int.mul_assoc, Int.mul_left_comm, Int.mul_comm]
      rw [this, ← e1]
      simp only [Int.mul_assoc, Int.mul_left_comm, Int.mul_comm]

theorem nbrWeight_append (l k : List Nbr) (y : Nbr) : nbrWeight (l ++ k) y = nbrWeight l y + nbrWeight k y := by
  simp [nbrWeight]

theorem nbrWeight_flatten (ls : List (List Nbr)) (y : Nbr) :
    nbrWeight ls.flatten y = (ls.map fun l => nbrWeight l y).sum := by
  induction ls with
  | nil => rfl
  | cons l ls ih => rw [List.flatten_cons, nbrWeight_append, ih, List.map_cons, List.sum_cons]

theorem nbrWeight_zero {l : List Nbr} (hn : NonNeg l) (h : nsum l = 0) (y : Nbr) : nbrWeight l y = 0 := by
  induction l with
  | nil => rfl
  | cons z l ih =>
    have hz := hn z (by simp)
    have hn' : NonNeg l := fun x hx => hn x (by simp [hx])
    have hs := hn'.sum
    rw [nsum_cons] at h
    have := ih hn' (by omega)
    simp only [nbrWeight, List.filter_cons] at this ⊢
    split
    · rw [List.map_cons, List.sum_cons, this]; omega
    · exact this

theorem sum_replicate_int (n : Nat) (A : Int) : (List.replicate n A).sum = n * A := by
  have := sum_const (List.range n) A
  rwa [List.map_const', List.length_range] at this

theorem sum_picks (m : Nat) (l : List Nbr) (hn : NonNeg l) (y : Nbr) :
    (((l.flatMap fun y => List.replicate ((m : Int) * y.weight).toNat y).map some).map
      fun o => if o = some y then (1 : Int) else 0).sum = m * nbrWeight l y := by
  induction l with
  | nil => simp [nbrWeight]
  | cons z l ih =>
    have hz := hn z (by simp)
    have hmz : 0 ≤ (m : Int) * z.weight := Int.mul_nonneg (by omega) hz
    rw [List.flatMap_cons, List.map_append, List.map_append, List.sum_append, ih fun x hx => hn x (by simp [hx])]
    simp only [List.map_replicate, sum_replicate_int, nbrWeight, List.filter_cons, Option.some.injEq, decide_eq_true_eq]
    split
    · rename_i h
      rw [List.map_cons, List.sum_cons, Int.mul_add, Int.mul_one]; omega
    · simp

theorem sum_pick_mids {l : List Nbr} (hn : NonNeg l) (hpos : 0 < nsum l) (m q : Nat) (hq : (q : Int) = m * nsum l)
    (y : Nbr) : ((mids q).map fun u => if weightedPick (GW l) u = some y then (1 : Int) else 0).sum =
      m * nbrWeight l y := by
  rw [← sum_picks m l hn y, ← pick_mids hn hpos m q hq, List.map_map]
  rfl

theorem sum_skip (q m t acc : Nat) (hacc : 0 < acc) (hq : q = m * acc) (ht : t ≤ acc) (A B : Int) :
    ((mids q).map fun u => if (u.1 : Int) * acc > u.2 * t then A else B).sum =
      (m * t : Int) * B + (q - m * t) * A := by
  have : ((mids q).map fun u => if (u.1 : Int) * acc > u.2 * t then A else B) =
      (List.range q).map fun a => if a < m * t then B else A := by
    rw [mids, List.map_map]
    apply List.map_congr_left
    intro a _
    simp only [Function.comp]
    have e : ((2 * q : Nat) : Int) * t = (2 * (m * t) : Int) * acc := by
      rw [hq]; push_cast
      simp only [Int.mul_assoc, Int.mul_comm, Int.mul_left_comm]
    rw [e]
    by_cases h : a < m * t
    · rw [if_neg, if_pos h]
      have h' : (2 * a + 1 : Int) ≤ 2 * (m * t) := by
        have : ((a : Nat) : Int) < m * t := by exact_mod_cast h
        omega
      have := Int.mul_le_mul_of_nonneg_right h' (show (0 : Int) ≤ acc by omega)
      push_cast; omega
    · rw [if_pos, if_neg h]
      have h' : (2 * (m * t) : Int) < 2 * a + 1 := by
        have : ((m : Int) * t) ≤ a := by exact_mod_cast Nat.le_of_not_lt h
        omega
      have := Int.mul_lt_mul_of_pos_right h' (show (0 : Int) < acc by omega)
      push_cast; omega
  rw [this, sum_lt (m * t) q (by rw [hq]; exact Nat.mul_le_mul_left m ht)]
  push_cast; rfl

/-- How often one sample from the type `l` has result `o`, over the two numbers. -/
def takeCounts (Q : Nat) (rate : Int × Int) (o : List Nbr) (l : List Nbr) : Int :=
  ((mids Q).map fun u => ((mids Q).map fun v =>
    if (weightedTake (mkDraws [] u v) (GW l) rate 1 0).map (·.1) = some o then (1 : Int) else 0).sum).sum

theorem take_one (D : WDraws) {l : List Nbr} (hD : D.Ok) (hn : NonNeg l) (hpos : 0 < nsum l) (rate : Int × Int) :
    (weightedTake D (GW l) rate 1 0).map (·.1) =
      if rate.1 < rate.2 ∧ ((D.real 0).1 : Int) * rate.2 > (D.real 0).2 * rate.1 then some []
      else (weightedPick (GW l) (if rate.1 < rate.2 then D.real 1 else D.real 0)).map fun y => [y] := by
  simp only [weightedTake]
  split
  · rfl
  · split
    · obtain ⟨y, h, -⟩ := pick_mem hn hpos (D.real 1) (hD 1)
      rw [h]; rfl
    · obtain ⟨y, h, -⟩ := pick_mem hn hpos (D.real 0) (hD 0)
      rw [h]; rfl

theorem mkDraws_ok {cs : List Nat} {u v : Nat × Nat} (hu : u.1 < u.2) (hv : v.1 < v.2) : (mkDraws cs u v).Ok := by
  intro i
  simp only [mkDraws]
  split
  · exact hu
  · exact hv

section
variable {cs : List Nat} {u v : Nat × Nat} (hu : u.1 < u.2) (hv : v.1 < v.2) {l : List Nbr} (hn : NonNeg l)
  (hpos : 0 < nsum l)
include hu hv hn hpos

theorem take_skip {t acc : Int} (h : t < acc) (hs : (u.1 : Int) * acc > u.2 * t) :
    (weightedTake (mkDraws cs u v) (GW l) (t, acc) 1 0).map (·.1) = some [] := by
  rw [take_one _ (mkDraws_ok hu hv) hn hpos, if_pos ⟨h, hs⟩]

theorem take_new {t acc : Int} (h : t < acc) (hs : ¬ (u.1 : Int) * acc > u.2 * t) :
    (weightedTake (mkDraws cs u v) (GW l) (t, acc) 1 0).map (·.1) = (weightedPick (GW l) v).map fun y => [y] := by
  rw [take_one _ (mkDraws_ok hu hv) hn hpos, if_neg (fun hh => hs hh.2), if_pos h]; rfl

theorem take_full {t : Int} : (weightedTake (mkDraws cs u v) (GW l) (t, t) 1 0).map (·.1) =
    (weightedPick (GW l) u).map fun y => [y] := by
  rw [take_one _ (mkDraws_ok hu hv) hn hpos, if_neg (fun hh => Int.lt_irrefl _ hh.1), if_neg (Int.lt_irrefl _)]; rfl

end

theorem map_single_eq {o : Option Nbr} {y : Nbr} : (o.map fun y => [y]) = some [y] ↔ o = some y := by
  cases o <;> simp

theorem map_single_ne {o : Option Nbr} : ¬ (o.map fun y => [y]) = some [] := by
  cases o <;> simp

theorem takeCounts_eq (Q : Nat) (l : List Nbr) (hn : NonNeg l) (hpos : 0 < nsum l) (t acc : Nat) (ht : t ≤ acc)
    (hacc : 0 < acc) (hw : nsum l ≤ t) (hQ : ∀ d : Nat, 0 < d → d ≤ acc → d ∣ Q) (y : Nbr) :
    (acc : Int) * (nsum l * takeCounts Q (t, acc) [y] l) = (Q * Q : Int) * (t * nbrWeight l y) ∧
    (acc : Int) * takeCounts Q (t, acc) [] l = (Q * Q : Int) * (acc - t) := by
  obtain ⟨w, hw'⟩ := Int.eq_ofNat_of_zero_le (Int.le_of_lt hpos)
  obtain ⟨k, hk⟩ := hQ w (by omega) (by omega)
  obtain ⟨m, hm⟩ := hQ acc hacc (Nat.le_refl _)
  have hpick := sum_pick_mids hn hpos k Q (by rw [hk, hw']; push_cast; rw [Int.mul_comm]) y
  have hQk : (Q : Int) = w * k := by exact_mod_cast hk
  have hQm : (Q : Int) = acc * m := by exact_mod_cast hm
  by_cases hlt : t < acc
  · constructor
    · have : takeCounts Q (t, acc) [y] l = ((mids Q).map fun u => if (u.1 : Int) * acc > u.2 * t then (0 : Int) else
          k * nbrWeight l y).sum := by
        rw [takeCounts]
        congr 1
        apply List.map_congr_left
        intro u hu
        rw [← hpick]
        by_cases h : (u.1 : Int) * acc > u.2 * t
        · rw [if_pos h]
          have : ∀ v ∈ mids Q, (if (weightedTake (mkDraws [] u v) (GW l) (t, acc) 1 0).map (·.1) = some [y] then (1 : Int)
              else 0) = 0 := by
            intro v hv
            rw [take_skip (mids_lt u hu).1 (mids_lt v hv).1 hn hpos (by omega) h]
            simp
          rw [List.map_congr_left this, sum_const]; simp
        · rw [if_neg h]
          congr 1
          apply List.map_congr_left
          intro v hv
          simp only [take_new (mids_lt u hu).1 (mids_lt v hv).1 hn hpos (show (t : Int) < acc by omega) h,
            map_single_eq]
      rw [this, sum_skip Q m t acc hacc (by rw [hm, Nat.mul_comm]) (by omega), Int.mul_zero, Int.add_zero, hw']
      have : (acc : Int) * (w * (m * t * (k * nbrWeight l y))) = (acc * m) * (w * k) * (t * nbrWeight l y) := by
        simp only [Int.mul_assoc, Int.mul_comm, Int.mul_left_comm]
      rw [this, ← hQk, ← hQm]
    · have : takeCounts Q (t, acc) [] l = ((mids Q).map fun u => if (u.1 : Int) * acc > u.2 * t then (Q : Int) else 0).sum := by
        rw [takeCounts]
        congr 1
        apply List.map_congr_left
        intro u hu
        by_cases h : (u.1 : Int) * acc > u.2 * t
        · rw [if_pos h]
          have : ∀ v ∈ mids Q, (if (weightedTake (mkDraws [] u v) (GW l) (t, acc) 1 0).map (·.1) = some [] then (1 : Int)
              else 0) = 1 := by
            intro v hv
            rw [take_skip (mids_lt u hu).1 (mids_lt v hv).1 hn hpos (by omega) h]
            simp
          rw [List.map_congr_left this, sum_const]; simp
        · rw [if_neg h]
          have : ∀ v ∈ mids Q, (if (weightedTake (mkDraws [] u v) (GW l) (t, acc) 1 0).map (·.1) = some [] then (1 : Int)
              else 0) = 0 := by
            intro v hv
            rw [take_new (mids_lt u hu).1 (mids_lt v hv).1 hn hpos (by omega) h, if_neg map_single_ne]
          rw [List.map_congr_left this, sum_const]; simp
      rw [this, sum_skip Q m t acc hacc (by rw [hm, Nat.mul_comm]) (by omega), Int.mul_zero, Int.zero_add,
        ← Int.mul_assoc, Int.mul_sub]
      have : (acc : Int) * (m * t) = Q * t := by rw [hQm, Int.mul_assoc]
      rw [this, Int.sub_mul, Int.mul_sub]
      simp only [Int.mul_assoc, Int.mul_comm, Int.mul_left_comm]
  · obtain rfl : t = acc := by omega
    constructor
    · have : takeCounts Q (t, t) [y] l = ((mids Q).map fun u => if weightedPick (GW l) u = some y then (Q : Int) else 0).sum := by
        rw [takeCounts]
        congr 1
        apply List.map_congr_left
        intro u hu
        have : ∀ v ∈ mids Q, (if (weightedTake (mkDraws [] u v) (GW l) (t, t) 1 0).map (·.1) = some [y] then (1 : Int)
              else 0) = if weightedPick (GW l) u = some y then 1 else 0 := by
          intro v hv
          simp only [take_full (mids_lt u hu).1 (mids_lt v hv).1 hn hpos, map_single_eq]
        rw [List.map_congr_left this, sum_const]
        split <;> simp
      have h2 : ((mids Q).map fun u => if weightedPick (GW l) u = some y then (Q : Int) else 0).sum =
          Q * ((mids Q).map fun u => if weightedPick (GW l) u = some y then (1 : Int) else 0).sum := by
        generalize mids Q = L
        induction L with
        | nil => simp
        | cons a L ih => simp only [List.map_cons, List.sum_cons, Int.mul_add, ih]; split <;> simp
      rw [this, h2, hpick, hw']
      have : (t : Int) * (w * (Q * (k * nbrWeight l y))) = Q * (w * k) * (t * nbrWeight l y) := by
        simp only [Int.mul_assoc, Int.mul_comm, Int.mul_left_comm]
      rw [this, ← hQk]
    · rw [Int.sub_self, Int.mul_zero]
      have : takeCounts Q (t, t) [] l = 0 := by
        rw [takeCounts]
        have : ∀ u ∈ mids Q, ((mids Q).map fun v => if (weightedTake (mkDraws [] u v) (GW l) (t, t) 1 0).map (·.1) = some []
            then (1 : Int) else 0).sum = 0 := by
          intro u hu
          have : ∀ v ∈ mids Q, (if (weightedTake (mkDraws [] u v) (GW l) (t, t) 1 0).map (·.1) = some [] then (1 : Int)
              else 0) = 0 := by
            intro v hv
            rw [take_full (mids_lt u hu).1 (mids_lt v hv).1 hn hpos, if_neg map_single_ne]
          rw [List.map_congr_left this, sum_const]; simp
        rw [List.map_congr_left this, sum_const]; simp
      rw [this]; simp

/-! One call -/

theorem sum_callDraws (M K Q : Nat) (f : WDraws → Int) : ((callDraws M K Q).map f).sum =
    ((tuples M K).map fun cs => ((mids Q).map fun u => ((mids Q).map fun v => f (mkDraws cs u v)).sum).sum).sum := by
  simp only [callDraws, List.map_flatMap, sum_flatMap, List.map_map, Function.comp_def]

theorem length_callDraws (M K Q : Nat) : ((callDraws M K Q).length : Int) = (M : Int) ^ K * (Q * Q) := by
  have h1 := sum_const (callDraws M K Q) 1
  rw [sum_callDraws] at h1
  simp only [sum_const, length_mids, length_tuples, Int.mul_one] at h1
  rw [← h1]

theorem weightedTake_real (D D' : WDraws) (h : D.real = D'.real) (x : WGroup) (rate : Int × Int) (n r : Nat) :
    weightedTake D x rate n r = weightedTake D' x rate n r := by
  induction n generalizing r with
  | zero => rfl
  | succ n ih => simp only [weightedTake, h, ih]

theorem sum_mul_left {α} (l : List α) (c : Int) (f : α → Int) : c * (l.map f).sum = (l.map fun a => c * f a).sum := by
  induction l with
  | nil => simp
  | cons a l ih => simp only [List.map_cons, List.sum_cons, Int.mul_add, ih]

theorem nsum_mem_le {ls : List (List Nbr)} (hl : GroupsOk ls) {l : List Nbr} (h : l ∈ ls) : nsum l ≤ nsum ls.flatten := by
  induction ls with
  | nil => simp at h
  | cons k ls ih =>
    have h1 : GroupsOk ls := fun l h => hl l (by simp [h])
    have h2 := h1.nonNeg.sum
    have h3 := (hl k (by simp)).2.sum
    rw [List.flatten_cons, nsum_append]
    rcases List.mem_cons.1 h with rfl | h
    · omega
    · have := ih h1 h; omega

/-- How often a call writes the neighbours `o`. -/
def callCounts (M K Q : Nat) (ls : List (List Nbr)) (acc : Int) (o : List Nbr) : Int :=
  ((callDraws M K Q).map fun D => if weightedGroups D (nsum ls.flatten, acc) (ls.map GW) (nsum ls.flatten) 1 0 0 =
    some o then (1 : Int) else 0).sum

theorem callCounts_eq (M K Q : Nat) (ls : List (List Nbr)) (hl : GroupsOk ls) (hpos : 0 < nsum ls.flatten)
    (acc : Nat) (ht : nsum ls.flatten ≤ acc) (hle : acc ≤ 2 ^ 24) (hM : ∀ d : Nat, 0 < d → d ≤ acc → d ∣ M)
    (hQ : ∀ d : Nat, 0 < d → d ≤ acc → d ∣ Q) (hK : ls.length ≤ K) (y : Nbr) :
    (acc : Int) * callCounts M K Q ls acc [y] = (callDraws M K Q).length * nbrWeight ls.flatten y ∧
    (acc : Int) * callCounts M K Q ls acc [] = (callDraws M K Q).length * (acc - nsum ls.flatten) := by
  have main : ∀ o, nsum ls.flatten * callCounts M K Q ls acc o =
      (M : Int) ^ K * (ls.map fun l => nsum l * takeCounts Q (nsum ls.flatten, acc) o l).sum := by
    intro o
    rw [← chooseGroup_count M (fun g => match g with
      | none => if some [] = some o then (Q * Q : Int) else 0
      | some l => takeCounts Q (nsum ls.flatten, acc) o l) ls hl hpos (fun d h1 h2 => hM d h1 (by omega)) K hK]
    congr 1
    rw [callCounts, sum_callDraws]
    congr 1
    apply List.map_congr_left
    intro cs _
    simp only [weightedGroups_one _ _ ls hl (show nsum ls.flatten ≤ 2 ^ 24 by omega)]
    cases hg : chooseGroup (fun i => cs.getD i 0) 0 ls (nsum ls.flatten) with
    | none =>
      have : ∀ u v, chooseGroup (mkDraws cs u v).coin 0 ls (nsum ls.flatten) = none := fun _ _ => hg
      simp only [this, sum_const, length_mids]
      split <;> simp
    | some l =>
      have : ∀ u v, chooseGroup (mkDraws cs u v).coin 0 ls (nsum ls.flatten) = some l := fun _ _ => hg
      simp only [this, takeCounts]
      have h2 : ∀ u v n r, weightedTake (mkDraws cs u v) (GW l) (nsum ls.flatten, ↑acc) n r =
        weightedTake (mkDraws [] u v) (GW l) (nsum ls.flatten, ↑acc) n r := fun u v n r =>
          weightedTake_real (mkDraws cs u v) (mkDraws [] u v) rfl _ _ _ _
      simp only [h2]
  obtain ⟨t, htn⟩ := Int.eq_ofNat_of_zero_le (Int.le_of_lt hpos)
  have hcase : ∀ l ∈ ls, nsum l = 0 ∨ (0 < nsum l ∧ nsum l ≤ t) := by
    intro l h
    have h1 := (hl l h).2.sum
    have h2 := nsum_mem_le hl h
    omega
  constructor
  · apply Int.eq_of_mul_eq_mul_left (a := nsum ls.flatten) (by omega)
    rw [Int.mul_left_comm, main, Int.mul_left_comm, sum_mul_left, length_callDraws, nbrWeight_flatten]
    have : ∀ l ∈ ls, (acc : Int) * (nsum l * takeCounts Q (nsum ls.flatten, acc) [y] l) =
        (Q * Q : Int) * nsum ls.flatten * nbrWeight l y := by
      intro l h
      rcases hcase l h with h0 | ⟨h1, h2⟩
      · rw [nbrWeight_zero (hl l h).2 h0, h0]; simp
      · have := (takeCounts_eq Q l (hl l h).2 h1 t acc (by omega) (by omega) h2 hQ y).1
        rw [htn, Int.mul_assoc]; exact this
    rw [List.map_congr_left this, ← sum_mul_left]
    simp only [Int.mul_assoc, Int.mul_comm, Int.mul_left_comm]
  · apply Int.eq_of_mul_eq_mul_left (a := nsum ls.flatten) (by omega)
    rw [Int.mul_left_comm, main, Int.mul_left_comm, sum_mul_left, length_callDraws]
    have : ∀ l ∈ ls, (acc : Int) * (nsum l * takeCounts Q (nsum ls.flatten, acc) [] l) =
        (Q * Q : Int) * (acc - nsum ls.flatten) * nsum l := by
      intro l h
      rcases hcase l h with h0 | ⟨h1, h2⟩
      · rw [h0]; simp
      · have := (takeCounts_eq Q l (hl l h).2 h1 t acc (by omega) (by omega) h2 hQ y).2
        rw [htn, Int.mul_left_comm, this, Int.mul_comm]
    rw [List.map_congr_left this, ← sum_mul_left, nsum_flatten]
    simp only [Int.mul_assoc, Int.mul_comm, Int.mul_left_comm]

/-! All calls for a node -/

theorem sum_callLists_succ (M K Q E : Nat) (f : List WDraws → Int) : ((callLists M K Q (E + 1)).map f).sum =
    ((callDraws M K Q).map fun D => ((callLists M K Q E).map fun ds => f (D :: ds)).sum).sum := by
  simp only [callLists, List.map_flatMap, sum_flatMap, List.map_map, Function.comp_def]

theorem length_callLists_succ (M K Q E : Nat) : ((callLists M K Q (E + 1)).length : Int) =
    (callDraws M K Q).length * (callLists M K Q E).length := by
  have h1 := sum_const (callLists M K Q (E + 1)) 1
  rw [sum_callLists_succ] at h1
  simp only [sum_const, Int.mul_one] at h1
  exact h1.symm

theorem absEntries_shift (D : Nat → WDraws) (count : Nat) (default : Nbr) (xss : List (List WGroup)) (out : List Nbr)
    (acc : Int) (s : Nat) : (absEntries D count default xss out acc (s + 1)).map (·.1) =
      (absEntries (fun i => D (i + 1)) count default xss out acc s).map (·.1) := by
  induction xss generalizing out acc s with
  | nil => rfl
  | cons xs xss ih =>
    simp only [absEntries]
    cases absPart (D (s + 1)) count default xs out acc with
    | none => rfl
    | some z => exact ih z.1 z.2 (s + 1)

def entryCounts (M K Q : Nat) (lss : List (List (List Nbr))) (default o : Nbr) (acc : Int) (y : Nbr) : Int :=
  ((callLists M K Q lss.length).map fun ds => if (absEntries (drawsOf ds) 1 default (lss.map (·.map GW)) [o] acc 0).map
    (·.1) = some [y] then (1 : Int) else 0).sum

theorem entryCounts_cons (M K Q : Nat) (ls : List (List Nbr)) (lss : List (List (List Nbr))) (default o : Nbr) (acc : Int)
    (y : Nbr) (res : WDraws → Nbr × Int)
    (h : ∀ D ∈ callDraws M K Q, absPart D 1 default (ls.map GW) [o] acc = some ([(res D).1], (res D).2)) :
    entryCounts M K Q (ls :: lss) default o acc y =
      ((callDraws M K Q).map fun D => entryCounts M K Q lss default (res D).1 (res D).2 y).sum := by
  rw [entryCounts, List.length_cons, sum_callLists_succ]
  congr 1
  apply List.map_congr_left
  intro D hD
  simp only [entryCounts]
  congr 1
  apply List.map_congr_left
  intro ds _
  simp only [List.map_cons, absEntries]
  have : absPart (drawsOf (D :: ds) 0) 1 default (ls.map GW) [o] acc = some ([(res D).1], (res D).2) := h D hD
  rw [this, Option.bind_some, absEntries_shift]
  rfl

theorem mem_callDraws_ok {M K Q : Nat} {D : WDraws} (h : D ∈ callDraws M K Q) : D.Ok := by
  simp only [callDraws, List.mem_flatMap, List.mem_map] at h
  obtain ⟨cs, -, u, hu, v, hv, rfl⟩ := h
  exact mkDraws_ok (mids_lt u hu).1 (mids_lt v hv).1

/-- The result of one sample after all calls: `y` in proportion to its weight, the earlier result `o` in
proportion to the earlier weight `acc`. -/
theorem entryCounts_eq (M K Q : Nat) (lss : List (List (List Nbr))) (hl : ∀ ls ∈ lss, GroupsOk ls)
    (default o : Nbr) (acc : Nat) (hpos : 0 < acc + nsum lss.flatten.flatten)
    (hle : acc + nsum lss.flatten.flatten ≤ 2 ^ 24)
    (hM : ∀ d : Nat, 0 < d → d ≤ acc + nsum lss.flatten.flatten → d ∣ M)
    (hQ : ∀ d : Nat, 0 < d → d ≤ acc + nsum lss.flatten.flatten → d ∣ Q) (hK : ∀ ls ∈ lss, ls.length ≤ K) (y : Nbr) :
    (acc + nsum lss.flatten.flatten) * entryCounts M K Q lss default o acc y =
      (callLists M K Q lss.length).length * (nbrWeight lss.flatten.flatten y + acc * (if o = y then 1 else 0)) := by
  induction lss generalizing o acc with
  | nil =>
    simp only [List.flatten_nil, nsum_nil, Int.add_zero, List.length_nil, callLists, List.length_singleton,
      entryCounts, List.map_nil, absEntries, Option.map_some, Option.some.injEq, List.cons.injEq, and_true,
      List.map_cons, List.sum_cons, List.sum_nil, nbrWeight, List.filter_nil]
    split <;> simp
  | cons ls lss ih =>
    have hok := hl ls (by simp)
    have hs1 := hok.nonNeg.sum
    have hs2 : 0 ≤ nsum lss.flatten.flatten := NonNeg.sum (by
      intro y hy
      obtain ⟨l, h1, h2⟩ := List.mem_flatten.1 hy
      obtain ⟨ks, h3, h4⟩ := List.mem_flatten.1 h1
      exact (hl ks (by simp [h3]) l h4).2 y h2)
    obtain ⟨t, ht⟩ := Int.eq_ofNat_of_zero_le hs1
    rw [List.flatten_cons, List.flatten_append, nsum_append] at hpos hle hM hQ
    rw [List.flatten_cons, List.flatten_append, nsum_append, nbrWeight_append, List.length_cons, length_callLists_succ]
    have ih' := fun o acc h1 h2 h3 h4 => ih (fun ls h => hl ls (by simp [h])) o acc h1 h2 h3 h4
      (fun ls h => hK ls (by simp [h]))
    by_cases h0 : nsum ls.flatten = 0
    · have hz : nbrWeight ls.flatten y = 0 := nbrWeight_zero hok.nonNeg h0 y
      rw [entryCounts_cons M K Q ls lss default o acc y (fun _ => (if acc = 0 then default else o, acc)) (by
        intro D _
        rw [absPart_eq D 1 default ls hok [o] acc (by omega) (by omega), if_pos h0]
        congr 2
        by_cases ha : acc = 0
        · rw [if_pos (by omega), if_pos ha]; rfl
        · rw [if_neg (by omega), if_neg ha]), sum_const, hz, h0]
      have := ih' (if acc = 0 then default else o) acc (by omega) (by omega) (fun d h1 h2 => hM d h1 (by omega))
        (fun d h1 h2 => hQ d h1 (by omega))
      rw [Int.zero_add, Int.zero_add, Int.mul_left_comm, this, Int.mul_assoc]
      congr 3
      by_cases ha : acc = 0
      · subst ha; simp
      · rw [if_neg ha]
    · have hcc := callCounts_eq M K Q ls hok (by omega) (acc + t) (by omega) (by omega)
        (fun d h1 h2 => hM d h1 (by omega)) (fun d h1 h2 => hQ d h1 (by omega)) (hK ls (by simp)) y
      -- the result of a call
      have hres : ∀ D ∈ callDraws M K Q, ∃ o', absPart D 1 default (ls.map GW) [o] acc = some ([o'], ((acc + t : Nat) : Int)) ∧
          (if o' = y then (1 : Int) else 0) =
            (if weightedGroups D (nsum ls.flatten, ((acc + t : Nat) : Int)) (ls.map GW) (nsum ls.flatten) 1 0 0 = some [y]
              then 1 else 0) +
            (if o = y then 1 else 0) *
            (if weightedGroups D (nsum ls.flatten, ((acc + t : Nat) : Int)) (ls.map GW) (nsum ls.flatten) 1 0 0 = some []
              then 1 else 0) := by
        intro D hD
        obtain ⟨ys, h1, h2, -, -⟩ := weightedGroups_spec D (mem_callDraws_ok hD)
          (nsum ls.flatten, ((acc + t : Nat) : Int)) ls hok (by omega) 1 0 0
        rw [absPart_eq D 1 default ls hok [o] acc (by omega) (by omega), if_neg h0,
          show (acc : Int) + nsum ls.flatten = ((acc + t : Nat) : Int) by omega, h1]
        match ys, h2 with
        | [], _ => exact ⟨o, rfl, by simp⟩
        | [z], _ => exact ⟨z, rfl, by simp⟩
        | a :: b :: ys, h2 => simp at h2
      have hex : ∃ res : WDraws → Nbr, ∀ D ∈ callDraws M K Q,
          absPart D 1 default (ls.map GW) [o] acc = some ([res D], ((acc + t : Nat) : Int)) ∧
          (if res D = y then (1 : Int) else 0) =
            (if weightedGroups D (nsum ls.flatten, ((acc + t : Nat) : Int)) (ls.map GW) (nsum ls.flatten) 1 0 0 = some [y]
              then 1 else 0) +
            (if o = y then 1 else 0) *
            (if weightedGroups D (nsum ls.flatten, ((acc + t : Nat) : Int)) (ls.map GW) (nsum ls.flatten) 1 0 0 = some []
              then 1 else 0) := by
        refine ⟨fun D => ((absPart D 1 default (ls.map GW) [o] acc).map fun z => z.1.headD o).getD o, ?_⟩
        intro D hD
        obtain ⟨o', h1, h2⟩ := hres D hD
        simp only [h1, Option.map_some, Option.getD_some, List.headD_cons]
        exact ⟨trivial, h2⟩
      obtain ⟨res, hres⟩ := hex
      rw [entryCounts_cons M K Q ls lss default o acc y (fun D => (res D, ((acc + t : Nat) : Int)))
        (fun D hD => (hres D hD).1), sum_mul_left]
      have hstep : ∀ D ∈ callDraws M K Q, ((acc : Int) + (nsum ls.flatten + nsum lss.flatten.flatten)) *
          entryCounts M K Q lss default (res D) ((acc + t : Nat) : Int) y =
          (callLists M K Q lss.length).length * nbrWeight lss.flatten.flatten y +
          (callLists M K Q lss.length).length * ((acc + t : Nat) *
            ((if weightedGroups D (nsum ls.flatten, ((acc + t : Nat) : Int)) (ls.map GW) (nsum ls.flatten) 1 0 0 = some [y]
              then (1 : Int) else 0) +
            (if o = y then (1 : Int) else 0) *
            (if weightedGroups D (nsum ls.flatten, ((acc + t : Nat) : Int)) (ls.map GW) (nsum ls.flatten) 1 0 0 = some []
              then (1 : Int) else 0))) := by
        intro D hD
        rw [← (hres D hD).2, ← Int.mul_add, ← ih' (res D) (acc + t) (by omega) (by omega)
          (fun d h1 h2 => hM d h1 (by omega)) (fun d h1 h2 => hQ d h1 (by omega))]
        congr 1; omega
      have hadd : ∀ (l : List WDraws) (f g : WDraws → Int), (l.map fun D => f D + g D).sum = (l.map f).sum + (l.map g).sum := by
        intro l f g
        induction l with
        | nil => rfl
        | cons a l ih => simp only [List.map_cons, List.sum_cons, ih]; omega
      rw [List.map_congr_left hstep, hadd, sum_const, ← sum_mul_left, ← sum_mul_left, hadd, ← sum_mul_left]
      simp only [callCounts] at hcc
      rw [Int.mul_add ((acc + t : Nat) : Int), hcc.1, Int.mul_left_comm _ (if o = y then (1 : Int) else 0), hcc.2,
        show ((acc + t : Nat) : Int) - nsum ls.flatten = acc by omega]
      simp only [Int.mul_add, Int.add_mul, Int.mul_assoc, Int.mul_left_comm, Int.mul_comm]
      omega

end DeepGNN
