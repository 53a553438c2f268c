import Verif.Proofs.Mean
import Verif.Proofs.WeightedShare

/-
Expected numbers of weighted samples.
-/

namespace DeepGNN

open Spec

/-! Means as sums -/

theorem rsum_ints {α : Type} (L : List α) (f : α → Int) : rsum (L.map fun a => (f a : Rat)) = ((L.map f).sum : Int) := by
  induction L with
  | nil => rfl
  | cons x L ih => simp only [List.map_cons, rsum_cons, ih, List.sum_cons, Rat.intCast_add]

theorem rsum_flatMap {α β : Type} (L : List α) (F : α → List β) (f : β → Rat) :
    rsum ((L.flatMap F).map f) = rsum (L.map fun a => rsum ((F a).map f)) := by
  induction L with
  | nil => rfl
  | cons x L ih => rw [List.flatMap_cons, List.map_append, rsum_append, ih, List.map_cons, rsum_cons]

theorem avg_flatMap {α β : Type} (L : List α) (F : α → List β) (c : Nat) (hF : ∀ a ∈ L, (F a).length = c) (f : β → Rat) :
    avg (L.flatMap F) f = avg L fun a => avg (F a) f := by
  have h1 : (L.flatMap F).length = L.length * c := by
    induction L with
    | nil => simp
    | cons x L ih =>
      rw [List.flatMap_cons, List.length_append, ih fun a ha => hF a (by simp [ha]), hF x (by simp), List.length_cons,
        Nat.succ_mul]
      omega
  have h2 : (avg L fun a => avg (F a) f) = avg L fun a => (c : Rat)⁻¹ * rsum ((F a).map f) := by
    apply avg_congr
    intro a ha
    rw [avg, hF a ha]; grind
  rw [h2, avg_mul, avg, avg, h1, rsum_flatMap, Rat.natCast_mul]
  grind

theorem avg_map {α β : Type} (L : List α) (F : α → β) (f : β → Rat) : avg (L.map F) f = avg L fun a => f (F a) := by
  simp [avg, List.map_map, Function.comp_def]

theorem length_tuples_nat (M k : Nat) : (tuples M k).length = M ^ k := by
  have := length_tuples M k
  rw [← Int.natCast_pow] at this
  exact Int.ofNat.inj this

theorem mean_tuples (M n : Nat) (f : List Nat → Rat) : mean (List.range M) n f = avg (tuples M n) f := by
  induction n generalizing f with
  | zero => simp [mean, avg, tuples, Rat.add_zero, Rat.div_def]; grind
  | succ n ih =>
    simp only [mean, tuples, ih]
    rw [avg_flatMap _ _ (M ^ n) (by intro a _; rw [List.length_map, length_tuples_nat])]
    simp only [avg_map]

theorem avg_grid (M K Q R : Nat) (f : WDraws → Rat) :
    avg (gridCalls M K Q R) f =
      mean (List.range M) K fun cs => mean (List.range Q) R fun us => f (gridDraws Q cs us) := by
  rw [gridCalls, avg_flatMap _ _ (Q ^ R) (by intro a _; rw [List.length_map, length_tuples_nat]), mean_tuples]
  simp only [avg_map, mean_tuples]

/-! One type -/

/-- Whether number `u` chooses `y`. -/
def hit (l : List Nbr) (Q : Nat) (y : Nbr) (u : Nat) : Rat :=
  if weightedPick (GW l) (2 * u + 1, 2 * Q) = some y then 1 else 0

theorem range_ne {Q : Nat} (h : 0 < Q) : List.range Q ≠ [] := by
  intro h0
  have := congrArg List.length h0
  simp at this; omega

theorem avg_hit {l : List Nbr} (hn : NonNeg l) (hpos : 0 < nsum l) {Q : Nat} (hQ0 : 0 < Q) (hQ : (nsum l).toNat ∣ Q) (y : Nbr) :
    avg (List.range Q) (hit l Q y) = nbrWeight l y / nsum l := by
  obtain ⟨m, hm⟩ := hQ
  have hq : (Q : Int) = m * nsum l := by
    rw [hm, Int.natCast_mul, Int.toNat_of_nonneg (by omega), Int.mul_comm]
  have h1 := sum_pick_mids hn hpos m Q hq y
  rw [mids, List.map_map] at h1
  have h2 : hit l Q y = fun u => ((((fun u => if weightedPick (GW l) u = some y then (1 : Int) else 0) ∘
      fun a => (2 * a + 1, 2 * Q)) u : Int) : Rat) := by
    funext u
    simp only [hit, Function.comp]
    split <;> rfl
  rw [avg, h2, rsum_ints, h1, List.length_range]
  have h3 : ((Q : Nat) : Rat) = (m : Rat) * ((nsum l : Int) : Rat) := by
    rw [show ((Q : Nat) : Rat) = ((Q : Int) : Rat) from rfl, hq, Rat.intCast_mul]; rfl
  have h4 : ((nsum l : Int) : Rat) ≠ 0 := by
    intro h; rw [show (0 : Rat) = ((0 : Int) : Rat) from rfl, Rat.intCast_inj] at h; omega
  have h5 : ((m : Nat) : Rat) ≠ 0 := by
    intro h
    rw [show (0 : Rat) = ((0 : Nat) : Rat) from rfl, Rat.natCast_inj] at h
    subst h; simp at hm; omega
  rw [h3, Rat.intCast_mul]
  show (m : Rat) * _ / _ = _
  grind

/-- Whether coin `a` is a success. -/
def success (w t : Int) (a : Nat) : Rat := if (a : Int) % t < w then 1 else 0

theorem avg_success {w t : Int} (hw : 0 ≤ w) (hwt : w ≤ t) (ht : 0 < t) {M : Nat} (hM0 : 0 < M) (hM : t.toNat ∣ M) :
    avg (List.range M) (success w t) = w / t := by
  obtain ⟨q, hq⟩ := hM
  have h1 := sum_mod w.toNat t.toNat q (by omega) 1 0
  have h2 : success w t = fun a => ((if a % t.toNat < w.toNat then (1 : Int) else 0 : Int) : Rat) := by
    funext a
    simp only [success]
    have : ((a : Int) % t < w) ↔ a % t.toNat < w.toNat := by
      have e : (a : Int) % t = ((a % t.toNat : Nat) : Int) := by
        rw [Int.natCast_emod, Int.toNat_of_nonneg (by omega)]
      rw [e]; omega
    simp only [this]
    split <;> rfl
  rw [avg, h2, rsum_ints, List.length_range]
  subst hq
  rw [h1, Int.mul_zero, Int.add_zero, Int.mul_one, Int.toNat_of_nonneg hw]
  have h3 : ((t.toNat * q : Nat) : Rat) = (t : Rat) * (q : Rat) := by
    rw [Rat.natCast_mul]
    congr 1
    rw [show ((t.toNat : Nat) : Rat) = ((t.toNat : Int) : Rat) from rfl, Int.toNat_of_nonneg (by omega)]
  have h4 : (t : Rat) ≠ 0 := by
    intro h; rw [show (0 : Rat) = ((0 : Int) : Rat) from rfl, Rat.intCast_inj] at h; omega
  have h5 : ((q : Nat) : Rat) ≠ 0 := by
    intro h
    rw [show (0 : Rat) = ((0 : Nat) : Rat) from rfl, Rat.natCast_inj] at h
    subst h; simp at hM0
  rw [h3, Rat.intCast_mul]
  show (q : Rat) * _ / _ = _
  grind

theorem take_hits (cs : List Nat) {l : List Nbr} (hn : NonNeg l) (hpos : 0 < nsum l) (rate : Int × Int) (hr : rate.1 = rate.2)
    {Q : Nat} (y : Nbr) (ts : List Nat) : ∀ (pr us : List Nat), (∀ u ∈ us, u < Q) →
    ∃ ys, weightedTake (gridDraws Q cs (pr ++ (us ++ ts))) (GW l) rate us.length pr.length = some (ys, pr.length + us.length) ∧
      ((ys.count y : Nat) : Rat) = rsum (us.map (hit l Q y)) := by
  intro pr us
  induction us generalizing pr with
  | nil => intro _; exact ⟨[], rfl, rfl⟩
  | cons u us ih =>
    intro hu
    rw [List.length_cons, weightedTake, if_neg (by omega), if_neg (by omega)]
    have hu0 := hu u (by simp)
    have hreal : (gridDraws Q cs (pr ++ (u :: us ++ ts))).real pr.length = (2 * u + 1, 2 * Q) := by
      simp [gridDraws]
    obtain ⟨z, h1, -, -⟩ := pick_mem hn hpos (2 * u + 1, 2 * Q) (by dsimp only; omega)
    obtain ⟨ys, h2, h3⟩ := ih (pr ++ [u]) fun v hv => hu v (by simp [hv])
    simp only [List.append_assoc, List.cons_append, List.nil_append, List.length_append, List.length_cons, List.length_nil] at h2
    refine ⟨z :: ys, ?_, ?_⟩
    · simp only [hreal, h1, Option.bind_some]
      rw [show u :: us ++ ts = u :: (us ++ ts) from rfl, h2]
      simp only [Option.map_some]
      congr 2; omega
    · rw [List.count_cons, List.map_cons, rsum_cons, ← h3, Rat.natCast_add, hit, h1]
      by_cases hz : z = y
      · simp [hz]; grind
      · simp [hz]; grind

theorem binomial_grid (Q : Nat) (us : List Nat) (w t : Int) (pc as ds : List Nat) :
    (gridDraws Q (pc ++ (as ++ ds)) us).binomial pc.length as.length w t =
      (as.filter fun a : Nat => decide ((a : Int) % t < w)).length := by
  have h : as = (List.range as.length).map fun i => as.getD i 0 := by
    apply List.ext_getElem
    · simp
    · intro i h1 h2; simp [h1]
  rw [WDraws.binomial]
  conv => rhs; rw [h, List.filter_map, List.length_map]
  congr 1
  apply List.filter_congr
  intro i hi
  have hi := List.mem_range.1 hi
  simp only [gridDraws, Function.comp, List.getD_eq_getElem?_getD]
  rw [List.getElem?_append_right (by omega), Nat.add_sub_cancel_left, List.getElem?_append_left hi]

theorem length_filter_rsum (as : List Nat) (w t : Int) :
    (((as.filter fun a : Nat => decide ((a : Int) % t < w)).length : Nat) : Rat) = rsum (as.map (success w t)) := by
  induction as with
  | nil => rfl
  | cons a as ih =>
    rw [List.filter_cons, List.map_cons, rsum_cons, ← ih, success]
    by_cases h : (a : Int) % t < w
    · simp only [h, decide_true, if_true, List.length_cons, Rat.natCast_add]; grind
    · simp only [h, decide_false, if_false, Bool.false_eq_true]; grind

theorem gridDraws_ok {Q : Nat} (hQ : 0 < Q) (cs us : List Nat) (h : ∀ u ∈ us, u < Q) : (gridDraws Q cs us).Ok := by
  intro i
  simp only [gridDraws]
  have : us.getD i 0 < Q := by
    rw [List.getD_eq_getElem?_getD]
    cases hi : us[i]? with
    | none => exact hQ
    | some u => exact h u (List.mem_of_getElem? hi)
  omega

/-- How often `y` is in a list. -/
def occ (y : Nbr) (o : Option (List Nbr)) : Rat := o.elim 0 fun ys => ((ys.count y : Nat) : Rat)

theorem mean_groups (rate : Int × Int) (hr : rate.1 = rate.2) {M Q : Nat} (hM0 : 0 < M) (hQ0 : 0 < Q) (y : Nbr)
    (ls : List (List Nbr)) (hl : GroupsOk ls) (hle : nsum ls.flatten ≤ 2 ^ 24)
    (hM : ∀ d : Nat, 0 < d → (d : Int) ≤ nsum ls.flatten → d ∣ M)
    (hQ : ∀ d : Nat, 0 < d → (d : Int) ≤ nsum ls.flatten → d ∣ Q) :
    ∀ (left K R : Nat) (pc pr : List Nat), ls.length * left ≤ K → left ≤ R →
    (∀ u ∈ pr, u < Q) →
    (mean (List.range M) K fun cs => mean (List.range Q) R fun us =>
      occ y (weightedGroups (gridDraws Q (pc ++ cs) (pr ++ us)) rate (ls.map GW) (nsum ls.flatten) left pc.length pr.length)) =
      left * (nbrWeight ls.flatten y / nsum ls.flatten) := by
  induction ls with
  | nil =>
    intro left K R pc pr _ _ _
    simp only [List.map_nil, weightedGroups, occ, Option.elim_some, List.count_nil]
    rw [mean_congr fun cs _ _ => mean_const (range_ne hQ0) R _, mean_const (range_ne hM0)]
    simp [nbrWeight, Rat.div_def]
  | cons l ls ih =>
    intro left K R pc pr hK hR hpr
    have hok : GroupsOk ls := fun k hk => hl k (by simp [hk])
    obtain ⟨hne, hn⟩ := hl l (by simp)
    have hs0 := hn.sum
    have hs1 := hok.nonNeg.sum
    rw [List.flatten_cons, nsum_append] at hle hM hQ ⊢
    have ih := ih hok (by omega) (fun d h1 h2 => hM d h1 (by omega)) (fun d h1 h2 => hQ d h1 (by omega))
    simp only [List.map_cons, weightedGroups]
    by_cases h0 : nsum l + nsum ls.flatten = 0 ∨ left = 0
    · simp only [if_pos h0, occ, Option.elim_some, List.count_nil]
      rw [mean_congr fun cs _ _ => mean_const (range_ne hQ0) R _, mean_const (range_ne hM0)]
      rcases h0 with h0 | h0
      · rw [h0, Rat.div_def]; simp
      · rw [h0]; simp
    · simp only [if_neg h0, GW_last hne, Option.bind_some]
      simp only [show nsum l + nsum ls.flatten - nsum l = nsum ls.flatten by omega, f32_small (x := nsum ls.flatten) (by omega)]
      rw [List.length_cons, Nat.succ_mul] at hK
      obtain ⟨K', rfl⟩ : ∃ K', K = left + K' := ⟨K - left, by omega⟩
      rw [mean_append]
      -- the coins of this type
      have hcoin : ∀ as : List Nat, as.length = left → (∀ a ∈ as, a ∈ List.range M) →
          (mean (List.range M) K' fun cs => mean (List.range Q) R fun us =>
            occ y ((weightedTake (gridDraws Q (pc ++ (as ++ cs)) (pr ++ us)) (GW l) rate
                (if nsum l = nsum l + nsum ls.flatten then left
                  else (gridDraws Q (pc ++ (as ++ cs)) (pr ++ us)).binomial pc.length left (nsum l) (nsum l + nsum ls.flatten))
                pr.length).bind fun z =>
              (weightedGroups (gridDraws Q (pc ++ (as ++ cs)) (pr ++ us)) rate (ls.map GW) (nsum ls.flatten)
                (left - if nsum l = nsum l + nsum ls.flatten then left
                  else (gridDraws Q (pc ++ (as ++ cs)) (pr ++ us)).binomial pc.length left (nsum l) (nsum l + nsum ls.flatten))
                (pc.length + left) z.2).map fun zs => z.1 ++ zs)) =
          (if nsum l = nsum l + nsum ls.flatten then (left : Rat) else rsum (as.map (success (nsum l) (nsum l + nsum ls.flatten)))) *
              (nbrWeight l y / nsum l) +
            (left - (if nsum l = nsum l + nsum ls.flatten then (left : Rat)
              else rsum (as.map (success (nsum l) (nsum l + nsum ls.flatten))))) * (nbrWeight ls.flatten y / nsum ls.flatten) := by
        intro as has hasM
        have hbin : ∀ cs us, (gridDraws Q (pc ++ (as ++ cs)) (pr ++ us)).binomial pc.length left (nsum l)
            (nsum l + nsum ls.flatten) = (as.filter fun a : Nat => decide ((a : Int) % (nsum l + nsum ls.flatten) < nsum l)).length := by
          intro cs us
          rw [← has]
          exact binomial_grid Q (pr ++ us) _ _ pc as cs
        simp only [hbin]
        have hkr : (if nsum l = nsum l + nsum ls.flatten then (left : Rat)
            else rsum (as.map (success (nsum l) (nsum l + nsum ls.flatten)))) =
            ((if nsum l = nsum l + nsum ls.flatten then left
              else (as.filter fun a : Nat => decide ((a : Int) % (nsum l + nsum ls.flatten) < nsum l)).length : Nat) : Rat) := by
          split
          · rfl
          · exact (length_filter_rsum ..).symm
        rw [hkr]
        have hk0 : nsum l = 0 → (if nsum l = nsum l + nsum ls.flatten then left
            else (as.filter fun a : Nat => decide ((a : Int) % (nsum l + nsum ls.flatten) < nsum l)).length) = 0 := by
          intro hz
          rw [if_neg (by omega), ← binomial_grid Q [] _ _ pc as [], hz]
          exact binomial_zero _ _ _ _ (by omega)
        have hkl : (if nsum l = nsum l + nsum ls.flatten then left
            else (as.filter fun a : Nat => decide ((a : Int) % (nsum l + nsum ls.flatten) < nsum l)).length) ≤ left := by
          split
          · exact Nat.le_refl _
          · rw [← has]; exact List.length_filter_le ..
        generalize (if nsum l = nsum l + nsum ls.flatten then left
            else (as.filter fun a : Nat => decide ((a : Int) % (nsum l + nsum ls.flatten) < nsum l)).length) = k at *
        obtain ⟨R', rfl⟩ : ∃ R', R = k + R' := ⟨R - k, by omega⟩
        simp only [mean_append]
        have hsplit : ∀ cs us ts : List Nat, us.length = k → (∀ u ∈ us, u ∈ List.range Q) →
            (∀ u ∈ ts, u ∈ List.range Q) →
            occ y ((weightedTake (gridDraws Q (pc ++ (as ++ cs)) (pr ++ (us ++ ts))) (GW l) rate k pr.length).bind fun z =>
              (weightedGroups (gridDraws Q (pc ++ (as ++ cs)) (pr ++ (us ++ ts))) rate (ls.map GW) (nsum ls.flatten)
                (left - k) (pc.length + left) z.2).map fun zs => z.1 ++ zs) =
            rsum (us.map (hit l Q y)) + occ y (weightedGroups (gridDraws Q ((pc ++ as) ++ cs) ((pr ++ us) ++ ts)) rate (ls.map GW)
              (nsum ls.flatten) (left - k) (pc ++ as).length (pr ++ us).length) := by
          intro cs us ts hus huQ htQ
          have htake : ∃ ys, weightedTake (gridDraws Q (pc ++ (as ++ cs)) (pr ++ (us ++ ts))) (GW l) rate k pr.length =
              some (ys, pr.length + k) ∧ ((ys.count y : Nat) : Rat) = rsum (us.map (hit l Q y)) := by
            by_cases hz : nsum l = 0
            · have := hk0 hz
              subst this
              obtain rfl : us = [] := List.length_eq_zero_iff.1 hus
              exact ⟨[], rfl, rfl⟩
            · have := take_hits (pc ++ (as ++ cs)) hn (by omega) rate hr y ts pr us
                fun u hu => List.mem_range.1 (huQ u hu)
              rwa [hus] at this
          obtain ⟨ys, e1, e2⟩ := htake
          rw [e1, Option.bind_some, ← e2, List.length_append, List.length_append, hus, has, List.append_assoc, List.append_assoc]
          dsimp only
          obtain ⟨zs, e3, -⟩ := weightedGroups_spec (gridDraws Q (pc ++ (as ++ cs)) (pr ++ (us ++ ts)))
            (gridDraws_ok hQ0 _ _ (by
              intro u hu
              rcases List.mem_append.1 hu with hu | hu
              · exact hpr u hu
              · rcases List.mem_append.1 hu with hu | hu
                · exact List.mem_range.1 (huQ u hu)
                · exact List.mem_range.1 (htQ u hu))) rate ls hok (by omega) (left - k) (pc.length + left) (pr.length + k)
          rw [e3]
          simp only [Option.map_some, occ, Option.elim_some, List.count_append, Rat.natCast_add]
        rw [mean_congr fun cs _ _ => mean_congr fun us hus huQ => mean_congr fun ts _ htQ => hsplit cs us ts hus huQ htQ]
        simp only [mean_add, mean_const (range_ne hQ0), mean_const (range_ne hM0)]
        rw [mean_sum (range_ne hQ0), mean_comm]
        rw [mean_congr fun us hus huQ => ih (left - k) K' R' (pc ++ as) (pr ++ us) (by
            have := Nat.mul_le_mul_left ls.length (Nat.sub_le left k); omega) (by omega) (by
            intro u hu
            rcases List.mem_append.1 hu with hu | hu
            · exact hpr u hu
            · exact List.mem_range.1 (huQ u hu)), mean_const (range_ne hQ0)]
        have hsub : ((left - k : Nat) : Rat) = (left : Rat) - (k : Rat) := by
          have : (left : Rat) = ((left - k : Nat) : Rat) + (k : Rat) := by
            rw [← Rat.natCast_add]; congr 1; omega
          grind
        rw [hsub]
        congr 1
        by_cases hz : nsum l = 0
        · rw [hk0 hz]; simp
        · rw [avg_hit hn (by omega) hQ0 (hQ _ (by omega) (by omega))]
      rw [mean_congr fun as has hasM => hcoin as has hasM]
      by_cases hb : nsum l = nsum l + nsum ls.flatten
      · simp only [if_pos hb]
        rw [mean_const (range_ne hM0), nbrWeight_append, nbrWeight_zero hok.nonNeg (by omega) y, ← hb]
        simp; grind
      · simp only [if_neg hb]
        simp only [Rat.sub_eq_add_neg, Rat.add_mul, mean_add]
        rw [mean_const (range_ne hM0)]
        have e1 : ∀ c : Rat, (mean (List.range M) left fun as => rsum (as.map (success (nsum l) (nsum l + nsum ls.flatten))) * c) =
            left * (nsum l / (nsum l + nsum ls.flatten : Int)) * c := by
          intro c
          have : (fun as : List Nat => rsum (as.map (success (nsum l) (nsum l + nsum ls.flatten))) * c) =
            fun as => c * rsum (as.map (success (nsum l) (nsum l + nsum ls.flatten))) := by funext as; grind
          rw [this, mean_mul, mean_sum (range_ne hM0), avg_success hs0 (by omega) (by omega) hM0 (hM _ (by omega) (by omega))]
          grind
        have e2 : ∀ c : Rat, (mean (List.range M) left fun as => -rsum (as.map (success (nsum l) (nsum l + nsum ls.flatten))) * c) =
            -(left * (nsum l / (nsum l + nsum ls.flatten : Int)) * c) := by
          intro c
          have : (fun as : List Nat => -rsum (as.map (success (nsum l) (nsum l + nsum ls.flatten))) * c) =
            fun as => (-1) * (rsum (as.map (success (nsum l) (nsum l + nsum ls.flatten))) * c) := by funext as; grind
          rw [this, mean_mul, e1]; grind
        rw [e1, e2, nbrWeight_append, Rat.intCast_add, Rat.intCast_add]
        have hne : ∀ a : Int, a ≠ 0 → (a : Rat) ≠ 0 := by
          intro a ha h
          rw [show (0 : Rat) = ((0 : Int) : Rat) from rfl, Rat.intCast_inj] at h
          exact ha h
        have hT := hne (nsum l + nsum ls.flatten) (by omega)
        rw [Rat.intCast_add] at hT
        have hB := hne (nsum ls.flatten) (by omega)
        by_cases hz : nsum l = 0
        · rw [nbrWeight_zero hn hz, hz]
          rw [hz] at hT
          grind
        · have hA := hne _ hz
          generalize ((nsum l : Int) : Rat) = A at *
          generalize ((nsum ls.flatten : Int) : Rat) = B at *
          generalize ((nbrWeight l y : Int) : Rat) = a at *
          generalize ((nbrWeight ls.flatten y : Int) : Rat) = b at *
          grind

/-- A call that no other came before. -/
theorem mean_part {M Q : Nat} (hM0 : 0 < M) (hQ0 : 0 < Q) (y : Nbr) (ls : List (List Nbr)) (hl : GroupsOk ls)
    (hpos : 0 < nsum ls.flatten) (hle : nsum ls.flatten ≤ 2 ^ 24)
    (hM : ∀ d : Nat, 0 < d → (d : Int) ≤ nsum ls.flatten → d ∣ M)
    (hQ : ∀ d : Nat, 0 < d → (d : Int) ≤ nsum ls.flatten → d ∣ Q) (count : Nat) (default : Nbr) (out : List Nbr)
    (ho : out.length = count) (K R : Nat) (hK : ls.length * count ≤ K) (hR : count ≤ R) :
    (avg (gridCalls M K Q R) fun D => occ y ((absPart D count default (ls.map GW) out 0).map (·.1))) =
      count * (nbrWeight ls.flatten y / nsum ls.flatten) := by
  rw [avg_grid, ← mean_groups (nsum ls.flatten, nsum ls.flatten) rfl hM0 hQ0 y ls hl hle hM hQ count K R [] [] hK hR (by simp)]
  apply mean_congr
  intro cs _ _
  apply mean_congr
  intro us _ hu
  rw [absPart_eq _ _ _ _ hl _ _ (Int.le_refl 0) (by omega), if_neg (by omega), Int.zero_add]
  obtain ⟨ys, h1, h2, h3, -⟩ := weightedGroups_spec (gridDraws Q cs us) (gridDraws_ok hQ0 _ _ fun u h => List.mem_range.1 (hu u h))
    (nsum ls.flatten, nsum ls.flatten) ls hl hle count 0 0
  have h3 := h3 rfl (Or.inl hpos)
  simp only [List.nil_append, List.length_nil, h1, Option.map_some, h3]
  rw [List.drop_eq_nil_of_le (by omega), List.append_nil]

end DeepGNN
