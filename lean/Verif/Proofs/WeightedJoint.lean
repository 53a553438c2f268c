import Verif.Proofs.WeightedMean

/-
Joint distribution of weighted samples.
-/

namespace DeepGNN

open Spec

/-- Mean of `f` over the neighbours in `l` by weight. -/
def wavg (l : List Nbr) (f : Nbr → Rat) : Rat := rsum (l.map fun z => ((z.weight : Int) : Rat) / (nsum l : Int) * f z)

/-- Mean of `f` over `n` independent samples by weight. -/
def wmean (l : List Nbr) : Nat → (List Nbr → Rat) → Rat
  | 0, f => f []
  | n + 1, f => wavg l fun z => wmean l n fun zs => f (z :: zs)

theorem wavg_congr {l : List Nbr} {f g : Nbr → Rat} (h : ∀ a ∈ l, f a = g a) : wavg l f = wavg l g := by
  rw [wavg, wavg]
  congr 1
  apply List.map_congr_left
  intro a ha
  rw [h a ha]

theorem wmean_congr {l : List Nbr} {n : Nat} {f g : List Nbr → Rat} (h : ∀ as, as.length = n → f as = g as) : wmean l n f = wmean l n g := by
  induction n generalizing f g with
  | zero => exact h [] rfl
  | succ n ih =>
    apply wavg_congr
    intro a _
    exact ih fun as has => h (a :: as) (by simp [has])

theorem mean_wavg_comm {α : Type} (L : List α) (n : Nat) (l : List Nbr) (f : List α → Nbr → Rat) :
    (mean L n fun as => wavg l fun z => f as z) = wavg l fun z => mean L n fun as => f as z := by
  have : ∀ (l : List Nbr) (c : Nbr → Rat), (mean L n fun as => rsum (l.map fun z => c z * f as z)) = rsum (l.map fun z => c z * mean L n fun as => f as z) := by
    intro l c
    induction l with
    | nil =>
      have := mean_mul L n 0 fun _ => 0
      simpa using this
    | cons z l ih => simp only [List.map_cons, rsum_cons, mean_add, mean_mul, ih]
  exact this l _

theorem wavg_comm (l k : List Nbr) (f : Nbr → Nbr → Rat) : (wavg l fun a => wavg k fun b => f a b) = wavg k fun b => wavg l fun a => f a b := by
  have : ∀ (l : List Nbr) (c d : Nbr → Rat), rsum (l.map fun a => c a * rsum (k.map fun b => d b * f a b)) =
      rsum (k.map fun b => d b * rsum (l.map fun a => c a * f a b)) := by
    intro l c d
    induction l with
    | nil =>
      have : (fun b : Nbr => d b * (0 : Rat)) = fun _ => 0 := by funext b; simp
      simp [rsum_map_const]
    | cons x l ih =>
      simp only [List.map_cons, rsum_cons, ih]
      have : (fun b => d b * (c x * f x b + rsum (l.map fun a => c a * f a b))) =
        fun b => c x * (d b * f x b) + d b * rsum (l.map fun a => c a * f a b) := by funext b; grind
      rw [this, rsum_map_add, rsum_map_mul]
  exact this l _ _

theorem wmean_wavg_comm (l k : List Nbr) (n : Nat) (f : List Nbr → Nbr → Rat) :
    (wmean l n fun as => wavg k fun b => f as b) = wavg k fun b => wmean l n fun as => f as b := by
  induction n generalizing f with
  | zero => rfl
  | succ n ih => simp only [wmean, ih, wavg_comm l k]

theorem NonNeg.zero {l : List Nbr} (hn : NonNeg l) (hz : nsum l = 0) : ∀ z ∈ l, z.weight = 0 := by
  induction l with
  | nil => simp
  | cons x l ih =>
    have h1 := hn x (by simp)
    have hl : NonNeg l := fun z hz => hn z (by simp [hz])
    have h2 := hl.sum
    simp only [nsum, List.map_cons, List.sum_cons] at hz h2
    intro z hz'
    rcases List.mem_cons.1 hz' with rfl | hz'
    · omega
    · exact ih hl (by simp only [nsum]; omega) z hz'

theorem intCast_ne {a : Int} (h : a ≠ 0) : (a : Rat) ≠ 0 := by
  intro h0
  rw [show (0 : Rat) = ((0 : Int) : Rat) from rfl, Rat.intCast_inj] at h0
  exact h h0

theorem wavg_sum {l : List Nbr} (hn : NonNeg l) (f : Nbr → Rat) :
    (nsum l : Int) * wavg l f = rsum (l.map fun z => (z.weight : Int) * f z) := by
  by_cases hz : nsum l = 0
  · rw [hz]
    have := hn.zero hz
    have : (l.map fun z => ((z.weight : Int) : Rat) * f z) = l.map fun _ => 0 := by
      apply List.map_congr_left
      intro z h
      rw [this z h]; simp
    rw [this, rsum_map_const]; simp
  · have := intCast_ne hz
    rw [wavg, ← rsum_map_mul]
    congr 1
    apply List.map_congr_left
    intro z _
    grind

theorem NonNeg.app {a b : List Nbr} (ha : NonNeg a) (hb : NonNeg b) : NonNeg (a ++ b) := by
  intro z hz
  rcases List.mem_append.1 hz with h | h
  · exact ha z h
  · exact hb z h

theorem wavg_append {a b : List Nbr} (ha : NonNeg a) (hb : NonNeg b) (hp : 0 < nsum a + nsum b) (f : Nbr → Rat) :
    wavg (a ++ b) f = (nsum a : Int) / (nsum a + nsum b : Int) * wavg a f + (nsum b : Int) / (nsum a + nsum b : Int) * wavg b f := by
  have h1 := wavg_sum (ha.app hb) f
  rw [List.map_append, rsum_append, ← wavg_sum ha, ← wavg_sum hb, nsum_append] at h1
  have := intCast_ne (a := nsum a + nsum b) (by omega)
  grind

theorem wmean_append_zero {a b : List Nbr} (ha : NonNeg a) (hb : NonNeg b) (hp : 0 < nsum a) (hz : nsum b = 0) (n : Nat) (f : List Nbr → Rat) :
    wmean (a ++ b) n f = wmean a n f := by
  induction n generalizing f with
  | zero => rfl
  | succ n ih =>
    simp only [wmean, ih]
    rw [wavg_append ha hb (by omega), hz, Int.add_zero]
    have := intCast_ne (a := nsum a) (by omega)
    simp only [Rat.intCast_zero]
    grind

/-- The number of successes. -/
def wins (w t : Int) (as : List Nat) : Nat := (as.filter fun a : Nat => decide ((a : Int) % t < w)).length

theorem avg_choice {w t : Int} (hw : 0 ≤ w) (hwt : w ≤ t) (ht : 0 < t) {M : Nat} (hM0 : 0 < M) (hM : t.toNat ∣ M) (X Y : Rat) :
    (avg (List.range M) fun a => if (a : Int) % t < w then X else Y) = w / t * X + (1 - w / t) * Y := by
  have : (fun a : Nat => if (a : Int) % t < w then X else Y) = fun a => (X - Y) * success w t a + Y := by
    funext a
    rw [success]
    split <;> grind
  rw [this, avg_add, avg_mul, avg_success hw hwt ht hM0 hM, avg_const (range_ne hM0)]
  grind

theorem binomial_joint {l r : List Nbr} (hl : NonNeg l) (hr : NonNeg r) (hp : 0 < nsum l + nsum r) {M : Nat} (hM0 : 0 < M)
    (hM : (nsum l + nsum r).toNat ∣ M) (n : Nat) (F : List Nbr → Rat) (hF : ∀ a b, a.Perm b → F a = F b) :
    (mean (List.range M) n fun as => wmean l (wins (nsum l) (nsum l + nsum r) as) fun a =>
      wmean r (n - wins (nsum l) (nsum l + nsum r) as) fun b => F (a ++ b)) = wmean (l ++ r) n F := by
  have h0 := hl.sum
  have h1 := hr.sum
  induction n generalizing F with
  | zero => rfl
  | succ n ih =>
    simp only [mean]
    have hstep : ∀ a : Nat, (mean (List.range M) n fun as => wmean l (wins (nsum l) (nsum l + nsum r) (a :: as)) fun x =>
        wmean r (n + 1 - wins (nsum l) (nsum l + nsum r) (a :: as)) fun b => F (x ++ b)) =
        if (a : Int) % (nsum l + nsum r) < nsum l then wavg l fun z => wmean (l ++ r) n fun zs => F (z :: zs)
        else wavg r fun z => wmean (l ++ r) n fun zs => F (z :: zs) := by
      intro a
      by_cases ha : (a : Int) % (nsum l + nsum r) < nsum l
      · rw [if_pos ha]
        have e : ∀ as, wins (nsum l) (nsum l + nsum r) (a :: as) = wins (nsum l) (nsum l + nsum r) as + 1 := by
          intro as; simp [wins, ha]
        simp only [e, Nat.add_sub_add_right, wmean, List.cons_append]
        rw [mean_wavg_comm]
        apply wavg_congr
        intro z _
        exact ih (fun zs => F (z :: zs)) fun x y hxy => hF _ _ (hxy.cons z)
      · rw [if_neg ha]
        have e : ∀ as, wins (nsum l) (nsum l + nsum r) (a :: as) = wins (nsum l) (nsum l + nsum r) as := by
          intro as; simp [wins, ha]
        simp only [e]
        have e2 : ∀ as : List Nat, as.length = n → (∀ a ∈ as, a ∈ List.range M) →
            (wmean l (wins (nsum l) (nsum l + nsum r) as) fun x =>
              wmean r (n + 1 - wins (nsum l) (nsum l + nsum r) as) fun b => F (x ++ b)) =
            wavg r fun z => wmean l (wins (nsum l) (nsum l + nsum r) as) fun x =>
              wmean r (n - wins (nsum l) (nsum l + nsum r) as) fun b => F (z :: (x ++ b)) := by
          intro as has _
          have : wins (nsum l) (nsum l + nsum r) as ≤ n := by rw [← has]; exact List.length_filter_le ..
          rw [show n + 1 - wins (nsum l) (nsum l + nsum r) as = n - wins (nsum l) (nsum l + nsum r) as + 1 by omega]
          simp only [wmean]
          rw [wmean_wavg_comm]
          apply wavg_congr
          intro z _
          apply wmean_congr
          intro x _
          apply wmean_congr
          intro b _
          exact hF _ _ List.perm_middle
        rw [mean_congr e2, mean_wavg_comm]
        apply wavg_congr
        intro z _
        exact ih (fun zs => F (z :: zs)) fun x y hxy => hF _ _ (hxy.cons z)
    simp only [hstep]
    rw [avg_choice h0 (by omega) hp hM0 hM, wmean, wavg_append hl hr hp]
    have := intCast_ne (a := nsum l + nsum r) (by omega)
    rw [Rat.intCast_add] at this ⊢
    have e : (1 : Rat) - (nsum l : Int) / ((nsum l : Int) + (nsum r : Int)) = (nsum r : Int) / ((nsum l : Int) + (nsum r : Int)) := by grind
    rw [e]

/-! One type -/

/-- The neighbour that number `u` chooses. -/
def pickOf (l : List Nbr) (Q u : Nat) : Nbr := (weightedPick (GW l) (2 * u + 1, 2 * Q)).getD ⟨0, 0, 0⟩

theorem rsum_single (l : List Nbr) (p : Nbr) (f : Nbr → Rat) :
    rsum (l.map fun z => if p = z then f z else 0) = ((l.count p : Nat) : Rat) * f p := by
  induction l with
  | nil => simp
  | cons x l ih =>
    rw [List.map_cons, rsum_cons, ih, List.count_cons]
    by_cases h : p = x
    · subst h
      simp [Rat.natCast_add]; grind
    · have h' : ¬ x = p := fun e => h e.symm
      simp [h, h', Rat.zero_add]

theorem nbrWeight_count (l : List Nbr) (p : Nbr) : nbrWeight l p = (l.count p : Int) * p.weight := by
  induction l with
  | nil => simp [nbrWeight]
  | cons x l ih =>
    simp only [nbrWeight] at ih ⊢
    rw [List.filter_cons, List.count_cons]
    by_cases h : x = p
    · subst h
      simp [ih]
      rw [Int.add_mul, Int.one_mul]; omega
    · simp [h, ih]

theorem avg_pick {l : List Nbr} (hn : NonNeg l) (hpos : 0 < nsum l) {Q : Nat} (hQ0 : 0 < Q) (hQ : (nsum l).toNat ∣ Q) (f : Nbr → Rat) :
    (avg (List.range Q) fun u => f (pickOf l Q u)) = wavg l f := by
  have hne : ∀ z ∈ l, ((l.count z : Nat) : Rat) ≠ 0 := by
    intro z hz h
    rw [show (0 : Rat) = ((0 : Nat) : Rat) from rfl, Rat.natCast_inj] at h
    have := List.count_pos_iff.2 hz
    omega
  have h1 : ∀ u ∈ List.range Q, f (pickOf l Q u) = rsum (l.map fun z => (f z / (l.count z : Nat)) * hit l Q z u) := by
    intro u hu
    have hu := List.mem_range.1 hu
    obtain ⟨p, h1, h2, -⟩ := pick_mem hn hpos (2 * u + 1, 2 * Q) (by dsimp only; omega)
    have h3 : (fun z => (f z / (l.count z : Nat)) * hit l Q z u) = fun z => if p = z then f z / (l.count z : Nat) else 0 := by
      funext z
      rw [hit, h1]
      by_cases h : p = z
      · simp [h]
      · simp [h]
    rw [h3, rsum_single l p fun z => f z / (l.count z : Nat), pickOf, h1]
    have := hne p h2
    simp only [Option.getD_some]
    grind
  rw [avg_congr h1]
  have h2 : ∀ (k : List Nbr) (c : Nbr → Rat), (avg (List.range Q) fun u => rsum (k.map fun z => c z * hit l Q z u)) =
      rsum (k.map fun z => c z * avg (List.range Q) (hit l Q z)) := by
    intro k c
    induction k with
    | nil => exact avg_const (range_ne hQ0) 0
    | cons z k ih => simp only [List.map_cons, rsum_cons, avg_add, avg_mul, ih]
  rw [h2, wavg]
  congr 1
  apply List.map_congr_left
  intro z hz
  rw [avg_hit hn hpos hQ0 hQ, nbrWeight_count, Rat.intCast_mul]
  have := hne z hz
  show _ / _ * ((l.count z : Rat) * _ / _) = _
  grind

theorem mean_picks {l : List Nbr} (hn : NonNeg l) (hpos : 0 < nsum l) {Q : Nat} (hQ0 : 0 < Q) (hQ : (nsum l).toNat ∣ Q) (k : Nat)
    (F : List Nbr → Rat) : (mean (List.range Q) k fun us => F (us.map (pickOf l Q))) = wmean l k F := by
  induction k generalizing F with
  | zero => rfl
  | succ k ih =>
    simp only [mean, List.map_cons, wmean]
    rw [← avg_pick hn hpos hQ0 hQ]
    apply avg_congr
    intro u _
    exact ih fun zs => F (pickOf l Q u :: zs)

theorem take_picks (cs : List Nat) {l : List Nbr} (hn : NonNeg l) (hpos : 0 < nsum l) (rate : Int × Int) (hr : rate.1 = rate.2)
    {Q : Nat} (ts : List Nat) : ∀ (pr us : List Nat), (∀ u ∈ us, u < Q) →
    weightedTake (gridDraws Q cs (pr ++ (us ++ ts))) (GW l) rate us.length pr.length =
      some (us.map (pickOf l Q), pr.length + us.length) := by
  intro pr us
  induction us generalizing pr with
  | nil => intro _; rfl
  | cons u us ih =>
    intro hu
    rw [List.length_cons, weightedTake, if_neg (by omega), if_neg (by omega)]
    have hu0 := hu u (by simp)
    have hreal : (gridDraws Q cs (pr ++ (u :: us ++ ts))).real pr.length = (2 * u + 1, 2 * Q) := by
      simp [gridDraws]
    obtain ⟨z, h1, -, -⟩ := pick_mem hn hpos (2 * u + 1, 2 * Q) (by dsimp only; omega)
    have h2 := ih (pr ++ [u]) fun v hv => hu v (by simp [hv])
    simp only [List.append_assoc, List.cons_append, List.nil_append, List.length_append, List.length_cons, List.length_nil] at h2
    simp only [hreal, h1, Option.bind_some]
    rw [show u :: us ++ ts = u :: (us ++ ts) from rfl, h2]
    simp only [Option.map_some, List.map_cons, pickOf, h1, Option.getD_some]
    congr 2; omega

/-- The value of a result. -/
def valueOf (F : List Nbr → Rat) (o : Option (List Nbr)) : Rat := o.elim 0 F

theorem mean_groups_joint (rate : Int × Int) (hr : rate.1 = rate.2) {M Q : Nat} (hM0 : 0 < M) (hQ0 : 0 < Q)
    (ls : List (List Nbr)) (hl : GroupsOk ls) (hle : nsum ls.flatten ≤ 2 ^ 24)
    (hM : ∀ d : Nat, 0 < d → (d : Int) ≤ nsum ls.flatten → d ∣ M)
    (hQ : ∀ d : Nat, 0 < d → (d : Int) ≤ nsum ls.flatten → d ∣ Q) :
    ∀ (left K R : Nat) (pc pr : List Nat) (F : List Nbr → Rat), (∀ a b, a.Perm b → F a = F b) →
    0 < nsum ls.flatten ∨ left = 0 → ls.length * left ≤ K → left ≤ R → (∀ u ∈ pr, u < Q) →
    (mean (List.range M) K fun cs => mean (List.range Q) R fun us =>
      valueOf F (weightedGroups (gridDraws Q (pc ++ cs) (pr ++ us)) rate (ls.map GW) (nsum ls.flatten) left pc.length pr.length)) =
      wmean ls.flatten left F := by
  induction ls with
  | nil =>
    intro left K R pc pr F hF h0 _ _ _
    obtain rfl : left = 0 := by
      rcases h0 with h | h
      · simp [nsum] at h
      · exact h
    simp only [List.map_nil, weightedGroups, valueOf, Option.elim_some]
    rw [mean_congr fun cs _ _ => mean_const (range_ne hQ0) R _, mean_const (range_ne hM0)]
    rfl
  | cons l ls ih =>
    intro left K R pc pr F hF hpos hK hR hpr
    have hok : GroupsOk ls := fun k hk => hl k (by simp [hk])
    obtain ⟨hne, hn⟩ := hl l (by simp)
    have hs0 := hn.sum
    have hs1 := hok.nonNeg.sum
    rw [List.flatten_cons, nsum_append] at hle hM hQ hpos ⊢
    have ih := ih hok (by omega) (fun d h1 h2 => hM d h1 (by omega)) (fun d h1 h2 => hQ d h1 (by omega))
    simp only [List.map_cons, weightedGroups]
    by_cases hleft : left = 0
    · subst hleft
      simp only [or_true, if_true, valueOf, Option.elim_some]
      rw [mean_congr fun cs _ _ => mean_const (range_ne hQ0) R _, mean_const (range_ne hM0)]
      rfl
    · have hT : 0 < nsum l + nsum ls.flatten := by omega
      have h0 : ¬ (nsum l + nsum ls.flatten = 0 ∨ left = 0) := by omega
      simp only [if_neg h0, GW_last hne, Option.bind_some]
      simp only [show nsum l + nsum ls.flatten - nsum l = nsum ls.flatten by omega, f32_small (x := nsum ls.flatten) (by omega)]
      rw [List.length_cons, Nat.succ_mul] at hK
      obtain ⟨K', rfl⟩ : ∃ K', K = left + K' := ⟨K - left, by omega⟩
      rw [mean_append]
      have hcoin : ∀ as : List Nat, as.length = left → (∀ a ∈ as, a ∈ List.range M) →
          (mean (List.range M) K' fun cs => mean (List.range Q) R fun us =>
            valueOf F ((weightedTake (gridDraws Q (pc ++ (as ++ cs)) (pr ++ us)) (GW l) rate
                (if nsum l = nsum l + nsum ls.flatten then left
                  else (gridDraws Q (pc ++ (as ++ cs)) (pr ++ us)).binomial pc.length left (nsum l) (nsum l + nsum ls.flatten))
                pr.length).bind fun z =>
              (weightedGroups (gridDraws Q (pc ++ (as ++ cs)) (pr ++ us)) rate (ls.map GW) (nsum ls.flatten)
                (left - if nsum l = nsum l + nsum ls.flatten then left
                  else (gridDraws Q (pc ++ (as ++ cs)) (pr ++ us)).binomial pc.length left (nsum l) (nsum l + nsum ls.flatten))
                (pc.length + left) z.2).map fun zs => z.1 ++ zs)) =
          wmean l (if nsum l = nsum l + nsum ls.flatten then left else wins (nsum l) (nsum l + nsum ls.flatten) as) fun a =>
            wmean ls.flatten (left - if nsum l = nsum l + nsum ls.flatten then left else wins (nsum l) (nsum l + nsum ls.flatten) as)
              fun b => F (a ++ b) := by
        intro as has hasM
        have hbin : ∀ cs us, (gridDraws Q (pc ++ (as ++ cs)) (pr ++ us)).binomial pc.length left (nsum l)
            (nsum l + nsum ls.flatten) = wins (nsum l) (nsum l + nsum ls.flatten) as := by
          intro cs us
          rw [← has]
          exact binomial_grid Q (pr ++ us) _ _ pc as cs
        simp only [hbin]
        have hk0 : nsum l = 0 → (if nsum l = nsum l + nsum ls.flatten then left
            else wins (nsum l) (nsum l + nsum ls.flatten) as) = 0 := by
          intro hz
          rw [if_neg (by omega), wins, ← binomial_grid Q [] _ _ pc as [], hz]
          exact binomial_zero _ _ _ _ (by omega)
        have hk1 : nsum ls.flatten = 0 → (if nsum l = nsum l + nsum ls.flatten then left
            else wins (nsum l) (nsum l + nsum ls.flatten) as) = left := fun hz => if_pos (by omega)
        have hkl : (if nsum l = nsum l + nsum ls.flatten then left
            else wins (nsum l) (nsum l + nsum ls.flatten) as) ≤ left := by
          split
          · exact Nat.le_refl _
          · rw [← has]; exact List.length_filter_le ..
        generalize (if nsum l = nsum l + nsum ls.flatten then left
            else wins (nsum l) (nsum l + nsum ls.flatten) as) = k at *
        obtain ⟨R', rfl⟩ : ∃ R', R = k + R' := ⟨R - k, by omega⟩
        simp only [mean_append]
        have hsplit : ∀ cs us ts : List Nat, us.length = k → (∀ u ∈ us, u ∈ List.range Q) →
            valueOf F ((weightedTake (gridDraws Q (pc ++ (as ++ cs)) (pr ++ (us ++ ts))) (GW l) rate k pr.length).bind fun z =>
              (weightedGroups (gridDraws Q (pc ++ (as ++ cs)) (pr ++ (us ++ ts))) rate (ls.map GW) (nsum ls.flatten)
                (left - k) (pc.length + left) z.2).map fun zs => z.1 ++ zs) =
            valueOf (fun b => F (us.map (pickOf l Q) ++ b)) (weightedGroups (gridDraws Q ((pc ++ as) ++ cs) ((pr ++ us) ++ ts)) rate (ls.map GW)
              (nsum ls.flatten) (left - k) (pc ++ as).length (pr ++ us).length) := by
          intro cs us ts hus huQ
          have htake : weightedTake (gridDraws Q (pc ++ (as ++ cs)) (pr ++ (us ++ ts))) (GW l) rate k pr.length =
              some (us.map (pickOf l Q), pr.length + k) := by
            by_cases hz : nsum l = 0
            · have := hk0 hz
              subst this
              obtain rfl : us = [] := List.length_eq_zero_iff.1 hus
              rfl
            · have := take_picks (pc ++ (as ++ cs)) hn (by omega) rate hr ts pr us
                fun u hu => List.mem_range.1 (huQ u hu)
              rwa [hus] at this
          rw [htake, Option.bind_some, List.length_append, List.length_append, hus, has, List.append_assoc, List.append_assoc]
          dsimp only
          cases weightedGroups (gridDraws Q (pc ++ (as ++ cs)) (pr ++ (us ++ ts))) rate (ls.map GW) (nsum ls.flatten)
            (left - k) (pc.length + left) (pr.length + k) <;> rfl
        rw [mean_congr fun cs _ _ => mean_congr fun us hus huQ => mean_congr fun ts _ htQ => hsplit cs us ts hus huQ]
        rw [mean_comm]
        rw [mean_congr fun us hus huQ => ih (left - k) K' R' (pc ++ as) (pr ++ us) (fun b => F (us.map (pickOf l Q) ++ b))
          (fun a b hab => hF _ _ (hab.append_left _)) (by omega) (by
            have := Nat.mul_le_mul_left ls.length (Nat.sub_le left k); omega) (by omega) (by
            intro u hu
            rcases List.mem_append.1 hu with hu | hu
            · exact hpr u hu
            · exact List.mem_range.1 (huQ u hu))]
        by_cases hz : nsum l = 0
        · rw [hk0 hz]; rfl
        · exact mean_picks hn (by omega) hQ0 (hQ _ (by omega) (by omega)) k fun a => wmean ls.flatten (left - k) fun b => F (a ++ b)
      rw [mean_congr fun as has hasM => hcoin as has hasM]
      by_cases hb : nsum l = nsum l + nsum ls.flatten
      · simp only [if_pos hb]
        rw [mean_const (range_ne hM0), wmean_append_zero hn hok.nonNeg (by omega) (by omega)]
        apply wmean_congr
        intro a _
        rw [Nat.sub_self, wmean, List.append_nil]
      · simp only [if_neg hb]
        exact binomial_joint hn hok.nonNeg hT hM0 (hM _ (by omega) (by omega)) left F hF

/-- A call that no other came before. -/
theorem mean_part_joint {M Q : Nat} (hM0 : 0 < M) (hQ0 : 0 < Q) (ls : List (List Nbr)) (hl : GroupsOk ls)
    (hpos : 0 < nsum ls.flatten) (hle : nsum ls.flatten ≤ 2 ^ 24)
    (hM : ∀ d : Nat, 0 < d → (d : Int) ≤ nsum ls.flatten → d ∣ M)
    (hQ : ∀ d : Nat, 0 < d → (d : Int) ≤ nsum ls.flatten → d ∣ Q) (count : Nat) (default : Nbr) (out : List Nbr)
    (ho : out.length = count) (K R : Nat) (hK : ls.length * count ≤ K) (hR : count ≤ R) (F : List Nbr → Rat)
    (hF : ∀ a b, a.Perm b → F a = F b) :
    (avg (gridCalls M K Q R) fun D => valueOf F ((absPart D count default (ls.map GW) out 0).map (·.1))) = wmean ls.flatten count F := by
  rw [avg_grid, ← mean_groups_joint (nsum ls.flatten, nsum ls.flatten) rfl hM0 hQ0 ls hl hle hM hQ count K R [] [] F hF (Or.inl hpos) hK hR
    (by simp)]
  apply mean_congr
  intro cs _ _
  apply mean_congr
  intro us _ hu
  rw [absPart_eq _ _ _ _ hl _ _ (Int.le_refl 0) (by omega), if_neg (by omega), Int.zero_add]
  obtain ⟨ys, h1, h2, h3, -⟩ := weightedGroups_spec (gridDraws Q cs us) (gridDraws_ok hQ0 _ _ fun u h => List.mem_range.1 (hu u h))
    (nsum ls.flatten, nsum ls.flatten) ls hl hle count 0 0
  have h3 := h3 rfl (Or.inl hpos)
  simp only [List.nil_append, List.length_nil, h1, Option.map_some, h3]
  rw [List.drop_eq_nil_of_le (by omega), List.append_nil]

/-! Means as sums -/

theorem rsum_mul_map {α : Type} (L : List α) (c : Rat) (f : α → Rat) : c * rsum (L.map f) = rsum (L.map fun a => c * f a) := (rsum_map_mul L c f).symm

theorem wmean_sum (l : List Nbr) (hp : nsum l ≠ 0) (n : Nat) (F : List Nbr → Rat) :
    ((nsum l : Int) : Rat) ^ n * wmean l n F = rsum ((listsOf l n).map fun zs => (weightProduct zs : Int) * F zs) := by
  have hne := intCast_ne hp
  induction n generalizing F with
  | zero => simp [wmean, listsOf, weightProduct, Rat.add_zero]
  | succ n ih =>
    simp only [wmean, listsOf, wavg]
    rw [rsum_flatMap, rsum_mul_map]
    congr 1
    apply List.map_congr_left
    intro z _
    rw [List.map_map]
    have := ih fun zs => F (z :: zs)
    have e : (fun zs => ((weightProduct zs : Int) : Rat) * F zs) ∘ (fun x => z :: x) = fun zs => (z.weight : Int) * ((weightProduct zs : Int) * F (z :: zs)) := by
      funext zs
      simp only [Function.comp, weightProduct, List.foldr_cons, Rat.intCast_mul]
      grind
    rw [e, rsum_map_mul, ← this, Rat.pow_succ]
    grind

end DeepGNN
