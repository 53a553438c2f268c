import Verif.Spec.Shuffle
import Verif.Proofs.UniformRate
import Verif.Proofs.Merge

namespace DeepGNN

open Spec (shuffleDraws drawsFrom keptHits)

/-- `sample_n` for given draws. -/
def satt : List Nat → List Nat → List Nat
  | a :: l, d :: ds => l.getD d a :: satt (l.set d a) ds
  | l, _ => l

theorem sampleN_loop (R : Draws) (N : Nat) (c : Nat) : ∀ (pre l : List Nat) (s : Nat), l.length = c + 1 → N = pre.length + l.length →
    (List.range' pre.length c).foldlM (fun (x : List Nat × Nat) i =>
      (swapAt x.1 i (i + 1 + R x.2 % (N - 1 - i))).map fun l => (l, x.2 + 1)) (pre ++ l, s) =
      some (pre ++ satt l ((List.range c).map fun j => R (s + j) % (c - j)), s + c) := by
  induction c with
  | zero =>
    intro pre l s hl hN
    match l, hl with
    | [a], _ => rfl
  | succ c ih =>
    intro pre l s hl hN
    match l, hl with
    | a :: l, hl =>
      have hl' : l.length = c + 1 := by simpa using hl
      rw [List.range'_succ, List.foldlM_cons]
      obtain ⟨d, hd⟩ : ∃ d, R s % (N - 1 - pre.length) = d := ⟨_, rfl⟩
      have e : N - 1 - pre.length = c + 1 := by simp at hN; omega
      have hlt : d < l.length := by rw [← hd, e, hl']; exact Nat.mod_lt _ (by omega)
      have hsw : swapAt (pre ++ a :: l) pre.length (pre.length + 1 + d) = some ((pre ++ [l.getD d a]) ++ l.set d a) := by
        have h1 : (pre ++ a :: l)[pre.length]? = some a := by simp
        have h2 : (pre ++ a :: l)[pre.length + 1 + d]? = some (l.getD d a) := by
          rw [List.getElem?_append_right (by omega), show pre.length + 1 + d - pre.length = d + 1 by omega, List.getElem?_cons_succ]
          simp [List.getD, hlt]
        simp only [swapAt, h1, h2, Option.bind_eq_bind, Option.bind_some, pure]
        congr 1
        rw [List.set_append_right _ _ (by omega), Nat.sub_self, List.set_cons_zero, List.set_append_right _ _ (by omega),
          show pre.length + 1 + d - pre.length = d + 1 by omega, List.set_cons_succ]
        simp
      dsimp only
      rw [hd, hsw]
      have := ih (pre ++ [l.getD d a]) (l.set d a) (s + 1) (by simpa using hl') (by simp at hN ⊢; omega)
      rw [List.length_append, List.length_singleton] at this
      simp only [Option.map_some, Option.bind_eq_bind, Option.bind_some]
      rw [this]
      congr 2
      · rw [List.range_succ_eq_map, List.map_cons, List.map_map, satt, List.append_assoc, List.singleton_append]
        have h0 : R (s + 0) % (c + 1 - 0) = d := by rw [← hd, e]; rfl
        rw [h0]
        congr 3
        apply List.map_congr_left
        intro j hj
        simp only [Function.comp_apply, Nat.succ_eq_add_one]
        rw [show s + 1 + j = s + (j + 1) by omega, show c + 1 - (j + 1) = c - j by omega]
      · omega

theorem sampleN_eq (R : Draws) (l : List Nat) (s : Nat) (hl : 0 < l.length) :
    sampleN R l s = some (satt l ((List.range (l.length - 1)).map fun j => R (s + j) % (l.length - 1 - j)), s + (l.length - 1)) := by
  have := sampleN_loop R l.length (l.length - 1) [] l s (by omega) (by simp)
  simp only [List.nil_append, List.length_nil] at this
  rw [sampleN, List.range_eq_range', this, List.range_eq_range']

theorem shuffle_ranges {n : Nat} {ds : List Nat} (h : ds ∈ shuffleDraws n) :
    ds.length = n ∧ ∀ j < n, ds.getD j 0 < n - j := by
  induction n generalizing ds with
  | zero => simp [shuffleDraws] at h; subst h; simp
  | succ n ih =>
    simp only [shuffleDraws, List.mem_flatMap, List.mem_range, List.mem_map] at h
    obtain ⟨d, hd, es, he, rfl⟩ := h
    obtain ⟨h1, h2⟩ := ih he
    refine ⟨by simp [h1], ?_⟩
    intro j hj
    cases j with
    | zero => simpa using hd
    | succ j =>
      have := h2 j (by omega)
      rw [List.getD_cons_succ]; omega

theorem sampleN_draws {n : Nat} {ds : List Nat} (h : ds ∈ shuffleDraws n) (l : List Nat) (hl : l.length = n + 1) :
    sampleN (drawsFrom ds) l 0 = some (satt l ds, n) := by
  rw [sampleN_eq _ _ _ (by omega), hl]
  obtain ⟨h1, h2⟩ := shuffle_ranges h
  congr 2
  · congr 1
    apply List.ext_getElem
    · simp [h1]
    · intro i h3 h4
      simp only [List.length_map, List.length_range] at h3
      simp only [List.getElem_map, List.getElem_range, drawsFrom, Nat.zero_add]
      have := h2 i (by omega)
      rw [Nat.mod_eq_of_lt (by omega), List.getD_eq_getElem?_getD, List.getElem?_eq_getElem h4, Option.getD_some]
  · omega

theorem shuffle_total (n : Nat) : (shuffleDraws (n + 1)).length = (n + 1) * (shuffleDraws n).length := by
  simp only [shuffleDraws, List.length_flatMap, List.length_map]
  rw [List.map_const', List.sum_replicate_nat, List.length_range]

theorem satt_perm (l ds : List Nat) (h : ds.length < l.length ∨ ds = []) (hb : ∀ j < ds.length, ds.getD j 0 < l.length - 1 - j) :
    (satt l ds).Perm l := by
  induction ds generalizing l with
  | nil => cases l <;> exact List.Perm.refl _
  | cons d ds ih =>
    match l with
    | [] => simp at h
    | a :: l =>
      have hd : d < l.length := by have := hb 0 (by simp); simpa using this
      rw [satt]
      have h1 := ih (l.set d a) (by
        rcases h with h | h
        · left; simpa using h
        · cases h) (by
        intro j hj
        have := hb (j + 1) (by simpa using hj)
        rw [List.getD_cons_succ] at this
        simp only [List.length_cons, List.length_set] at this ⊢
        omega)
      refine (List.Perm.cons _ h1).trans ?_
      have h2 := List.set_set_perm (as := a :: l) (i := 0) (j := d + 1) (by simp) (by simpa using hd)
      simp only [List.getElem_cons_succ, List.set_cons_zero, List.set_cons_succ, List.getElem_cons_zero] at h2
      simpa [List.getD, hd] using h2

theorem satt_draws_perm {n : Nat} {ds : List Nat} (h : ds ∈ shuffleDraws n) (l : List Nat) (hl : l.length = n + 1) : (satt l ds).Perm l := by
  obtain ⟨h1, h2⟩ := shuffle_ranges h
  refine satt_perm l ds (Or.inl (by omega)) ?_
  intro j hj
  have := h2 j (by omega)
  omega

theorem sum_except (n d0 K : Nat) (h : d0 ≤ n) : ((List.range (n + 1)).map fun d => if d = d0 then 0 else K).sum = n * K := by
  have key : ∀ n, ((List.range n).map fun d => if d = d0 then 0 else K).sum + (if d0 < n then K else 0) = n * K := by
    intro n
    induction n with
    | zero => simp
    | succ n ih =>
      rw [List.range_succ, List.map_append, List.sum_append_nat, Nat.add_mul]
      simp only [List.map_cons, List.map_nil, List.sum_cons, List.sum_nil]
      rcases Nat.lt_trichotomy d0 n with h | h | h
      · rw [if_pos h] at ih; rw [if_neg (by omega), if_pos (by omega)]; omega
      · rw [if_neg (by omega)] at ih; rw [if_pos h.symm, if_pos (by omega)]; omega
      · rw [if_neg (by omega)] at ih; rw [if_neg (by omega), if_neg (by omega)]; omega
  have := key (n + 1)
  rw [if_pos (by omega), Nat.add_mul] at this
  omega

theorem sum_only (n d0 K : Nat) (h : d0 < n) : ((List.range n).map fun d => if d = d0 then K else 0).sum = K := by
  have key : ∀ n, ((List.range n).map fun d => if d = d0 then K else 0).sum = if d0 < n then K else 0 := by
    intro n
    induction n with
    | zero => simp
    | succ n ih =>
      rw [List.range_succ, List.map_append, List.sum_append_nat, ih]
      simp only [List.map_cons, List.map_nil, List.sum_cons, List.sum_nil]
      rcases Nat.lt_trichotomy d0 n with h | h | h
      · rw [if_pos h, if_neg (by omega), if_pos (by omega)]; rfl
      · rw [if_neg (by omega), if_pos h.symm, if_pos (by omega)]; omega
      · rw [if_neg (by omega), if_neg (by omega), if_neg (by omega)]; rfl
  rw [key, if_pos h]

/-- How often `x` ends at place `i`. -/
def placed (n : Nat) (l : List Nat) (i x : Nat) : Nat := (shuffleDraws n).countP fun ds => (satt l ds)[i]? == some x

theorem placed_absent {n : Nat} {l : List Nat} (hl : l.length = n + 1) {i x : Nat} (hx : x ∉ l) : placed n l i x = 0 := by
  rw [placed, List.countP_eq_zero]
  intro ds hds hh
  exact hx ((satt_draws_perm hds l hl).mem_iff.1 (List.mem_of_getElem? (by simpa using hh)))

theorem placed_zero (n a : Nat) (l : List Nat) (hl : l.length = n + 1) (x : Nat) :
    placed (n + 1) (a :: l) 0 x = ((List.range (n + 1)).map fun d => if l[d]? = some x then (shuffleDraws n).length else 0).sum := by
  rw [placed, shuffleDraws, Toss.countP_flatMap_sum]
  congr 1
  apply List.map_congr_left
  intro d hd
  have hd' : d < l.length := by rw [hl]; exact List.mem_range.1 hd
  rw [List.countP_map]
  by_cases h : l[d]? = some x
  · rw [if_pos h, List.countP_eq_length]
    intro ds _
    simp only [Function.comp_apply, satt, List.getElem?_cons_zero, List.getD_eq_getElem?_getD, h, Option.getD_some, beq_self_eq_true]
  · rw [if_neg h, List.countP_eq_zero]
    intro ds _ hh
    apply h
    simpa [satt, List.getD, hd'] using hh

theorem placed_succ (n a : Nat) (l : List Nat) (i x : Nat) :
    placed (n + 1) (a :: l) (i + 1) x = ((List.range (n + 1)).map fun d => placed n (l.set d a) i x).sum := by
  rw [placed, shuffleDraws, Toss.countP_flatMap_sum]
  congr 1
  apply List.map_congr_left
  intro d hd
  rw [List.countP_map, placed]
  rfl

/-- Every element ends equally often at every place other than its own, and never at its own. -/
theorem placed_eq (n : Nat) : ∀ (l : List Nat), l.length = n + 2 → l.Nodup → ∀ i j x, i < n + 2 → l[j]? = some x →
    placed (n + 1) l i x = if i = j then 0 else (shuffleDraws n).length := by
  induction n with
  | zero =>
    intro l hl hnd i j x hi hx
    match l, hl with
    | [a, b], _ =>
      have hab : a ≠ b := by simpa using hnd
      have hj : j < 2 := (List.getElem?_eq_some_iff.1 hx).1
      have hi2 : i = 0 ∨ i = 1 := by omega
      have hj2 : j = 0 ∨ j = 1 := by omega
      rcases hi2 with rfl | rfl <;> rcases hj2 with rfl | rfl <;> simp at hx <;> subst hx <;>
        simp [placed, shuffleDraws, satt, hab, Ne.symm hab, List.getD, List.range_succ]
  | succ n ih =>
    intro l hl hnd i j x hi hx
    match l, hl with
    | a :: r, hl =>
      have hr : r.length = n + 2 := by simpa using hl
      obtain ⟨ha, hrn⟩ := List.nodup_cons.1 hnd
      have hpos : ∀ d p, d < r.length → p < r.length → r[d]? = r[p]? → d = p := by
        intro d p hd hp he
        exact (List.getElem?_inj hd hrn).1 he
      cases i with
      | zero =>
        rw [placed_zero _ _ _ hr]
        cases j with
        | zero =>
          rw [if_pos rfl]
          have hxa : a = x := by simpa using hx
          have hz : (List.range (n + 1 + 1)).map (fun d => if r[d]? = some x then (shuffleDraws (n + 1)).length else 0) =
              (List.range (n + 1 + 1)).map fun _ => 0 := by
            apply List.map_congr_left
            intro d hd
            rw [if_neg]
            intro hh
            exact ha (hxa ▸ List.mem_of_getElem? hh)
          rw [hz, List.map_const', List.sum_replicate_nat, Nat.mul_zero]
        | succ j =>
          rw [if_neg (by omega)]
          have hx' : r[j]? = some x := by simpa using hx
          have hjr : j < r.length := (List.getElem?_eq_some_iff.1 hx').1
          refine Eq.trans ?_ (sum_only (n + 2) j (shuffleDraws (n + 1)).length (by omega))
          congr 1
          apply List.map_congr_left
          intro d hd
          have hd' : d < r.length := by rw [hr]; exact List.mem_range.1 hd
          by_cases h : d = j
          · subst h; rw [if_pos hx', if_pos rfl]
          · rw [if_neg h, if_neg]
            intro hh
            exact h (hpos d j hd' hjr (by rw [hh, hx']))
      | succ i =>
        rw [placed_succ]
        have hset : ∀ d < r.length, (r.set d a).length = n + 2 ∧ (r.set d a).Nodup := by
          intro d hd
          refine ⟨by simpa using hr, ?_⟩
          refine List.pairwise_iff_getElem.2 ?_
          intro p q hp hq hpq he
          replace he : (r.set d a)[p]? = (r.set d a)[q]? := by rw [List.getElem?_eq_getElem hp, List.getElem?_eq_getElem hq, he]
          rw [List.length_set] at hq hp
          rw [List.getElem?_set, List.getElem?_set] at he
          by_cases h1 : d = p
          · rw [if_pos h1, if_pos (by omega), if_neg (by omega)] at he
            exact ha (List.mem_of_getElem? he.symm)
          · rw [if_neg h1] at he
            by_cases h2 : d = q
            · rw [if_pos h2, if_pos (by omega)] at he
              exact ha (List.mem_of_getElem? he)
            · rw [if_neg h2] at he
              have := hpos p q (by omega) (by omega) he
              omega
        rw [shuffle_total]
        cases j with
        | zero =>
          have hxa : a = x := by simpa using hx
          rw [if_neg (by omega), ← sum_except (n + 1) i (shuffleDraws n).length (by omega)]
          congr 1
          apply List.map_congr_left
          intro d hd
          have hd' : d < r.length := by rw [hr]; exact List.mem_range.1 hd
          obtain ⟨h1, h2⟩ := hset d hd'
          rw [ih _ h1 h2 i d x (by omega) (by rw [List.getElem?_set_self hd', hxa])]
          by_cases h : i = d
          · rw [if_pos h, if_pos h.symm]
          · rw [if_neg h, if_neg (Ne.symm h)]
        | succ j =>
          have hx' : r[j]? = some x := by simpa using hx
          have hjr : j < r.length := (List.getElem?_eq_some_iff.1 hx').1
          have hax : x ∉ r.set j a := by
            intro hm
            obtain ⟨p, hp, he⟩ := List.getElem_of_mem hm
            have he' : (r.set j a)[p]? = some x := by rw [List.getElem?_eq_getElem hp, he]
            rw [List.length_set] at hp
            rw [List.getElem?_set] at he'
            by_cases h : j = p
            · rw [if_pos h, if_pos (by omega)] at he'
              simp only [Option.some.injEq] at he'
              exact ha (he' ▸ List.mem_of_getElem? hx')
            · rw [if_neg h, ← hx'] at he'
              exact h (hpos p j hp hjr he').symm
          have hval : ∀ d < r.length, placed (n + 1) (r.set d a) i x = if d = j then 0 else if i = j then 0 else (shuffleDraws n).length := by
            intro d hd
            obtain ⟨h1, h2⟩ := hset d hd
            by_cases h : d = j
            · rw [if_pos h, placed_absent (by omega) (h ▸ hax)]
            · rw [if_neg h, ih _ h1 h2 i j x (by omega) (by rw [List.getElem?_set_ne h, hx'])]
          rw [show (List.range (n + 1 + 1)).map (fun d => placed (n + 1) (r.set d a) i x) =
            (List.range (n + 1 + 1)).map fun d => if d = j then 0 else if i = j then 0 else (shuffleDraws n).length from
            List.map_congr_left fun d hd => hval d (by rw [hr]; exact List.mem_range.1 hd), sum_except _ _ _ (by omega)]
          by_cases h : i = j
          · rw [if_pos h, if_pos (by omega), Nat.mul_zero]
          · rw [if_neg h, if_neg (by omega)]

theorem kept_eq (n c j : Nat) (hc : c ≤ n + 2) (hj : j < n + 2) :
    keptHits (n + 2) c j = (c - if j < c then 1 else 0) * (shuffleDraws n).length := by
  have h0 : keptHits (n + 2) c j = (shuffleDraws (n + 1)).countP fun ds => ((satt (List.range (n + 2)) ds).take c).contains j := by
    rw [keptHits, show n + 2 - 1 = n + 1 by omega]
    apply List.countP_congr
    intro ds hds
    rw [sampleN_draws hds _ (by simp)]
    simp
  rw [h0]
  clear h0
  induction c with
  | zero =>
    simp
  | succ c ih =>
    have h1 : (shuffleDraws (n + 1)).countP (fun ds => ((satt (List.range (n + 2)) ds).take (c + 1)).contains j) =
        (shuffleDraws (n + 1)).countP (fun ds => ((satt (List.range (n + 2)) ds).take c).contains j) + placed (n + 1) (List.range (n + 2)) c j := by
      rw [placed]
      have key : ∀ L : List (List Nat), (∀ ds ∈ L, ds ∈ shuffleDraws (n + 1)) →
          L.countP (fun ds => ((satt (List.range (n + 2)) ds).take (c + 1)).contains j) =
          L.countP (fun ds => ((satt (List.range (n + 2)) ds).take c).contains j) + L.countP fun ds => (satt (List.range (n + 2)) ds)[c]? == some j := by
        intro L
        induction L with
        | nil => intro _; rfl
        | cons ds L ihL =>
          intro hL
          rw [List.countP_cons, List.countP_cons, List.countP_cons, ihL fun e he => hL e (by simp [he])]
          have hp := satt_draws_perm (hL ds (by simp)) (List.range (n + 2)) (by simp)
          have hnd : (satt (List.range (n + 2)) ds).Nodup := hp.nodup_iff.2 List.nodup_range
          have hlen : (satt (List.range (n + 2)) ds).length = n + 2 := by simpa using hp.length_eq
          obtain ⟨t, ht⟩ : ∃ t, satt (List.range (n + 2)) ds = t := ⟨_, rfl⟩
          rw [ht] at hnd hlen ⊢
          have hc' : c < t.length := by omega
          have hsplit : t.take (c + 1) = t.take c ++ [t[c]] := by rw [List.take_add_one, List.getElem?_eq_getElem hc']; rfl
          rw [hsplit, List.getElem?_eq_getElem hc']
          have hnd2 : (t.take c ++ [t[c]]).Nodup := by rw [← hsplit]; exact hnd.sublist (List.take_sublist _ _)
          have hdis : t[c] ∉ t.take c := by
            intro hm
            have := (List.nodup_append.1 hnd2).2.2 _ hm _ (List.mem_singleton.2 rfl)
            exact this rfl
          by_cases h1 : j ∈ t.take c
          · have h2 : t[c] ≠ j := by rintro rfl; exact hdis h1
            have e1 : (t.take c ++ [t[c]]).contains j = true := List.contains_iff_mem.2 (List.mem_append_left _ h1)
            have e2 : (t.take c).contains j = true := by simp [h1]
            have e3 : (some t[c] == some j) = false := by simp [h2]
            rw [e1, e2, e3, if_pos rfl, if_neg (by decide)]
            omega
          · have e2 : (t.take c).contains j = false := by simp [h1]
            by_cases h2 : t[c] = j
            · have e1 : (t.take c ++ [t[c]]).contains j = true := by simp [h2]
              have e3 : (some t[c] == some j) = true := by simp [h2]
              rw [e1, e2, e3, if_pos rfl, if_neg (by decide)]
              omega
            · have h3 : ¬ j = t[c] := fun e => h2 e.symm
              have e1 : (t.take c ++ [t[c]]).contains j = false := by
                rw [Bool.eq_false_iff]
                intro hh
                rw [List.contains_iff_mem, List.mem_append, List.mem_singleton] at hh
                rcases hh with hh | hh
                · exact h1 hh
                · exact h3 hh
              have e3 : (some t[c] == some j) = false := by simp [h2]
              rw [e1, e2, e3, if_neg (by decide)]
              omega
      exact key _ fun _ h => h
    rw [h1, ih (by omega), placed_eq n _ (by simp) List.nodup_range c j j (by omega) (by simp [hj])]
    rcases Nat.lt_trichotomy j c with h | h | h
    · rw [if_pos h, if_neg (by omega), if_pos (by omega), ← Nat.succ_mul]; congr 1; omega
    · rw [if_neg (by omega), if_pos h.symm, if_pos (by omega), Nat.add_zero]; congr 1
    · rw [if_neg (by omega), if_neg (by omega), if_neg (by omega), ← Nat.succ_mul]; congr 1

/-- No element stays where it is. -/
theorem sampleN_moves (R : Draws) {l : List Nat} (hl : 2 ≤ l.length) (hnd : l.Nodup) (s : Nat) {l' : List Nat} {s' : Nat}
    (h : sampleN R l s = some (l', s')) (i : Nat) (hi : i < l.length) : l'[i]? ≠ l[i]? := by
  rw [sampleN_eq _ _ _ (by omega)] at h
  simp only [Option.some.injEq, Prod.mk.injEq] at h
  obtain ⟨n, hn⟩ : ∃ n, l.length = n + 2 := ⟨l.length - 2, by omega⟩
  have hmem : ∀ c s, (List.range c).map (fun j => R (s + j) % (c - j)) ∈ shuffleDraws c := by
    intro c
    induction c with
    | zero => intro s; simp [shuffleDraws]
    | succ c ih =>
      intro s
      simp only [shuffleDraws, List.mem_flatMap, List.mem_range, List.mem_map]
      refine ⟨R s % (c + 1), Nat.mod_lt _ (by omega), _, ih (s + 1), ?_⟩
      rw [List.range_succ_eq_map, List.map_cons, List.map_map]
      congr 1
      apply List.map_congr_left
      intro j hj
      simp only [Function.comp_apply, Nat.succ_eq_add_one]
      rw [show s + 1 + j = s + (j + 1) by omega, show c + 1 - (j + 1) = c - j by omega]
  have h1 := hmem (l.length - 1) s
  rw [show l.length - 1 = n + 1 by omega] at h1
  have h2 := placed_eq n l hn hnd i i l[i] (by omega) (List.getElem?_eq_getElem hi)
  rw [if_pos rfl, placed, List.countP_eq_zero] at h2
  intro he
  refine h2 _ h1 ?_
  rw [show n + 1 = l.length - 1 by omega, h.1, he, List.getElem?_eq_getElem hi]
  exact beq_self_eq_true _

theorem replaceSlots_slots {α} (xs : List α) (d : Nat) : ∀ (i : Nat) (kept new : List Nat) (out out' : List α),
    kept.Pairwise (· < ·) → (∀ j ∈ kept, i ≤ j ∧ j < i + d) → i + d ≤ out.length →
    replaceSlots (store xs) (List.range' i d) kept new out = some out' →
    (∀ j, j < i ∨ j ∈ kept → out'[j]? = out[j]?) ∧
    (∀ j, i ≤ j → j < i + d → j ∉ kept → ∃ q ∈ new.take (d - kept.length), q < xs.length ∧ out'[j]? = xs[q]?) ∧
    (∀ q ∈ new.take (d - kept.length), q < xs.length ∧ ∃ j : Nat, out'[j]? = xs[q]?) := by
  induction d with
  | zero =>
    intro i kept new out out' hk hb hi h
    simp only [List.range'_zero, replaceSlots, Option.some.injEq] at h
    subst h
    refine ⟨fun _ _ => rfl, fun j h1 h2 => by omega, ?_⟩
    intro q hq
    simp at hq
  | succ d ih =>
    intro i kept new out out' hk hb hi h
    rw [List.range'_succ] at h
    simp only [replaceSlots] at h
    by_cases hc : kept.head? = some i
    · rw [if_pos hc] at h
      match kept, hc with
      | k :: kept, hc =>
        have hki : k = i := by simpa using hc
        subst hki
        obtain ⟨h1, h2⟩ := List.pairwise_cons.1 hk
        obtain ⟨g1, g2, g3⟩ := ih (k + 1) kept new out out' h2 (by
          intro j hj
          have := h1 j hj
          have := hb j (by simp [hj])
          omega) (by omega) h
        rw [List.length_cons, show d + 1 - (kept.length + 1) = d - kept.length by omega]
        refine ⟨?_, ?_, g3⟩
        · intro j hj
          apply g1
          rcases hj with hj | hj
          · left; omega
          · rcases List.mem_cons.1 hj with rfl | hj
            · left; omega
            · right; exact hj
        · intro j h3 h4 h5
          have h6 : j ≠ k := by rintro rfl; exact h5 (by simp)
          exact g2 j (by omega) (by omega) fun hm => h5 (by simp [hm])
    · rw [if_neg hc] at h
      have hik : ∀ j ∈ kept, i + 1 ≤ j := by
        intro j hj
        match kept with
        | [] => cases hj
        | k :: kept =>
          have hne : k ≠ i := by simpa using hc
          have hkb := hb k (by simp)
          rcases List.mem_cons.1 hj with rfl | hj
          · omega
          · have := (List.pairwise_cons.1 hk).1 j hj
            omega
      match new, h with
      | q :: new, h =>
        simp only [] at h
        obtain ⟨o1, e1, e2⟩ := Option.bind_eq_some_iff.1 h
        simp only [store] at e1
        rw [if_pos (by omega)] at e1
        obtain ⟨x, hx, rfl⟩ := Option.map_eq_some_iff.1 e1
        have hq : q < xs.length := (List.getElem?_eq_some_iff.1 hx).1
        obtain ⟨g1, g2, g3⟩ := ih (i + 1) kept new (out.set i x) out' hk (fun j hj => by
          have := hb j hj; have := hik j hj; omega) (by simp; omega) e2
        have hlen : kept.length ≤ d := by
          have key : ∀ (d i : Nat) (kept : List Nat), kept.Pairwise (· < ·) → (∀ j ∈ kept, i ≤ j ∧ j < i + d) → kept.length ≤ d := by
            intro d
            induction d with
            | zero =>
              intro i kept _ hb
              cases kept with
              | nil => exact Nat.le_refl _
              | cons a l => have := hb a (by simp); omega
            | succ d ih =>
              intro i kept hp hb
              cases kept with
              | nil => exact Nat.zero_le _
              | cons a l =>
                obtain ⟨h1, h2⟩ := List.pairwise_cons.1 hp
                have := ih (i + 1) l h2 fun j hj => by
                  have := h1 j hj; have := hb j (by simp [hj]); have := hb a (by simp); omega
                simp; omega
          exact key d (i + 1) kept hk fun j hj => by have := hb j hj; have := hik j hj; omega
        have hoi : out'[i]? = xs[q]? := by
          rw [g1 i (Or.inl (by omega)), List.getElem?_set_self (by omega), hx]
        rw [show d + 1 - kept.length = d - kept.length + 1 by omega, List.take_succ_cons]
        refine ⟨?_, ?_, ?_⟩
        · intro j hj
          have hji : j ≠ i := by
            rintro rfl
            rcases hj with hj | hj
            · omega
            · have := hik _ hj; omega
          rw [g1 j (hj.imp (fun h => by omega) id), List.getElem?_set_ne (Ne.symm hji)]
        · intro j h3 h4 h5
          by_cases hji : j = i
          · subst hji; exact ⟨q, by simp, hq, hoi⟩
          · obtain ⟨q', a1, a2, a3⟩ := g2 j (by omega) (by omega) h5
            exact ⟨q', List.mem_cons_of_mem _ a1, a2, a3⟩
        · intro q' hq'
          rcases List.mem_cons.1 hq' with rfl | hq'
          · exact ⟨hq, i, hoi⟩
          · exact g3 q' hq'

/-- What a merge keeps (`L`) and takes (`Q`): never the first element alone. -/
theorem mergeAdd_parts {α} (R : Draws) (xs out out' : List α) (seen n s seen' s' : Nat) (hseen : seen ≤ out.length) (hn : out.length < seen + n)
    (h : mergeAdd R (store xs) out.length n (out, seen, s) = some (out', seen', s')) :
    ∃ L Q : List Nat, (∀ j ∈ L, j < seen ∧ out'[j]? = out[j]?) ∧
      (∀ j < out.length, j ∉ L → ∃ q ∈ Q, q < xs.length ∧ out'[j]? = xs[q]?) ∧ (∀ q ∈ Q, q < xs.length ∧ ∃ j : Nat, out'[j]? = xs[q]?) ∧
      (0 ∈ L → 2 ≤ seen → ∃ p ∈ L, p ≠ 0) ∧ (0 ∈ Q → 2 ≤ n → 2 ≤ out.length → ∃ p ∈ Q, p ≠ 0) := by
  simp only [mergeAdd] at h
  rw [if_neg (by omega)] at h
  obtain ⟨a, b, s1, hs1, hab, ha, hb⟩ := splitCounts_spec R out.length seen n s (by omega)
  rw [hs1] at h
  obtain ⟨⟨left, s2⟩, h1, h⟩ := Option.bind_eq_some_iff.1 h
  obtain ⟨⟨right, s3⟩, h2, h⟩ := Option.bind_eq_some_iff.1 h
  obtain ⟨o, h3, h4⟩ := Option.map_eq_some_iff.1 h
  simp only [Prod.mk.injEq] at h4
  obtain ⟨rfl, -, -⟩ := h4
  dsimp only at h1 h2 h3
  have hleft : left.Perm (List.range seen) := by
    split at h1
    · obtain ⟨l', s', e1, e2⟩ := sampleN_perm R (List.range seen) s1
      rw [e1] at h1
      simp only [Option.some.injEq, Prod.mk.injEq] at h1
      exact h1.1 ▸ e2
    · simp only [Option.some.injEq, Prod.mk.injEq] at h1
      exact h1.1 ▸ List.Perm.refl _
  have hright : right.Perm (List.range (min n out.length)) := by
    split at h2
    · obtain ⟨l', s', e1, e2⟩ := sampleN_perm R (List.range (min n out.length)) s2
      rw [e1] at h2
      simp only [Option.some.injEq, Prod.mk.injEq] at h2
      exact h2.1 ▸ e2
    · simp only [Option.some.injEq, Prod.mk.injEq] at h2
      exact h2.1 ▸ List.Perm.refl _
  have hll : left.length = seen := by simpa using hleft.length_eq
  have hrl : right.length = min n out.length := by simpa using hright.length_eq
  have hlnd : left.Nodup := hleft.nodup_iff.2 List.nodup_range
  have hmem : ∀ j, j ∈ (left.take a).mergeSort (· ≤ ·) ↔ j ∈ left.take a := fun j => List.mem_mergeSort
  have hkl : ((left.take a).mergeSort (· ≤ ·)).length = a := by simp; omega
  rw [List.range_eq_range'] at h3
  obtain ⟨g1, g2, g3⟩ := replaceSlots_slots xs out.length 0 _ right out o
    (strict_of_perm_range (hlnd.sublist (List.take_sublist _ _))) (by
      intro j hj
      have := hleft.mem_iff.1 (List.mem_of_mem_take ((hmem j).1 hj))
      simp at this; omega) (by omega) h3
  rw [hkl, show out.length - a = b by omega] at g2 g3
  refine ⟨left.take a, right.take b, ?_, ?_, g3, ?_, ?_⟩
  · intro j hj
    have := hleft.mem_iff.1 (List.mem_of_mem_take hj)
    exact ⟨by simpa using this, g1 j (Or.inr ((hmem j).2 hj))⟩
  · intro j hj hjl
    exact g2 j (by omega) (by omega) fun hm => hjl ((hmem j).1 hm)
  · intro h0 h2s
    have ha0 : 0 < a := by
      rcases Nat.eq_zero_or_pos a with e | e
      · rw [e] at h0; simp at h0
      · exact e
    rw [if_pos ha0] at h1
    have hmv := sampleN_moves R (l := List.range seen) (by simpa using h2s) List.nodup_range s1 h1 0 (by simp; omega)
    have hp : 0 < left.length := by omega
    refine ⟨left[0], ?_, ?_⟩
    · exact List.mem_take_iff_getElem.2 ⟨0, by omega, rfl⟩
    · intro he
      apply hmv
      rw [List.getElem?_eq_getElem hp, he, List.getElem?_range (by omega)]
  · intro h0 h2n h2k
    have hb0 : 0 < b := by
      rcases Nat.eq_zero_or_pos b with e | e
      · rw [e] at h0; simp at h0
      · exact e
    rw [if_pos hb0] at h2
    have hmv := sampleN_moves R (l := List.range (min n out.length)) (by simp; omega) List.nodup_range s2 h2 0 (by simp; omega)
    have hp : 0 < right.length := by omega
    refine ⟨right[0], ?_, ?_⟩
    · exact List.mem_take_iff_getElem.2 ⟨0, by omega, rfl⟩
    · intro he
      apply hmv
      rw [List.getElem?_eq_getElem hp, he, List.getElem?_range (by omega)]

end DeepGNN
