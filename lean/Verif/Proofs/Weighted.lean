import Verif.Spec.Weighted
import Verif.Proofs.Sampling

namespace DeepGNN

open Spec

def nsum (l : List Nbr) : Int := (l.map (·.weight)).sum

@[simp] theorem nsum_nil : nsum [] = 0 := rfl
@[simp] theorem nsum_cons (y : Nbr) (l : List Nbr) : nsum (y :: l) = y.weight + nsum l := by simp [nsum]
@[simp] theorem nsum_append (l k : List Nbr) : nsum (l ++ k) = nsum l + nsum k := by simp [nsum]

def NonNeg (l : List Nbr) : Prop := ∀ y ∈ l, 0 ≤ y.weight

theorem NonNeg.sum {l : List Nbr} (h : NonNeg l) : 0 ≤ nsum l := by
  induction l with
  | nil => simp
  | cons y l ih =>
    have h1 := ih fun z hz => h z (by simp [hz])
    have h2 := h y (by simp)
    rw [nsum_cons]; omega

theorem NonNeg.take_le {l : List Nbr} (h : NonNeg l) (k : Nat) : nsum (l.take k) ≤ nsum l := by
  have h1 := nsum_append (l.take k) (l.drop k)
  rw [List.take_append_drop] at h1
  have h2 : 0 ≤ nsum (l.drop k) := NonNeg.sum fun y hy => h y (List.mem_of_mem_drop hy)
  omega

/-- A group with exact running sums. -/
def GW (l : List Nbr) : WGroup :=
  { cums := (List.range l.length).map fun i => nsum (l.take (i + 1)), nbrs := l }

theorem GW_last {l : List Nbr} (h : l ≠ []) : (GW l).cums.getLast? = some (nsum l) := by
  have hp := List.length_pos_iff.2 h
  simp only [GW, List.getLast?_map]
  rw [List.getLast?_range, if_neg (by omega), Option.map_some,
    show l.length - 1 + 1 = l.length by omega, List.take_length]

/-- The index found by a draw. -/
theorem pick_index {l : List Nbr} (hne : l ≠ []) (hn : NonNeg l) (u : Nat × Nat) (hu : u.1 < u.2) :
    ∃ k, ∃ hk : k < l.length, weightedPick (GW l) u = some l[k] ∧
      (k = 0 ∨ nsum (l.take k) * u.2 < nsum l * u.1) ∧ nsum l * u.1 ≤ nsum (l.take (k + 1)) * u.2 := by
  have hp := List.length_pos_iff.2 hne
  simp only [weightedPick, GW_last hne, Option.bind_some]
  have hlen : (GW l).cums.length = l.length := by simp [GW]
  obtain ⟨h1, h2, h3, h4⟩ := bsearch_spec (fun c : Int => decide (c * u.2 < nsum l * u.1)) (GW l).cums 0
    (GW l).cums.length (by omega)
  generalize bsearch (fun c : Int => decide (c * u.2 < nsum l * u.1)) (GW l).cums 0 (GW l).cums.length = k at *
  have hget : ∀ i, i < l.length → (GW l).cums[i]? = some (nsum (l.take (i + 1))) := by
    intro i hi
    simp [GW, List.getElem?_map, List.getElem?_range hi]
  have hs := hn.sum
  have hle : nsum l * (u.1 : Int) ≤ nsum l * (u.2 : Int) := Int.mul_le_mul_of_nonneg_left (by omega) hs
  have hk : k < l.length := by
    rcases Nat.lt_or_ge k l.length with h | h
    · exact h
    · exfalso
      have hk : k = l.length := by omega
      rcases h3 with h3 | ⟨a, ha, hlt⟩
      · omega
      · rw [hget (k - 1) (by omega), show k - 1 + 1 = l.length by omega, List.take_length,
          Option.some.injEq] at ha
        subst ha
        simp only [decide_eq_true_eq] at hlt
        omega
  refine ⟨k, hk, List.getElem?_eq_getElem hk, ?_, ?_⟩
  · rcases h3 with h3 | ⟨a, ha, hlt⟩
    · exact Or.inl h3
    · by_cases h0 : k = 0
      · exact Or.inl h0
      · right
        rw [hget (k - 1) (by omega), show k - 1 + 1 = k by omega, Option.some.injEq] at ha
        subst ha
        simpa using hlt
  · rcases h4 with h4 | ⟨a, ha, hlt⟩
    · omega
    · rw [hget k hk, Option.some.injEq] at ha
      subst ha
      simpa using hlt

theorem nsum_take_succ {l : List Nbr} {k : Nat} (hk : k < l.length) :
    nsum (l.take (k + 1)) = nsum (l.take k) + l[k].weight := by
  rw [List.take_succ_eq_append_getElem hk, nsum_append]; simp

/-- A draw finds a neighbour, of positive weight if the draw is not 0. -/
theorem pick_mem {l : List Nbr} (hn : NonNeg l) (hpos : 0 < nsum l) (u : Nat × Nat) (hu : u.1 < u.2) :
    ∃ y, weightedPick (GW l) u = some y ∧ y ∈ l ∧ (0 < u.1 → 0 < y.weight) := by
  have hne : l ≠ [] := by rintro rfl; simp at hpos
  obtain ⟨k, hk, h1, h2, h3⟩ := pick_index hne hn u hu
  refine ⟨l[k], h1, List.getElem_mem hk, fun h0 => ?_⟩
  have h4 : 0 < nsum l * (u.1 : Int) := Int.mul_pos hpos (by omega)
  rw [nsum_take_succ hk, Int.add_mul] at h3
  have h5 : 0 < l[k].weight * (u.2 : Int) := by
    rcases h2 with rfl | h2
    · simp only [List.take_zero, nsum_nil, Int.zero_mul] at h3; omega
    · omega
  rcases Int.lt_or_le 0 l[k].weight with h | h
  · exact h
  · have := Int.mul_le_mul_of_nonneg_right h (show (0 : Int) ≤ u.2 by omega)
    omega

theorem flatMap_replicate_get (m : Nat) (l : List Nbr) (hn : NonNeg l) (k : Nat) (hk : k < l.length) (a : Nat)
    (h1 : m * nsum (l.take k) ≤ a) (h2 : (a : Int) < m * nsum (l.take (k + 1))) :
    (l.flatMap fun y => List.replicate ((m : Int) * y.weight).toNat y)[a]? = some l[k] := by
  induction l generalizing k a with
  | nil => simp at hk
  | cons y l ih =>
    have hy := hn y (by simp)
    have hmy : 0 ≤ (m : Int) * y.weight := Int.mul_nonneg (by omega) hy
    rw [List.flatMap_cons]
    cases k with
    | zero =>
      simp only [Nat.zero_add, List.take_succ_cons, List.take_zero, nsum_cons, nsum_nil, Int.add_zero] at h2
      rw [List.getElem?_append_left (by rw [List.length_replicate]; omega), List.getElem?_replicate,
        if_pos (by omega)]
      rfl
    | succ k =>
      simp only [List.length_cons, Nat.add_lt_add_iff_right] at hk
      rw [List.take_succ_cons, nsum_cons, Int.mul_add] at h1 h2
      have hnn : NonNeg l := fun z hz => hn z (by simp [hz])
      have h0 : 0 ≤ (m : Int) * nsum (l.take k) :=
        Int.mul_nonneg (by omega) (NonNeg.sum fun z hz => hnn z (List.mem_of_mem_take hz))
      rw [List.getElem?_append_right (by rw [List.length_replicate]; omega), List.length_replicate]
      rw [ih hnn k hk (a - ((m : Int) * y.weight).toNat) (by omega) (by omega)]
      rfl

theorem mids_lt {q : Nat} : ∀ u ∈ mids q, u.1 < u.2 ∧ 0 < u.1 := by
  intro u hu
  obtain ⟨a, ha, rfl⟩ := List.mem_map.1 hu
  have := List.mem_range.1 ha
  dsimp only; omega

@[simp] theorem length_mids (q : Nat) : (mids q).length = q := by simp [mids]

theorem length_flatMap_replicate (m : Nat) (l : List Nbr) (hn : NonNeg l) :
    ((l.flatMap fun y => List.replicate ((m : Int) * y.weight).toNat y).length : Int) = m * nsum l := by
  induction l with
  | nil => simp
  | cons y l ih =>
    have hy := hn y (by simp)
    have hmy : 0 ≤ (m : Int) * y.weight := Int.mul_nonneg (by omega) hy
    have := ih fun z hz => hn z (by simp [hz])
    rw [List.flatMap_cons, List.length_append, List.length_replicate, nsum_cons, Int.mul_add]
    omega

/-- The choices made by these draws: every neighbour `m * weight` times. -/
theorem pick_mids {l : List Nbr} (hn : NonNeg l) (hpos : 0 < nsum l) (m q : Nat) (hq : (q : Int) = m * nsum l) :
    (mids q).map (weightedPick (GW l)) =
      (l.flatMap fun y => List.replicate ((m : Int) * y.weight).toNat y).map some := by
  have hne : l ≠ [] := by rintro rfl; simp at hpos
  apply List.ext_getElem?
  intro a
  by_cases ha : a < q
  · simp only [mids, List.map_map, List.getElem?_map, List.getElem?_range ha, Option.map_some, Function.comp]
    obtain ⟨k, hk, h1, h2, h3⟩ := pick_index hne hn (2 * a + 1, 2 * q) (by dsimp only; omega)
    rw [h1]
    have hm : (0 : Int) < m := by
      rcases Int.lt_or_le 0 (m : Int) with h | h
      · exact h
      · have : (m : Int) = 0 := by omega
        rw [this] at hq; simp at hq; omega
    have e1 : ∀ p : Int, p * ((2 * q : Nat) : Int) = nsum l * (2 * (m * p)) := by
      intro p
      rw [show ((2 * q : Nat) : Int) = 2 * (m * nsum l) by omega]
      simp only [Int.mul_assoc, Int.mul_comm, Int.mul_left_comm]
    rw [e1] at h2 h3
    have h3' := Int.le_of_mul_le_mul_left h3 hpos
    rw [flatMap_replicate_get m l hn k hk a ?_ (by dsimp only at h3'; omega)]
    · rfl
    · rcases h2 with rfl | h2
      · simp
      · have := Int.lt_of_mul_lt_mul_left h2 (by omega)
        dsimp only at this
        omega
  · rw [List.getElem?_eq_none (by simp; omega), List.getElem?_eq_none]
    have := length_flatMap_replicate m l hn
    rw [List.length_map]; omega

/-! Groups -/

def GroupsOk (ls : List (List Nbr)) : Prop := ∀ l ∈ ls, l ≠ [] ∧ NonNeg l

theorem GroupsOk.nonNeg {ls : List (List Nbr)} (h : GroupsOk ls) : NonNeg ls.flatten := by
  intro y hy
  obtain ⟨l, hl, hy⟩ := List.mem_flatten.1 hy
  exact (h l hl).2 y hy

theorem binomial_le' (D : WDraws) (c n : Nat) (a b : Int) : D.binomial c n a b ≤ n := by
  simp only [WDraws.binomial]
  have := List.length_filter_le (fun i => decide ((D.coin (c + i) : Int) % b < a)) (List.range n)
  rwa [List.length_range] at this

theorem binomial_zero (D : WDraws) (c n : Nat) (b : Int) (hb : 0 < b) : D.binomial c n 0 b = 0 := by
  simp only [WDraws.binomial, List.length_eq_zero_iff, List.filter_eq_nil_iff, decide_eq_true_eq]
  intro i _
  have := Int.emod_nonneg (D.coin (c + i) : Int) (by omega : b ≠ 0)
  omega

theorem weightedTake_spec (D : WDraws) (hD : D.Ok) {l : List Nbr} (hn : NonNeg l) (hpos : 0 < nsum l)
    (rate : Int × Int) (k r : Nat) : ∃ ys r', weightedTake D (GW l) rate k r = some (ys, r') ∧
      ys.length ≤ k ∧ (rate.1 = rate.2 → ys.length = k) ∧
      ∀ y ∈ ys, y ∈ l ∧ ((∀ i, 0 < (D.real i).1) → 0 < y.weight) := by
  induction k generalizing r with
  | zero => exact ⟨[], r, rfl, by simp, by simp, by simp⟩
  | succ k ih =>
    simp only [weightedTake]
    split
    · rename_i h
      obtain ⟨ys, r', h1, h2, h3, h4⟩ := ih (r + 1)
      exact ⟨ys, r', h1, by omega, fun h' => absurd h' (by omega), h4⟩
    · generalize (if rate.1 < rate.2 then r + 1 else r) = r1
      obtain ⟨y, h1, h2, h3⟩ := pick_mem hn hpos (D.real r1) (hD r1)
      obtain ⟨ys, r', h4, h5, h6, h7⟩ := ih (r1 + 1)
      refine ⟨y :: ys, r', by simp [h1, h4], by simp; omega, by simpa using h6, ?_⟩
      intro z hz
      rcases List.mem_cons.1 hz with rfl | hz
      · exact ⟨h2, fun h => h3 (h r1)⟩
      · exact h7 z hz

theorem weightedGroups_spec (D : WDraws) (hD : D.Ok) (rate : Int × Int) (ls : List (List Nbr)) (hl : GroupsOk ls)
    (hle : nsum ls.flatten ≤ 2 ^ 24) (left c r : Nat) :
    ∃ ys, weightedGroups D rate (ls.map GW) (nsum ls.flatten) left c r = some ys ∧ ys.length ≤ left ∧
      (rate.1 = rate.2 → (0 < nsum ls.flatten ∨ left = 0) → ys.length = left) ∧
      ∀ y ∈ ys, y ∈ ls.flatten ∧ ((∀ i, 0 < (D.real i).1) → 0 < y.weight) := by
  induction ls generalizing left c r with
  | nil => exact ⟨[], rfl, by simp, by simp; omega, by simp⟩
  | cons l ls ih =>
    have hok : GroupsOk ls := fun k hk => hl k (by simp [hk])
    obtain ⟨hne, hn⟩ := hl l (by simp)
    have hs0 := hn.sum
    have hs1 := hok.nonNeg.sum
    rw [List.flatten_cons, nsum_append] at hle ⊢
    rw [List.map_cons, weightedGroups]
    split
    · rename_i h
      refine ⟨[], rfl, by simp, fun _ h' => ?_, by simp⟩
      simp only [List.length_nil]; omega
    · rename_i h
      rw [GW_last hne, Option.bind_some]
      rw [show nsum l + nsum ls.flatten - nsum l = nsum ls.flatten by omega, f32_small (by omega)]
      generalize hk : (if nsum l = nsum l + nsum ls.flatten then left
        else D.binomial c left (nsum l) (nsum l + nsum ls.flatten)) = k
      have hkl : k ≤ left := by
        rw [← hk]; split
        · exact Nat.le_refl _
        · exact binomial_le' ..
      have hk0 : nsum l = 0 → k = 0 := by
        intro h0
        rw [← hk, if_neg (by omega), h0]
        exact binomial_zero _ _ _ _ (by omega)
      have htake : ∃ ys r', weightedTake D (GW l) rate k r = some (ys, r') ∧ ys.length ≤ k ∧
          (rate.1 = rate.2 → ys.length = k) ∧
          ∀ y ∈ ys, y ∈ l ∧ ((∀ i, 0 < (D.real i).1) → 0 < y.weight) := by
        by_cases h0 : nsum l = 0
        · rw [hk0 h0]
          exact ⟨[], r, rfl, by simp, by simp, by simp⟩
        · exact weightedTake_spec D hD hn (by omega) rate k r
      obtain ⟨ys, r', h1, h2, h3, h4⟩ := htake
      obtain ⟨zs, h5, h6, h7, h8⟩ := ih hok (by omega) (left - k) (c + left) r'
      refine ⟨ys ++ zs, by simp [h1, h5], by simp; omega, ?_, ?_⟩
      · intro he _
        have h9 := h3 he
        have h10 := h7 he (by
          by_cases h0 : 0 < nsum ls.flatten
          · exact Or.inl h0
          · right
            rw [if_pos (by omega)] at hk
            omega)
        rw [List.length_append]; omega
      · intro y hy
        rcases List.mem_append.1 hy with hy | hy
        · exact ⟨List.mem_append_left _ (h4 y hy).1, (h4 y hy).2⟩
        · exact ⟨List.mem_append_right _ (h8 y hy).1, (h8 y hy).2⟩

/-- `Partition.weightedSample` after reading the groups. -/
def absPart (D : WDraws) (count : Nat) (default : Nbr) (xs : List WGroup) (out : List Nbr) (acc : Int) :
    Option (List Nbr × Int) :=
  (xs.mapM fun x : WGroup => x.cums.getLast?).bind fun tws =>
    let total := fsum 0 tws
    let acc := f32 (acc + total)
    if total = 0 then some (if acc = 0 then List.replicate count default else out, acc)
    else (weightedGroups D (total, acc) xs total count 0 0).map fun ys => (ys ++ out.drop ys.length, acc)

def absEntries (D : Nat → WDraws) (count : Nat) (default : Nbr) :
    List (List WGroup) → List Nbr → Int → Nat → Option (List Nbr × Nat)
  | [], out, _, s => some (out, s)
  | e :: es, out, acc, s => (absPart (D s) count default e out acc).bind fun z =>
      absEntries D count default es z.1 z.2 (s + 1)

/-- What a call reads. -/
def readGroups (types : List Int) (e : Partition × Nat) : Option (List WGroup) :=
  (e.1.groups e.2).bind fun gs => (walk Group.typ gs types).mapM e.1.weightGroup

theorem weightedEntries_abs (D : Nat → WDraws) (types : List Int) (count : Nat) (default : Nbr)
    (es : List (Partition × Nat)) (xss : List (List WGroup)) (h : es.mapM (readGroups types) = some xss)
    (out : List Nbr) (acc : Int) (s : Nat) :
    weightedEntries D types count default es out acc s = absEntries D count default xss out acc s := by
  induction es generalizing xss out acc s with
  | nil =>
    obtain rfl : [] = xss := by simpa using h
    rfl
  | cons e es ih =>
    rw [List.mapM_cons] at h
    obtain ⟨xs, h1, h2⟩ := Option.bind_eq_some_iff.1 h
    obtain ⟨yss, h3, h4⟩ := Option.bind_eq_some_iff.1 h2
    obtain rfl : xs :: yss = xss := by simpa using h4
    simp only [weightedEntries, absEntries]
    have : e.1.weightedSample (D s) e.2 types count default out acc = absPart (D s) count default xs out acc := by
      simp only [readGroups] at h1
      obtain ⟨gs, h5, h6⟩ := Option.bind_eq_some_iff.1 h1
      simp only [Partition.weightedSample, h5, h6, Option.bind_some, absPart]
    rw [this]
    congr 1
    funext z
    exact ih yss h3 z.1 z.2 (s + 1)

theorem fsum_ints (a : Int) (l : List Int) (h0 : 0 ≤ a) (hl : ∀ x ∈ l, 0 ≤ x) (h : a + l.sum ≤ 2 ^ 24) :
    fsum a l = a + l.sum := by
  induction l generalizing a with
  | nil => simp [fsum]
  | cons x l ih =>
    have hx := hl x (by simp)
    have hs : ∀ l : List Int, (∀ x ∈ l, 0 ≤ x) → 0 ≤ l.sum := by
      intro l
      induction l with
      | nil => simp
      | cons a l ih =>
        intro h; have := ih (fun x hx => h x (by simp [hx])); have := h a (by simp)
        simp only [List.sum_cons]; omega
    have h1 := hs l fun y hy => hl y (by simp [hy])
    rw [List.sum_cons] at h ⊢
    simp only [fsum, List.foldl_cons]
    rw [f32_small (by omega)]
    have := ih (a + x) (by omega) (fun y hy => hl y (by simp [hy])) (by omega)
    simp only [fsum] at this
    rw [this]; omega

theorem nsum_flatten (ls : List (List Nbr)) : nsum ls.flatten = (ls.map nsum).sum := by
  induction ls with
  | nil => rfl
  | cons l ls ih => simp [ih]

/-- A call for exact groups. -/
theorem absPart_eq (D : WDraws) (count : Nat) (default : Nbr) (ls : List (List Nbr)) (hl : GroupsOk ls)
    (out : List Nbr) (acc : Int) (h0 : 0 ≤ acc) (hle : acc + nsum ls.flatten ≤ 2 ^ 24) :
    absPart D count default (ls.map GW) out acc =
      if nsum ls.flatten = 0 then some (if acc = 0 then List.replicate count default else out, acc)
      else (weightedGroups D (nsum ls.flatten, acc + nsum ls.flatten) (ls.map GW) (nsum ls.flatten) count 0 0).map
        fun ys => (ys ++ out.drop ys.length, acc + nsum ls.flatten) := by
  have hs := hl.nonNeg.sum
  simp only [absPart]
  rw [List.mapM_map, mapM_some_map ((fun x : WGroup => x.cums.getLast?) ∘ GW) nsum ls
    (fun l hl' => GW_last (hl l hl').1), Option.bind_some,
    fsum_ints 0 (ls.map nsum) (by omega) (by
      intro x hx
      obtain ⟨l, hl', rfl⟩ := List.mem_map.1 hx
      exact (hl l hl').2.sum) (by rw [← nsum_flatten]; omega), ← nsum_flatten, Int.zero_add,
    f32_small (by omega)]
  split
  · rename_i h; rw [h, Int.add_zero]
  · rfl

/-- The loop over the partitions. -/
theorem absEntries_spec (D : Nat → WDraws) (hD : ∀ i, (D i).Ok) (count : Nat) (default : Nbr)
    (lss : List (List (List Nbr))) (hl : ∀ ls ∈ lss, GroupsOk ls) (seen out : List Nbr) (hn : NonNeg seen)
    (hle : nsum seen + nsum lss.flatten.flatten ≤ 2 ^ 24) (hlen : out.length = count)
    (hout : 0 < nsum seen → ∀ y ∈ out, y ∈ seen ∧ ((∀ i j, 0 < ((D i).real j).1) → 0 < y.weight))
    (hdef : nsum seen = 0 → lss ≠ [] ∨ out = List.replicate count default) (s : Nat) :
    ∃ out', absEntries D count default (lss.map (·.map GW)) out (nsum seen) s = some (out', s + lss.length) ∧
      out'.length = count ∧
      (0 < nsum seen + nsum lss.flatten.flatten → ∀ y ∈ out', y ∈ seen ++ lss.flatten.flatten ∧
        ((∀ i j, 0 < ((D i).real j).1) → 0 < y.weight)) ∧
      (nsum seen + nsum lss.flatten.flatten = 0 → out' = List.replicate count default) := by
  induction lss generalizing seen out s with
  | nil =>
    refine ⟨out, rfl, hlen, ?_, ?_⟩
    · simpa using hout
    · intro h
      rcases hdef (by simpa using h) with h | h
      · exact absurd rfl h
      · exact h
  | cons ls lss ih =>
    have hok := hl ls (by simp)
    have hs0 := hn.sum
    have hs1 := hok.nonNeg.sum
    have hs2 : 0 ≤ nsum lss.flatten.flatten := NonNeg.sum (by
      intro y hy
      obtain ⟨l, h1, h2⟩ := List.mem_flatten.1 hy
      obtain ⟨ks, h3, h4⟩ := List.mem_flatten.1 h1
      exact (hl ks (by simp [h3]) l h4).2 y h2)
    rw [List.flatten_cons, List.flatten_append, nsum_append] at hle ⊢
    rw [List.map_cons, absEntries, absPart_eq (D s) count default ls hok out _ hs0 (by omega)]
    have hn' : NonNeg (seen ++ ls.flatten) := by
      intro y hy
      rcases List.mem_append.1 hy with h | h
      · exact hn y h
      · exact hok.nonNeg y h
    have step : ∃ o, (if nsum ls.flatten = 0 then
          some (if nsum seen = 0 then List.replicate count default else out, nsum seen)
        else (weightedGroups (D s) (nsum ls.flatten, nsum seen + nsum ls.flatten) (ls.map GW) (nsum ls.flatten)
          count 0 0).map fun ys => (ys ++ out.drop ys.length, nsum seen + nsum ls.flatten)) =
          some (o, nsum (seen ++ ls.flatten)) ∧ o.length = count ∧
        (0 < nsum (seen ++ ls.flatten) → ∀ y ∈ o, y ∈ seen ++ ls.flatten ∧
          ((∀ i j, 0 < ((D i).real j).1) → 0 < y.weight)) ∧
        (nsum (seen ++ ls.flatten) = 0 → o = List.replicate count default) := by
      rw [nsum_append]
      by_cases h0 : nsum ls.flatten = 0
      · rw [if_pos h0, h0, Int.add_zero]
        refine ⟨_, rfl, ?_, ?_, ?_⟩
        · split
          · simp
          · exact hlen
        · intro hp
          rw [if_neg (by omega)]
          exact fun y hy => ⟨List.mem_append_left _ (hout hp y hy).1, (hout hp y hy).2⟩
        · intro h; rw [if_pos h]
      · rw [if_neg h0]
        obtain ⟨ys, h1, h2, h3, h4⟩ := weightedGroups_spec (D s) (hD s)
          (nsum ls.flatten, nsum seen + nsum ls.flatten) ls hok (by omega) count 0 0
        refine ⟨ys ++ out.drop ys.length, by rw [h1]; rfl, ?_, ?_, fun h => by omega⟩
        · rw [List.length_append, List.length_drop]; omega
        · intro _ y hy
          rcases List.mem_append.1 hy with hy | hy
          · exact ⟨List.mem_append_right _ (h4 y hy).1, fun h => (h4 y hy).2 (h s)⟩
          · by_cases hp : 0 < nsum seen
            · have := hout hp y (List.mem_of_mem_drop hy)
              exact ⟨List.mem_append_left _ this.1, this.2⟩
            · have := h3 (by dsimp only; omega) (Or.inl (by omega))
              rw [List.drop_eq_nil_of_le (by omega)] at hy
              exact absurd hy (by simp)
    obtain ⟨o, e1, e2, e3, e4⟩ := step
    rw [e1, Option.bind_some]
    obtain ⟨out', g1, g2, g3, g4⟩ := ih (fun ls h => hl ls (by simp [h])) (seen ++ ls.flatten) o hn'
      (by rw [nsum_append]; omega) e2 e3 (fun h => Or.inr (e4 h)) (s + 1)
    refine ⟨out', ?_, g2, ?_, ?_⟩
    · rw [g1, List.length_cons]; congr 2; omega
    · intro h y hy
      have := g3 (by rw [nsum_append]; omega) y hy
      rwa [List.append_assoc] at this
    · intro h; exact g4 (by rw [nsum_append]; omega)

end DeepGNN
