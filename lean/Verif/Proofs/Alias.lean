import Verif.Model.Alias
import Verif.Spec.Alias

namespace DeepGNN

theorem sum_range_change (f g : Nat → Int) (n k : Nat) (hk : k < n) (h : ∀ j < n, j ≠ k → g j = f j) :
    ((List.range n).map g).sum = ((List.range n).map f).sum + (g k - f k) := by
  induction n with
  | zero => omega
  | succ n ih =>
    simp only [List.range_succ, List.map_append, List.sum_append, List.map_cons, List.map_nil, List.sum_cons,
      List.sum_nil]
    by_cases hk' : k = n
    · subst hk'
      have : (List.range k).map g = (List.range k).map f :=
        List.map_congr_left fun j hj => h j (by simp at hj; omega) (by simp at hj; omega)
      rw [this]; omega
    · rw [ih (by omega) fun j hj => h j (by omega), h n (by omega) (by omega)]; omega

theorem perm_sum {a b : List Int} (h : a.Perm b) : a.sum = b.sum := by
  induction h with
  | nil => rfl
  | cons x _ ih => simp [ih]
  | swap x y l => simp; omega
  | trans _ _ h1 h2 => rw [h1, h2]

theorem sum_range_congr (f g : Nat → Int) (n : Nat) (h : ∀ j < n, g j = f j) :
    ((List.range n).map g).sum = ((List.range n).map f).sum := by
  congr 1
  exact List.map_congr_left fun j hj => h j (by simpa using hj)

/-- Outcomes given to `i` by other slots. -/
def given (one : Int) (t : VoseTable) (i j : Nat) : Int :=
  if t.alias.getD j none = some i then one - t.w.getD j 0 else 0

/-- Sum of the current weights of the elements on the stacks. -/
def wsum (t : VoseTable) (l : List Nat) : Int := (l.map fun i => t.w.getD i 0).sum

structure VoseInv (one : Int) (v : List Int) (small large : List Nat) (t : VoseTable) : Prop where
  pos : 0 < one
  wlen : t.w.length = v.length
  alen : t.alias.length = v.length
  plen : t.prob.length = v.length
  nodup : (small ++ large).Nodup
  lt : ∀ i ∈ small ++ large, i < v.length
  undone : ∀ i ∈ small ++ large, t.alias.getD i none = none
  done : ∀ i < v.length, i ∉ small ++ large →
    t.prob.getD i none = some (t.w.getD i 0) ∧ t.w.getD i 0 < one ∧ 0 ≤ t.w.getD i 0 ∧
      ∃ k, t.alias.getD i none = some k ∧ k < v.length
  small_lt : ∀ i ∈ small, 0 ≤ t.w.getD i 0 ∧ t.w.getD i 0 < one
  large_ge : ∀ i ∈ large, one ≤ t.w.getD i 0
  total : wsum t (small ++ large) = one * (small ++ large).length
  mass : ∀ i < v.length, t.w.getD i 0 + ((List.range v.length).map (given one t i)).sum = v.getD i 0

theorem getD_set {α} (l : List α) (i j : Nat) (x d : α) (h : i < l.length) :
    (l.set i x).getD j d = if i = j then x else l.getD j d := by
  simp only [List.getD_eq_getElem?_getD, List.getElem?_set]
  by_cases hij : i = j
  · subst hij; simp [h]
  · simp [hij]

theorem wsum_congr {t t' : VoseTable} {l : List Nat} (h : ∀ i ∈ l, t'.w.getD i 0 = t.w.getD i 0) :
    wsum t' l = wsum t l := by
  simp only [wsum]; congr 1; exact List.map_congr_left h

theorem wsum_append (t : VoseTable) (a b : List Nat) : wsum t (a ++ b) = wsum t a + wsum t b := by
  simp [wsum]

theorem wsum_cons (t : VoseTable) (a : Nat) (b : List Nat) : wsum t (a :: b) = t.w.getD a 0 + wsum t b := by
  simp [wsum]

theorem voseLoop_inv (one : Int) (v : List Int) : ∀ (small large : List Nat) (t : VoseTable),
    VoseInv one v small large t →
    ∃ small' large' t', voseLoop one small large t = some (small', large', t') ∧
      VoseInv one v small' large' t' ∧ (small' = [] ∨ large' = [])
  | s :: small, l :: large, t, h => by
    have hs : s < v.length := h.lt s (by simp)
    have hl : l < v.length := h.lt l (by simp)
    have hsl : s ≠ l := by
      have := h.nodup; simp at this; exact fun e => this.1.2.1 e
    have hnd := h.nodup
    simp only [List.cons_append, List.nodup_cons, List.mem_append, List.mem_cons, not_or, List.nodup_append,
      List.nodup_cons] at hnd
    have h1 := h.small_lt s (by simp)
    have h2 := h.large_ge l (by simp)
    have ew : t.w[s]? = some (t.w.getD s 0) := by
      rw [List.getD_eq_getElem?_getD, List.getElem?_eq_getElem (by rw [h.wlen]; exact hs)]; rfl
    have el : t.w[l]? = some (t.w.getD l 0) := by
      rw [List.getD_eq_getElem?_getD, List.getElem?_eq_getElem (by rw [h.wlen]; exact hl)]; rfl
    generalize hws : t.w.getD s 0 = ws at *
    generalize hwl : t.w.getD l 0 = wl at *
    have hlu : t.alias.getD l none = none := h.undone l (by simp)
    have hsu : t.alias.getD s none = none := h.undone s (by simp)
    -- the new table
    let t' : VoseTable :=
      { w := t.w.set l ((wl + ws) - one), alias := t.alias.set s (some l), prob := t.prob.set s (some ws) }
    have gw : ∀ j, t'.w.getD j 0 = if l = j then (wl + ws) - one else t.w.getD j 0 := fun j =>
      getD_set _ _ _ _ _ (by rw [h.wlen]; exact hl)
    have ga : ∀ j, t'.alias.getD j none = if s = j then some l else t.alias.getD j none := fun j =>
      getD_set _ _ _ _ _ (by rw [h.alen]; exact hs)
    have gp : ∀ j, t'.prob.getD j none = if s = j then some ws else t.prob.getD j none := fun j =>
      getD_set _ _ _ _ _ (by rw [h.plen]; exact hs)
    have key : ∀ small' large', (small' ++ large').Perm (l :: (small ++ large)) →
        (∀ i ∈ small', 0 ≤ t'.w.getD i 0 ∧ t'.w.getD i 0 < one) → (∀ i ∈ large', one ≤ t'.w.getD i 0) →
        VoseInv one v small' large' t' := by
      intro small' large' hp c1 c2
      have hmem : ∀ i, i ∈ small' ++ large' ↔ i = l ∨ i ∈ small ∨ i ∈ large := by
        intro i; rw [hp.mem_iff]; simp
      have hsn : ∀ i, i ∈ small' ++ large' → i ≠ s := by
        intro i hi e; subst e
        rcases (hmem _).1 hi with e | e | e
        · exact hsl e
        · exact hnd.1.1 e
        · exact hnd.1.2.2 e
      refine ⟨h.pos, by simp [t', h.wlen], by simp [t', h.alen], by simp [t', h.plen], ?_, ?_, ?_, ?_, c1, c2, ?_, ?_⟩
      · apply hp.nodup_iff.2
        have := h.nodup
        simp only [List.cons_append, List.nodup_cons] at this
        have h3 : (small ++ l :: large).Perm (l :: (small ++ large)) := List.perm_middle
        exact h3.nodup_iff.1 this.2
      · intro i hi
        rcases (hmem i).1 hi with e | e | e
        · rw [e]; exact hl
        · exact h.lt i (by simp [e])
        · exact h.lt i (by simp [e])
      · intro i hi
        rw [ga, if_neg (Ne.symm (hsn i hi))]
        apply h.undone i
        rcases (hmem i).1 hi with e | e | e <;> simp [e]
      · intro i hi hn
        rw [hmem] at hn
        simp only [not_or] at hn
        rw [gp, ga, gw, if_neg (Ne.symm hn.1)]
        by_cases his : s = i
        · subst his
          rw [if_pos rfl, if_pos rfl, hws]
          exact ⟨rfl, h1.2, h1.1, l, rfl, hl⟩
        · rw [if_neg his, if_neg his]
          apply h.done i hi
          simp only [List.cons_append, List.mem_cons, List.mem_append, not_or]
          exact ⟨fun e => his e.symm, hn.2.1, hn.1, hn.2.2⟩
      · have e1 : wsum t' (small' ++ large') = wsum t' (l :: (small ++ large)) := by
          simp only [wsum]
          have := hp.map fun i => t'.w.getD i 0
          exact perm_sum this
        have e2 : wsum t' (small ++ large) = wsum t (small ++ large) := by
          apply wsum_congr
          intro i hi
          rw [gw, if_neg]
          intro e; subst e
          rcases List.mem_append.1 hi with e | e
          · exact hnd.2.2.2 _ e l (by simp) rfl
          · exact hnd.2.2.1.1 e
        have e3 := h.total
        simp only [wsum_append, wsum_cons, List.length_append, List.length_cons, List.cons_append] at e3
        rw [e1, wsum_cons, e2, wsum_append, gw, if_pos rfl, hp.length_eq]
        simp only [List.length_cons, List.length_append]
        rw [hws, hwl] at e3
        have : one * ((small.length + (large.length + 1) + 1 : Nat) : Int) =
            one * ((small.length + large.length + 1 : Nat) : Int) + one := by
          push_cast; simp only [Int.mul_add]; omega
        omega
      · intro i hi
        have hm := h.mass i hi
        rw [gw]
        have e1 : ((List.range v.length).map (given one t' i)).sum =
            ((List.range v.length).map (given one t i)).sum + (given one t' i s - given one t i s) := by
          apply sum_range_change _ _ _ _ hs
          intro j hj hjs
          simp only [given, gw, ga, if_neg (Ne.symm hjs)]
          by_cases hjl : l = j
          · subst hjl; rw [hlu]; simp
          · rw [if_neg hjl]
        have e2 : given one t i s = 0 := by simp only [given, hsu]; simp
        have e3 : given one t' i s = if l = i then one - ws else 0 := by
          simp only [given, gw, ga, if_pos, if_neg (Ne.symm hsl), hws, Option.some.injEq]
        rw [e1, e2, e3]
        by_cases hli : l = i
        · subst hli; rw [if_pos rfl, if_pos rfl]; rw [hwl] at hm; omega
        · rw [if_neg hli, if_neg hli]; omega
    have hnew : 0 ≤ wl + ws - one := by omega
    have c1 : ∀ i ∈ small, 0 ≤ t'.w.getD i 0 ∧ t'.w.getD i 0 < one := by
      intro i hi
      rw [gw, if_neg (fun e => hnd.2.2.2 i hi l (by simp) e.symm)]
      exact h.small_lt i (by simp [hi])
    have c2 : ∀ i ∈ large, one ≤ t'.w.getD i 0 := by
      intro i hi
      rw [gw, if_neg (fun e : l = i => hnd.2.2.1.1 (e ▸ hi))]
      exact h.large_ge i (by simp [hi])
    rw [voseLoop, ew, Option.bind_some, el, Option.bind_some,
      if_pos ⟨by rw [h.alen]; exact hs, by rw [h.plen]; exact hs⟩]
    simp only
    by_cases hb : wl + ws - one < one
    · rw [if_pos hb]
      apply voseLoop_inv one v (l :: small) large t'
      refine key _ _ (List.Perm.refl _) ?_ c2
      intro i hi
      rcases List.mem_cons.1 hi with rfl | hi
      · rw [gw, if_pos rfl]; exact ⟨hnew, hb⟩
      · exact c1 i hi
    · rw [if_neg hb]
      apply voseLoop_inv one v small (l :: large) t'
      refine key _ _ List.perm_middle c1 ?_
      intro i hi
      rcases List.mem_cons.1 hi with rfl | hi
      · rw [gw, if_pos rfl]; omega
      · exact c2 i hi
  | [], large, t, h => ⟨[], large, t, by simp [voseLoop], h, Or.inl rfl⟩
  | s :: small, [], t, h => ⟨s :: small, [], t, by simp [voseLoop], h, Or.inr rfl⟩
termination_by small large => small.length + large.length

theorem voseRest_getD (one : Int) (t : VoseTable) : ∀ (l : List Nat) (p : List (Option Int)) (i : Nat),
    (∀ j ∈ l, j < p.length) →
    (l.foldl (fun p i => p.set i (some one)) p).getD i none = if i ∈ l then some one else p.getD i none
  | [], p, i, _ => by simp
  | a :: l, p, i, h => by
    rw [List.foldl_cons, voseRest_getD one t l _ i (by intro j hj; simpa using h j (by simp [hj])),
      getD_set _ _ _ _ _ (h a (by simp))]
    by_cases hi : i ∈ l
    · simp [hi]
    · by_cases ha : a = i
      · simp [ha]
      · simp [hi, ha, Ne.symm ha]

theorem foldl_set_length (one : Int) : ∀ (l : List Nat) (p : List (Option Int)),
    (l.foldl (fun p i => p.set i (some one)) p).length = p.length
  | [], p => rfl
  | a :: l, p => by rw [List.foldl_cons, foldl_set_length one l]; simp

theorem wsum_le_of (one : Int) (t : VoseTable) : ∀ (l : List Nat), (∀ i ∈ l, one ≤ t.w.getD i 0) →
    one * l.length ≤ wsum t l ∧ (wsum t l = one * l.length → ∀ i ∈ l, t.w.getD i 0 = one)
  | [], _ => by simp [wsum]
  | a :: l, h => by
    obtain ⟨h1, h2⟩ := wsum_le_of one t l fun i hi => h i (by simp [hi])
    have h3 := h a (by simp)
    rw [wsum_cons]
    have e : one * ((a :: l).length : Int) = one * l.length + one := by
      rw [List.length_cons]; push_cast; rw [Int.mul_add, Int.mul_one]
    rw [e]
    refine ⟨by omega, fun he i hi => ?_⟩
    rcases List.mem_cons.1 hi with rfl | hi
    · omega
    · exact h2 (by omega) i hi

theorem wsum_lt_of (one : Int) (t : VoseTable) : ∀ (l : List Nat), (∀ i ∈ l, t.w.getD i 0 < one) →
    wsum t l ≤ one * l.length - l.length
  | [], _ => by simp [wsum]
  | a :: l, h => by
    have h1 := wsum_lt_of one t l fun i hi => h i (by simp [hi])
    have h3 := h a (by simp)
    rw [wsum_cons]
    have e : one * ((a :: l).length : Int) = one * l.length + one := by
      rw [List.length_cons]; push_cast; rw [Int.mul_add, Int.mul_one]
    rw [e, List.length_cons]
    omega

theorem sum_map_mul (l : List Int) (c : Int) : (l.map (· * c)).sum = l.sum * c := by
  induction l with
  | nil => simp
  | cons a l ih => simp [ih, Int.add_mul]

theorem sum_getD (l : List Int) : ((List.range l.length).map fun i => l.getD i 0).sum = l.sum := by
  congr 1
  apply List.ext_getElem
  · simp
  · intro i h1 h2; simp [List.getD_eq_getElem?_getD, List.getElem?_eq_getElem h2]

theorem filter_split_perm {α} (p : α → Bool) (l : List α) :
    ((l.filter p).reverse ++ (l.filter fun x => !p x).reverse).Perm l := by
  refine (List.Perm.append (List.reverse_perm _) (List.reverse_perm _)).trans ?_
  exact List.filter_append_perm p l

/-- The table of exact arithmetic: positions `i` get `len * w_i` outcomes. -/
theorem vose_spec (weights : List Int) (hw : ∀ w ∈ weights, 0 ≤ w) (hs : 0 < weights.sum) :
    ∃ t, vose weights = some t ∧ t.w.length = weights.length ∧ t.alias.length = weights.length ∧
      t.prob = t.w.map some ∧
      (∀ i < weights.length, 0 ≤ t.w.getD i 0 ∧ t.w.getD i 0 ≤ weights.sum ∧
        (t.w.getD i 0 < weights.sum → ∃ k, t.alias.getD i none = some k ∧ k < weights.length)) ∧
      ∀ i < weights.length, Spec.tableShare weights.sum t.w t.alias i = weights.length * weights.getD i 0 := by
  let one := weights.sum
  let v := weights.map (· * (weights.length : Int))
  have hvl : v.length = weights.length := by simp [v]
  have hvg : ∀ i, v.getD i 0 = weights.getD i 0 * weights.length := by
    intro i
    simp only [v, List.getD_eq_getElem?_getD, List.getElem?_map]
    cases weights[i]? <;> simp
  have hv0 : ∀ i, 0 ≤ v.getD i 0 := by
    intro i
    rw [hvg]
    apply Int.mul_nonneg _ (by omega)
    rw [List.getD_eq_getElem?_getD]
    cases h : weights[i]? with
    | none => simp
    | some x => exact hw x (List.mem_of_getElem? h)
  let t0 : VoseTable := { w := v, alias := List.replicate v.length none, prob := List.replicate v.length none }
  let sm := ((List.range v.length).filter fun i => decide (v.getD i 0 < one)).reverse
  let lg := ((List.range v.length).filter fun i => !decide (v.getD i 0 < one)).reverse
  have hp : (sm ++ lg).Perm (List.range v.length) := filter_split_perm _ _
  have ha0 : ∀ i, t0.alias.getD i none = none := by
    intro i
    simp only [t0, List.getD_eq_getElem?_getD, List.getElem?_replicate]
    split <;> rfl
  have inv0 : VoseInv one v sm lg t0 := by
    refine ⟨hs, rfl, by simp [t0], by simp [t0], hp.nodup_iff.2 List.nodup_range, ?_, fun i _ => ha0 i, ?_, ?_, ?_, ?_, ?_⟩
    · intro i hi; simpa using hp.mem_iff.1 hi
    · intro i hi hn; exact absurd (hp.mem_iff.2 (by simpa using hi)) hn
    · intro i hi
      simp only [sm, List.mem_reverse, List.mem_filter, decide_eq_true_eq] at hi
      exact ⟨hv0 i, hi.2⟩
    · intro i hi
      simp only [lg, List.mem_reverse, List.mem_filter, Bool.not_eq_true', decide_eq_false_iff_not] at hi
      have := hi.2
      simp only [t0]; omega
    · have e1 : wsum t0 (sm ++ lg) = wsum t0 (List.range v.length) := by
        simp only [wsum]
        exact perm_sum (hp.map fun i => t0.w.getD i 0)
      rw [e1, hp.length_eq]
      simp only [wsum, t0]
      rw [sum_getD, List.length_range, hvl]
      simp only [v, one]
      rw [sum_map_mul]
    · intro i hi
      have : ((List.range v.length).map (given one t0 i)).sum = ((List.range v.length).map fun _ => (0 : Int)).sum := by
        apply sum_range_congr
        intro j _
        simp only [given, ha0]; simp
      rw [this]
      have z : ∀ n : Nat, ((List.range n).map fun _ => (0 : Int)).sum = 0 := by
        intro n; induction n with
        | zero => rfl
        | succ n ih => rw [List.range_succ, List.map_append, List.sum_append, ih]; rfl
      rw [z, Int.add_zero]
  obtain ⟨sm', lg', t', hl, inv, hend⟩ := voseLoop_inv one v sm lg t0 inv0
  have hsm : sm' = [] := by
    rcases hend with h | h
    · exact h
    · cases hc : sm' with
      | nil => rfl
      | cons a l =>
        have h1 := inv.total
        rw [h, List.append_nil] at h1
        have h2 := wsum_lt_of one t' sm' fun i hi => (inv.small_lt i hi).2
        rw [h1, hc, List.length_cons] at h2
        omega
  subst hsm
  have hlg : ∀ i ∈ lg', t'.w.getD i 0 = one := by
    have := (wsum_le_of one t' lg' inv.large_ge).2
    apply this
    have h1 := inv.total
    simpa using h1
  refine ⟨voseRest one (voseRest one t' lg') [], ?_, ?_, ?_, ?_, ?_, ?_⟩
  · simp only [vose, if_pos (Or.inl hs)]
    have e : voseLoop weights.sum sm lg t0 = some ([], lg', t') := hl
    show Option.map _ (voseLoop weights.sum sm lg t0) = _
    rw [e]; rfl
  · simpa [voseRest, hvl] using inv.wlen
  · simpa [voseRest, hvl] using inv.alen
  · simp only [voseRest, List.foldl_nil]
    apply List.ext_getElem?
    intro i
    by_cases hi : i < v.length
    · have e1 := voseRest_getD one t' lg' t'.prob i (by
        intro j hj; rw [inv.plen]; exact inv.lt j (by simpa using hj))
      have hlen := foldl_set_length one lg' t'.prob
      rw [List.getD_eq_getElem?_getD] at e1
      have e2 : (lg'.foldl (fun p i => p.set i (some one)) t'.prob)[i]? =
          some (some (t'.w.getD i 0)) := by
        rw [List.getElem?_eq_getElem (by rw [hlen, inv.plen]; exact hi)] at e1 ⊢
        rw [Option.getD_some] at e1
        rw [e1]
        by_cases hm : i ∈ lg'
        · rw [if_pos hm, hlg i hm]
        · rw [if_neg hm, (inv.done i hi (by simpa using hm)).1]
      rw [e2, List.getElem?_map, List.getD_eq_getElem?_getD,
        List.getElem?_eq_getElem (by rw [inv.wlen]; exact hi)]
      rfl
    · rw [List.getElem?_eq_none (by rw [foldl_set_length, inv.plen]; omega),
        List.getElem?_eq_none (by rw [List.length_map, inv.wlen]; omega)]
  · intro i hi
    simp only [voseRest]
    rw [← hvl] at hi ⊢
    by_cases hm : i ∈ lg'
    · rw [hlg i hm]
      exact ⟨Int.le_of_lt hs, Int.le_refl _, fun h => absurd h (Int.lt_irrefl _)⟩
    · obtain ⟨-, h1, h2, h3⟩ := inv.done i hi (by simpa using hm)
      exact ⟨h2, Int.le_of_lt h1, fun _ => h3⟩
  · intro i hi
    have hi' : i < v.length := by rw [hvl]; exact hi
    have hm := inv.mass i hi'
    simp only [voseRest, Spec.tableShare]
    rw [inv.wlen]
    have e1 : ((List.range v.length).map (Spec.slotShare weights.sum t'.w t'.alias i)).sum =
        ((List.range v.length).map (given one t' i)).sum + (t'.w.getD i 0) := by
      have e2 := sum_range_change (given one t' i) (Spec.slotShare weights.sum t'.w t'.alias i) v.length i hi' (by
        intro j hj hji
        simp only [Spec.slotShare, if_neg hji, given, Int.zero_add]
        by_cases hd : j ∈ lg'
        · rw [inv.undone j (by simpa using hd)]; simp
        · have := (inv.done j hj (by simpa using hd)).2.1
          simp only [this, true_and, one])
      rw [e2]
      simp only [Spec.slotShare, given]
      by_cases hd : i ∈ lg'
      · rw [inv.undone i (by simpa using hd)]; simp
      · have := (inv.done i hi' (by simpa using hd)).2.1
        simp only [one] at this ⊢
        simp only [this, true_and, if_true]
        omega
    rw [e1, Int.add_comm, hm, hvg, Int.mul_comm]

theorem vose_nil : vose [] = some ⟨[], [], []⟩ := by
  simp [vose, voseLoop, voseRest]

end DeepGNN
