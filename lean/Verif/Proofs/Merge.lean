import Verif.Proofs.Sampling

namespace DeepGNN

theorem swapAt_perm {l : List Nat} {i j : Nat} (hi : i < l.length) (hj : j < l.length) :
    ∃ l', swapAt l i j = some l' ∧ l'.Perm l := by
  refine ⟨(l.set i l[j]).set j l[i], by simp [swapAt, hi, hj], ?_⟩
  exact List.set_set_perm hi hj

theorem sampleN_perm (R : Draws) (l : List Nat) (s : Nat) :
    ∃ l' s', sampleN R l s = some (l', s') ∧ l'.Perm l := by
  have key : ∀ (is : List Nat) (x : List Nat) (s : Nat), (∀ i ∈ is, i < l.length - 1) → x.Perm l →
      ∃ l' s', is.foldlM (fun (x : List Nat × Nat) i =>
        (swapAt x.1 i (i + 1 + R x.2 % (l.length - 1 - i))).map fun l => (l, x.2 + 1)) (x, s) =
          some (l', s') ∧ l'.Perm l := by
    intro is
    induction is with
    | nil => intro x s _ hx; exact ⟨x, s, rfl, hx⟩
    | cons i is ih =>
      intro x s hi hx
      have hil := hi i (by simp)
      have hxl := hx.length_eq
      have hm : R s % (l.length - 1 - i) < l.length - 1 - i := Nat.mod_lt _ (by omega)
      obtain ⟨x', h1, h2⟩ := swapAt_perm (l := x) (i := i) (j := i + 1 + R s % (l.length - 1 - i))
        (by omega) (by omega)
      obtain ⟨l', s', h3, h4⟩ := ih x' (s + 1) (fun i hi' => hi i (by simp [hi'])) (h2.trans hx)
      refine ⟨l', s', ?_, h4⟩
      simp only [List.foldlM_cons, h1, Option.map_some, Option.bind_eq_bind, Option.bind_some]
      exact h3
  exact key _ l s (by simp) (List.Perm.refl _)

theorem splitCounts_spec (R : Draws) (k lw rw s : Nat) (h : k ≤ lw + rw) :
    ∃ a b s', splitCounts R k lw rw s = (a, b, s') ∧ a + b = k ∧ a ≤ lw ∧ b ≤ rw := by
  induction k generalizing lw rw s with
  | zero => exact ⟨0, 0, s, rfl, rfl, by omega, by omega⟩
  | succ k ih =>
    simp only [splitCounts]
    split
    · rename_i hc
      obtain ⟨a, b, s', h1, h2, h3, h4⟩ := ih (lw - 1) rw (s + 1) (by omega)
      rw [h1]; exact ⟨a + 1, b, s', rfl, by omega, by omega, h4⟩
    · rename_i hc
      have hrw : 0 < rw := by
        rcases Nat.eq_zero_or_pos rw with h0 | h0
        · exact absurd ⟨by omega, Or.inl h0⟩ hc
        · exact h0
      obtain ⟨a, b, s', h1, h2, h3, h4⟩ := ih lw (rw - 1) (s + 1) (by omega)
      rw [h1]; exact ⟨a, b + 1, s', rfl, by omega, h3, by omega⟩

/-- With even draws everything possible is taken from the left. -/
theorem splitCounts_left (k lw rw s : Nat) (h : lw ≤ k) :
    (splitCounts (fun _ => 0) k lw rw s).1 = lw := by
  induction k generalizing lw rw s with
  | zero => simp [splitCounts]; omega
  | succ k ih =>
    simp only [splitCounts]
    split
    · rename_i hc
      rw [ih _ _ _ (by omega)]; omega
    · rename_i hc
      have : lw = 0 := by
        rcases Nat.eq_zero_or_pos lw with h0 | h0
        · exact h0
        · exact absurd ⟨h0, Or.inr (by trivial)⟩ hc
      subst this
      have h0 : ∀ k rw s, (splitCounts (fun _ => 0) k 0 rw s).1 = 0 := by
        intro k
        induction k with
        | zero => intro rw s; rfl
        | succ k ih => intro rw s; simp only [splitCounts, Nat.lt_irrefl, false_and, if_false, ih]
      exact h0 _ _ _

/-- With odd draws everything possible is taken from the right. -/
theorem splitCounts_right (k lw rw s : Nat) (h : k ≤ lw + rw) :
    (splitCounts (fun _ => 1) k lw rw s).2.1 = min k rw := by
  induction k generalizing lw rw s with
  | zero => simp [splitCounts]
  | succ k ih =>
    simp only [splitCounts]
    split
    · rename_i hc
      have : rw = 0 := by
        rcases hc.2 with h0 | h0
        · exact h0
        · simp at h0
      subst this
      rw [ih _ _ _ (by omega)]; simp
    · rename_i hc
      have hrw : 0 < rw := by
        rcases Nat.eq_zero_or_pos rw with h0 | h0
        · exact absurd ⟨by omega, Or.inl h0⟩ hc
        · exact h0
      have := ih lw (rw - 1) (s + 1) (by omega)
      dsimp only
      omega

theorem replaceSlots_spec {α} (all xs out0 : List α) (f d : Nat) : ∀ (i : Nat) (kept new : List Nat)
    (out : List α) (ps : List Nat), i + d = out0.length → kept.Pairwise (· < ·) →
    (∀ j ∈ kept, i ≤ j ∧ j < f) → f ≤ out0.length → new.Nodup → (∀ j ∈ new, j < xs.length) →
    d ≤ kept.length + new.length → ps.length = max f i → (∀ p ∈ ps, p < all.length + xs.length) →
    (∀ j ∈ new, all.length + j ∉ ps) → Picked (all ++ xs) out0 out ps →
    ∃ out' ps', replaceSlots (store xs) (List.range' i d) kept new out = some out' ∧
      ps'.length = out0.length ∧ (∀ p ∈ ps', p < all.length + xs.length) ∧ Picked (all ++ xs) out0 out' ps' ∧
      (∀ j, j < i ∨ j ∈ kept → out'[j]? = out[j]?) ∧
      (kept.length + new.length ≤ d → ∀ j ∈ new, ∃ q : Nat, out'[q]? = xs[j]?) := by
  induction d with
  | zero =>
    intro i kept new out ps hi hk hkb hf hn hnb hd hpl hpb hfr hp
    refine ⟨out, ps, rfl, by omega, hpb, hp, fun _ _ => rfl, ?_⟩
    intro hle j hj
    have := List.length_pos_of_mem hj; omega
  | succ d ih =>
    intro i kept new out ps hi hk hkb hf hn hnb hd hpl hpb hfr hp
    rw [List.range'_succ]; simp only [replaceSlots]
    by_cases hc : kept.head? = some i
    · rw [if_pos hc]
      obtain ⟨t, ht⟩ : ∃ t, kept = i :: t := by
        cases kept with
        | nil => simp at hc
        | cons a t => simp at hc; exact ⟨t, by rw [hc]⟩
      subst ht
      rw [List.pairwise_cons] at hk
      have hif := (hkb i (by simp)).2
      obtain ⟨out', ps', h1, h2, h3, h4, h5, h6⟩ := ih (i + 1) t new out ps (by omega) hk.2
        (fun j hj => ⟨hk.1 j hj, (hkb j (by simp [hj])).2⟩) hf hn hnb (by simp at hd; omega) (by omega) hpb hfr hp
      refine ⟨out', ps', h1, h2, h3, h4, ?_, ?_⟩
      · intro j hj
        rcases hj with hj | hj
        · exact h5 j (Or.inl (by omega))
        · rcases List.mem_cons.1 hj with rfl | hj
          · exact h5 j (Or.inl (by omega))
          · exact h5 j (Or.inr hj)
      · intro hle; simp at hle; exact h6 (by omega)
    · rw [if_neg hc]
      have hgt : ∀ j ∈ kept, i + 1 ≤ j := by
        intro j hj
        have h1 := (hkb j hj).1
        cases kept with
        | nil => simp at hj
        | cons a t =>
          simp only [List.head?_cons, Option.some.injEq] at hc
          have h2 := (hkb a (by simp)).1
          rcases List.mem_cons.1 hj with rfl | hj
          · omega
          · have := (List.pairwise_cons.1 hk).1 j hj; omega
      have hkl : kept.length ≤ d := by
        -- strictly increasing numbers between i+1 and out0.length
        have key : ∀ (l : List Nat) (a b : Nat), l.Pairwise (· < ·) → (∀ j ∈ l, a ≤ j ∧ j < b) → l.length ≤ b - a := by
          intro l
          induction l with
          | nil => intros; simp
          | cons x l ih =>
            intro a b hp hb
            rw [List.pairwise_cons] at hp
            have h1 := hb x (by simp)
            have := ih (x + 1) b hp.2 (fun j hj => ⟨hp.1 j hj, (hb j (by simp [hj])).2⟩)
            simp; omega
        have := key kept (i + 1) out0.length hk (fun j hj => ⟨hgt j hj, by have := (hkb j hj).2; omega⟩)
        omega
      cases new with
      | nil => simp at hd; omega
      | cons r rs =>
        have hr : r < xs.length := hnb r (by simp)
        have hol : out.length = out0.length := hp.len
        simp only
        rw [store_some (by omega) hr, Option.bind_some]
        have hval : (all ++ xs)[all.length + r]? = some xs[r] := by
          rw [List.getElem?_append_right (by omega)]; simp [hr]
        rw [List.nodup_cons] at hn
        have hfr' : all.length + r ∉ ps := hfr r (by simp)
        obtain ⟨ps1, hp1, hl1, hm1⟩ : ∃ ps1, Picked (all ++ xs) out0 (out.set i xs[r]) ps1 ∧
            ps1.length = max f (i + 1) ∧ ∀ p ∈ ps1, p ∈ ps ∨ p = all.length + r := by
          by_cases hlt : i < ps.length
          · refine ⟨_, hp.replace hlt hfr' hval, by simp; omega, ?_⟩
            intro p hpm
            rcases List.mem_or_eq_of_mem_set hpm with h | h
            · exact Or.inl h
            · exact Or.inr h
          · have hie : i = ps.length := by omega
            rw [hie]
            refine ⟨_, hp.push (by omega) hfr' hval, by simp; omega, ?_⟩
            intro p hpm
            simpa using hpm
        obtain ⟨out', ps', h1, h2, h3, h4, h5, h6⟩ := ih (i + 1) kept rs (out.set i xs[r]) ps1 (by omega) hk
          (fun j hj => ⟨hgt j hj, (hkb j hj).2⟩) hf hn.2 (fun j hj => hnb j (by simp [hj]))
          (by simp at hd; omega) hl1 (fun p hpm => by
            rcases hm1 p hpm with h | h
            · exact hpb p h
            · omega) (fun j hj hmem => by
            rcases hm1 _ hmem with h | h
            · exact hfr j (by simp [hj]) h
            · have : j = r := by omega
              subst this; exact hn.1 hj) hp1
        refine ⟨out', ps', h1, h2, h3, h4, ?_, ?_⟩
        · intro j hj
          rw [h5 j (by
            rcases hj with hj | hj
            · exact Or.inl (by omega)
            · exact Or.inr hj)]
          rw [List.getElem?_set_ne]
          rcases hj with hj | hj
          · omega
          · have := hgt j hj; omega
        · intro hle j hj
          simp at hle
          rcases List.mem_cons.1 hj with rfl | hj
          · refine ⟨i, ?_⟩
            rw [h5 i (Or.inl (by omega)), List.getElem?_set_self (by omega)]
            simp [hr]
          · exact h6 (by omega) j hj

/-- State of a merged reservoir: `total` elements exist in the shards seen so far, `all` were offered. -/
structure MergeInv {α} (all : List α) (total : Nat) (out0 out : List α) (seen : Nat) : Prop where
  le : seen ≤ min out0.length total
  few : total < out0.length → seen = total
  picked : ∃ ps, ps.length = min out0.length total ∧ (∀ p ∈ ps, p < all.length) ∧ Picked all out0 out ps

theorem fillAt {α} (all xs out0 : List α) (seen d : Nat) : ∀ (i : Nat) (out : List α) (ps : List Nat),
    i + d = xs.length → seen + xs.length ≤ out0.length → ps.length = max ps.length (seen + i) →
    (∀ p ∈ ps, p < all.length + i) → Picked (all ++ xs) out0 out ps →
    ∃ out' ps', (List.range' i d).foldlM (fun o j => store xs o (seen + j) j) out = some out' ∧
      ps'.length = max ps.length (seen + xs.length) ∧ (∀ p ∈ ps', p < all.length + xs.length) ∧
      Picked (all ++ xs) out0 out' ps' ∧ (∀ j, j < seen + i → out'[j]? = out[j]?) ∧
      ∀ j, i ≤ j → j < xs.length → out'[seen + j]? = xs[j]? := by
  induction d with
  | zero =>
    intro i out ps hi hle hpl hpb hp
    exact ⟨out, ps, rfl, by omega, fun p h => by have := hpb p h; omega, hp, fun _ _ => rfl, by omega⟩
  | succ d ih =>
    intro i out ps hi hle hpl hpb hp
    have hol : out.length = out0.length := hp.len
    have hil : i < xs.length := by omega
    have hval : (all ++ xs)[all.length + i]? = some xs[i] := by
      rw [List.getElem?_append_right (by omega)]; simp [hil]
    have hfr : all.length + i ∉ ps := fun h => by have := hpb _ h; omega
    obtain ⟨ps1, hp1, hl1, hm1⟩ : ∃ ps1, Picked (all ++ xs) out0 (out.set (seen + i) xs[i]) ps1 ∧
        ps1.length = max ps.length (seen + i + 1) ∧ ∀ p ∈ ps1, p ∈ ps ∨ p = all.length + i := by
      by_cases hlt : seen + i < ps.length
      · refine ⟨_, hp.replace hlt hfr hval, by simp; omega, ?_⟩
        intro p hpm
        rcases List.mem_or_eq_of_mem_set hpm with h | h
        · exact Or.inl h
        · exact Or.inr h
      · have hie : seen + i = ps.length := by omega
        rw [hie]
        refine ⟨_, hp.push (by omega) hfr hval, by simp, ?_⟩
        intro p hpm
        simpa using hpm
    obtain ⟨out', ps', h1, h2, h3, h4, h5, h6⟩ := ih (i + 1) (out.set (seen + i) xs[i]) ps1 (by omega) hle
      (by omega) (fun p hpm => by
        rcases hm1 p hpm with h | h
        · have := hpb p h; omega
        · omega) hp1
    refine ⟨out', ps', ?_, by omega, h3, h4, ?_, ?_⟩
    · rw [List.range'_succ, List.foldlM_cons, store_some (by omega) hil]; exact h1
    · intro j hj
      rw [h5 j (by omega), List.getElem?_set_ne (by omega)]
    · intro j hj hjl
      rcases Nat.eq_or_lt_of_le hj with he | hlt
      · subst he
        rw [h5 (seen + i) (by omega), List.getElem?_set_self (by omega)]; simp [hil]
      · exact h6 j hlt hjl

theorem strict_of_perm_range {l : List Nat} (h : l.Nodup) :
    (l.mergeSort (· ≤ ·)).Pairwise (· < ·) := by
  have h1 : (l.mergeSort (· ≤ ·)).Pairwise fun a b => decide (a ≤ b) = true :=
    List.pairwise_mergeSort (fun a b c => by simp; omega) (fun a b => by simp; omega) l
  have h2 : (l.mergeSort (· ≤ ·)).Nodup := (List.mergeSort_perm l _).nodup_iff.2 h
  exact (h1.and h2).imp fun h => by
    have := h.1; have := h.2; simp at *; omega

theorem mergeAdd_inv {α} (R : Draws) {all out0 out : List α} {total seen : Nat}
    (h : MergeInv all total out0 out seen) (n : Nat) (xs : List α) (hxs : xs.length = min n out0.length) (s : Nat) :
    ∃ out' seen' s', mergeAdd R (store xs) out0.length n (out, seen, s) = some (out', seen', s') ∧
      MergeInv (all ++ xs) (total + n) out0 out' seen' ∧
      (seen + n ≤ out0.length → seen' = seen + n ∧ (∀ j, j < seen → out'[j]? = out[j]?) ∧
        ∀ j, j < n → out'[seen + j]? = xs[j]?) ∧
      (out0.length < seen + n → R = (fun _ => 0) → ∀ j, j < seen → out'[j]? = out[j]?) ∧
      (out0.length < seen + n → R = (fun _ => 1) → ∀ j, j < xs.length → ∃ q : Nat, out'[q]? = xs[j]?) := by
  obtain ⟨ps, hpl, hpb, hp⟩ := h.picked
  have hle := h.le
  have hfew := h.few
  by_cases hc : seen + n ≤ out0.length
  · have hxn : xs.length = n := by omega
    obtain ⟨out', ps', h1, h2, h3, h4, h5, h6⟩ := fillAt all xs out0 seen xs.length 0 out ps (by omega) (by omega)
      (by omega) (by simpa using hpb) hp.mono
    refine ⟨out', seen + n, s, ?_, ⟨by omega, by omega, ps', by omega, by simpa using h3, h4⟩, ?_, by omega, by omega⟩
    · simp only [mergeAdd]
      rw [if_pos hc, List.range_eq_range', ← hxn, h1]; rfl
    · intro _
      exact ⟨rfl, fun j hj => h5 j (by omega), fun j hj => h6 j (by omega) (by omega)⟩
  · obtain ⟨a, b, s1, hs1, hab, ha, hb⟩ := splitCounts_spec R out0.length seen n s (by omega)
    obtain ⟨left, s2, hs2, hleft⟩ : ∃ left s2, (if a > 0 then sampleN R (List.range seen) s1 else
        some (List.range seen, s1)) = some (left, s2) ∧ left.Perm (List.range seen) := by
      split
      · exact sampleN_perm R _ s1
      · exact ⟨_, _, rfl, List.Perm.refl _⟩
    obtain ⟨right, s3, hs3, hright⟩ : ∃ right s3, (if b > 0 then sampleN R (List.range (min n out0.length)) s2 else
        some (List.range (min n out0.length), s2)) = some (right, s3) ∧
        right.Perm (List.range (min n out0.length)) := by
      split
      · exact sampleN_perm R _ s2
      · exact ⟨_, _, rfl, List.Perm.refl _⟩
    have hll : left.length = seen := by simpa using hleft.length_eq
    have hrl : right.length = min n out0.length := by simpa using hright.length_eq
    have hkl : ((left.take a).mergeSort (· ≤ ·)).length = a := by simp; omega
    have hlnd : left.Nodup := hleft.nodup_iff.2 List.nodup_range
    obtain ⟨out', ps', h1, h2, h3, h4, h5, h6⟩ := replaceSlots_spec all xs out0 (min out0.length total) out0.length 0
      ((left.take a).mergeSort (· ≤ ·)) right out ps (by omega)
      (strict_of_perm_range (hlnd.sublist (List.take_sublist _ _)))
      (by
        intro j hj
        rw [List.mem_mergeSort] at hj
        have := hleft.mem_iff.1 (List.mem_of_mem_take hj)
        simp at this; omega)
      (by omega) (hright.nodup_iff.2 List.nodup_range)
      (by intro j hj; have := hright.mem_iff.1 hj; simp at this; omega)
      (by rw [hkl, hrl]; omega) (by omega) (fun p hpm => by have := hpb p hpm; omega)
      (fun j hj hmem => by have := hpb _ hmem; omega) hp.mono
    refine ⟨out', seen, s3, ?_, ⟨by omega, by omega, ps', by omega, by simpa using h3, h4⟩, by omega, ?_, ?_⟩
    · simp only [mergeAdd, hc, if_false, hs1, hs2, Option.bind_some, hs3, List.range_eq_range' (n := out0.length), h1]
      rfl
    · intro _ hR j hj
      apply h5 j
      right
      have ha' : a = seen := by
        have := splitCounts_left out0.length seen n s (by omega)
        rw [← hR, hs1] at this; exact this
      rw [List.mem_mergeSort, ha', ← hll, List.take_length]
      exact hleft.mem_iff.2 (by simpa using hj)
    · intro _ hR j hj
      apply h6 ?_ j (hright.mem_iff.2 (by simp; omega))
      have hb' : b = min out0.length n := by
        have := splitCounts_right out0.length seen n s (by omega)
        rw [← hR, hs1] at this; exact this
      rw [hkl, hrl]; omega

/-- Merging the samples of several shards: pairs of the number of elements of a shard and its sample. -/
def mergeRun {α} (R : Draws) (k : Nat) (shards : List (Nat × List α)) (st : List α × Nat × Nat) :
    Option (List α × Nat × Nat) :=
  shards.foldlM (fun st x => mergeAdd R (store x.2) k x.1 st) st

theorem mergeRun_inv {α} (R : Draws) {all out0 out : List α} {total seen : Nat}
    (h : MergeInv all total out0 out seen) (shards : List (Nat × List α))
    (hs : ∀ x ∈ shards, x.2.length = min x.1 out0.length) (s : Nat) :
    ∃ out' seen' s', mergeRun R out0.length shards (out, seen, s) = some (out', seen', s') ∧
      MergeInv (all ++ shards.flatMap (·.2)) (total + (shards.map (·.1)).sum) out0 out' seen' := by
  induction shards generalizing all out total seen s with
  | nil => exact ⟨out, seen, s, rfl, by simpa using h⟩
  | cons x shards ih =>
    obtain ⟨out1, seen1, s1, h1, h2, -⟩ := mergeAdd_inv R h x.1 x.2 (hs x (by simp)) s
    obtain ⟨out2, seen2, s2, h3, h4⟩ := ih h2 (fun x hx => hs x (by simp [hx])) s1
    refine ⟨out2, seen2, s2, ?_, by simpa [Nat.add_assoc] using h4⟩
    simp only [mergeRun, List.foldlM_cons, h1, Option.bind_eq_bind, Option.bind_some] at h3 ⊢
    exact h3

/-- Shards that fit are concatenated. -/
theorem mergeRun_fit {α} (R : Draws) (out0 : List α) (shards : List (Nat × List α)) :
    ∀ (all out : List α) (s : Nat), MergeInv all all.length out0 out all.length →
    (∀ j, j < all.length → out[j]? = all[j]?) →
    (∀ x ∈ shards, x.2.length = min x.1 out0.length) → all.length + (shards.map (·.1)).sum ≤ out0.length →
    ∃ out', mergeRun R out0.length shards (out, all.length, s) =
        some (out', (all ++ shards.flatMap (·.2)).length, s) ∧
      MergeInv (all ++ shards.flatMap (·.2)) (all ++ shards.flatMap (·.2)).length out0 out'
        (all ++ shards.flatMap (·.2)).length ∧
      ∀ j, j < (all ++ shards.flatMap (·.2)).length → out'[j]? = (all ++ shards.flatMap (·.2))[j]? := by
  induction shards with
  | nil => intro all out s h hv _ _; exact ⟨out, by simp [mergeRun], by simpa using h, by simpa using hv⟩
  | cons x shards ih =>
    intro all out s h hv hs hfit
    simp only [List.map_cons, List.sum_cons] at hfit
    have hx := hs x (by simp)
    have hxl : x.2.length = x.1 := by omega
    obtain ⟨out1, seen1, s1, h1, h2, h3, -⟩ := mergeAdd_inv R h x.1 x.2 hx s
    obtain ⟨h4, h5, h6⟩ := h3 (by omega)
    have hseen : seen1 = (all ++ x.2).length := by simp; omega
    have htot : all.length + x.1 = (all ++ x.2).length := by simp; omega
    have hs1 : s1 = s := by
      simp only [mergeAdd, show all.length + x.1 ≤ out0.length by omega, if_true] at h1
      obtain ⟨o, -, ho⟩ := Option.map_eq_some_iff.1 h1
      simp at ho; exact ho.2.2.symm
    rw [hseen, htot] at h2
    obtain ⟨out2, h7, h8, h9⟩ := ih (all ++ x.2) out1 s1 h2 (by
      intro j hj
      by_cases hja : j < all.length
      · rw [h5 j hja, hv j hja, List.getElem?_append_left hja]
      · have := h6 (j - all.length) (by simp at hj; omega)
        rw [show all.length + (j - all.length) = j by omega] at this
        rw [this, List.getElem?_append_right (by omega)]) (fun x hx => hs x (by simp [hx])) (by simp; omega)
    rw [List.append_assoc] at h7 h8 h9
    refine ⟨out2, ?_, h8, h9⟩
    simp only [mergeRun, List.foldlM_cons, h1, Option.bind_eq_bind, Option.bind_some, hseen, hs1] at h7 ⊢
    exact h7

end DeepGNN
