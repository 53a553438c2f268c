import Verif.Proofs.HetEval

/-! C89: the evaluation of the HetGNN example. -/

namespace DeepGNN
open HetEval Spec

/-- Link prediction: the training file has every pair of coauthors of training papers once, the test file every pair of
coauthors of test papers once that are not coauthors in training but have both been seen there; every file has as many negatives
as positives; a negative of training is no pair of coauthors in training, a negative of the test is none in either.
Missing for the full property: negatives of training that are positives of the test, see `C89_negative_refuted`, and pairs of
an author with themself, see `C89_self_refuted`. -/
theorem C89_links_partial {n : Nat} {train test : List (List Int)} {draws : List Int} {tr te : List (Int × Int × Int)}
    (h : linkFiles n train test draws = some (tr, te)) :
    (∀ a b, (a, b, 1) ∈ tr ↔ (0 ≤ a ∧ a < n) ∧ Coauthors train a b) ∧
    (∀ a b, (a, b, 1) ∈ te ↔ (0 ≤ a ∧ a < n) ∧ NewCoauthors train test a b) ∧
    (∀ x ∈ tr, x.2.2 = 1 ∨ (x.2.2 = 0 ∧ ¬ Coauthors train x.1 x.2.1)) ∧
    (∀ x ∈ te, x.2.2 = 1 ∨ (x.2.2 = 0 ∧ ¬ Coauthors train x.1 x.2.1 ∧ ¬ NewCoauthors train test x.1 x.2.1)) ∧
    (tr.filter fun x => x.2.2 = 1).Nodup ∧ (te.filter fun x => x.2.2 = 1).Nodup ∧
    (tr.filter fun x => x.2.2 = 0).length = (tr.filter fun x => x.2.2 = 1).length ∧
    (te.filter fun x => x.2.2 = 0).length = (te.filter fun x => x.2.2 = 1).length := by
  unfold linkFiles at h
  simp only [Option.bind_eq_some_iff, Option.map_eq_some_iff, Prod.mk.injEq] at h
  obtain ⟨r, hr, q, hq, rfl, rfl⟩ := h
  have h1 := fileOf_ok hr
  have h2 := fileOf_ok hq
  refine ⟨?_, ?_, ?_, ?_, positives_nodup hr, positives_nodup hq, h1.2.2, h2.2.2⟩
  · intro a b
    rw [mem_positives hr, mem_train]
  · intro a b
    rw [mem_positives hq, mem_test]
  · intro x hx
    rcases h1.2.1 x hx with h | ⟨h, hb⟩
    · exact Or.inl h
    · refine Or.inr ⟨h, fun hc => ?_⟩
      simp only [decide_eq_false_iff_not] at hb
      exact hb ((mem_train train x.1 x.2.1).mpr hc)
  · intro x hx
    rcases h2.2.1 x hx with h | ⟨h, hb⟩
    · exact Or.inl h
    · simp only [decide_eq_false_iff_not] at hb
      exact Or.inr ⟨h, fun hc => hb (Or.inr (Or.inl ((mem_train train x.1 x.2.1).mpr hc))),
        fun hc => hb (Or.inl ((mem_test train test x.1 x.2.1).mpr hc))⟩

/-- No pair the model is trained to predict is in the test, in either order. -/
theorem C89_no_leak {n : Nat} {train test : List (List Int)} {draws : List Int} {tr te : List (Int × Int × Int)}
    (h : linkFiles n train test draws = some (tr, te)) (a b : Int) (hp : (a, b, 1) ∈ tr) :
    (a, b, 1) ∉ te ∧ (b, a, 1) ∉ te := by
  have h1 := C89_links_partial h
  have hc := ((h1.1 a b).mp hp).2
  refine ⟨fun he => ?_, fun he => ?_⟩
  · exact ((h1.2.1 a b).mp he).2.2.1 hc
  · exact ((h1.2.1 b a).mp he).2.2.1 (coauthors_symm hc)

/-- A negative can always be found if no paper lists an author twice: the author is accepted. -/
theorem C89_negative_exists {train : List (List Int)} (h : ∀ p ∈ train, p.Nodup) (a : Int) (before after : List Int) :
    ∃ r, negative (fun d => decide (d ∈ trainLists train a)) (before ++ a :: after) = some r := by
  have ha : a ∉ trainLists train a := by
    rw [mem_train]
    rintro ⟨p, hp, j, k, hjk, h1, h2⟩
    have hj := (List.getElem?_eq_some_iff.mp h1).1
    exact hjk ((List.getElem?_inj hj (h p hp)).mp (h1.trans h2.symm))
  induction before with
  | nil => exact ⟨(a, after), by simp [negative, ha]⟩
  | cons d ds ih =>
    obtain ⟨r, hr⟩ := ih
    by_cases e : d ∈ trainLists train a
    · exact ⟨r, by simp only [List.cons_append, negative, e, decide_true, if_true]; exact hr⟩
    · exact ⟨(d, ds ++ a :: after), by simp [negative, e]⟩

/-- The features of a pair are the products of the embeddings in all dimensions but the last.
Missing for the full property: the last dimension, see `C89_dimension_refuted`. -/
theorem C89_features_partial (embed : Int → List Rat) (x : Int × Int × Int) (d : Nat) (hd : 0 < d) (h1 : (embed x.1).length = d)
    (h2 : (embed x.2.1).length = d) :
    columnsFrom 3 (featureLine embed x) = List.zipWith (· * ·) ((embed x.1).take (d - 1)) ((embed x.2.1).take (d - 1)) := by
  unfold columnsFrom featureLine
  have hne : List.zipWith (· * ·) (embed x.1) (embed x.2.1) ≠ [] := by
    intro h0
    have : (List.zipWith (· * ·) (embed x.1) (embed x.2.1)).length = 0 := by rw [h0]; rfl
    rw [List.length_zipWith] at this
    omega
  rw [List.dropLast_append_of_ne_nil hne]
  show (List.zipWith (· * ·) (embed x.1) (embed x.2.1)).dropLast = _
  rw [List.dropLast_eq_take, List.length_zipWith, h1, h2, Nat.min_self,
    List.take_zipWith]

/-- F1 is the usual one if a pair is predicted correctly.
Missing for the full property: no such pair, see `C89_f1_refuted`. -/
theorem C89_f1_partial {xs : List (Int × Int)} (h : 0 < xs.count (1, 1)) :
    f1 xs = some ((2 * xs.count (1, 1) : Nat) / ((2 * xs.count (1, 1) + xs.count (1, 0) + xs.count (0, 1) : Nat) : Rat)) :=
  f1_eq h

/-- `v` is the most frequent of the venues, the first one of those. -/
def Spec.MostFrequent (V : Nat) (venues : List Nat) (v : Nat) : Prop :=
  v < V ∧ (∀ w < V, venues.count w ≤ venues.count v) ∧ ∀ w < v, venues.count w < venues.count v

theorem HetEval.mostFrequent_unique {V : Nat} {venues : List Nat} {v w : Nat} (hv : Spec.MostFrequent V venues v)
    (hw : Spec.MostFrequent V venues w) : v = w := by
  rcases Nat.lt_trichotomy v w with h | h | h
  · have h1 := hw.2.2 v h
    have h2 := hv.2.1 w hw.1
    omega
  · exact h
  · have h1 := hv.2.2 w h
    have h2 := hw.2.1 v hv.1
    omega

theorem HetEval.maxIndex_venues {V : Nat} (hV : 0 < V) (venues : List Nat) :
    Spec.MostFrequent V venues (maxIndex (venueCounts V venues)) := by
  obtain ⟨m, h1, h2, h3⟩ := maxIndex_ok (l := venueCounts V venues) (by
    intro h0
    have : (venueCounts V venues).length = 0 := by rw [h0]; rfl
    simp [venueCounts] at this
    omega)
  have hlt : maxIndex (venueCounts V venues) < V := by
    have := (List.getElem?_eq_some_iff.mp h1).1
    simpa [venueCounts] using this
  have hget : ∀ w < V, (venueCounts V venues)[w]? = some (venues.count w) := by
    intro w hw
    simp [venueCounts, hw]
  have hm : m = venues.count (maxIndex (venueCounts V venues)) := by
    have := hget _ hlt
    rw [h1] at this
    simpa using this
  refine ⟨hlt, ?_, ?_⟩
  · intro w hw
    rw [← hm]
    exact h2 _ (List.mem_of_getElem? (hget w hw))
  · intro w hw
    rw [← hm]
    exact h3 w _ hw (hget w (by omega))

/-- Classification: every author with papers whose most frequent venue belongs to a class is once in either the training or the
test file, with this class, and nobody else.
Missing for the full property: papers without a venue, see `C89_venue_refuted`. -/
theorem C89_classes_partial (coin : Nat → Bool) (A V : Nat) (hV : 0 < V) (venues : List (Nat × Nat)) (papers : Nat → List Nat) :
    ((classSplit coin (classLists A V venues papers)).1 ++ (classSplit coin (classLists A V venues papers)).2).Nodup ∧
    ∀ i c, (i, c) ∈ (classSplit coin (classLists A V venues papers)).1 ++ (classSplit coin (classLists A V venues papers)).2 ↔
      i < A ∧ papers i ≠ [] ∧ ∃ v, Spec.MostFrequent V ((papers i).map (venueOf venues)) v ∧ classOf v = some c := by
  have hp := classSplit_perm coin (classLists A V venues papers)
  refine ⟨hp.nodup_iff.mpr (allClasses_nodup A V venues papers), ?_⟩
  intro i c
  rw [hp.mem_iff, allClasses_eq]
  simp only [List.mem_flatMap, List.mem_map, List.mem_filter, List.mem_range, decide_eq_true_eq, Prod.mk.injEq]
  have hmf := HetEval.maxIndex_venues hV ((papers i).map (venueOf venues))
  constructor
  · rintro ⟨c', _, i', ⟨hi, hc⟩, rfl, rfl⟩
    unfold authorClass at hc
    by_cases e : papers i' = []
    · rw [if_pos e] at hc; simp at hc
    · rw [if_neg e] at hc
      exact ⟨hi, e, _, hmf, hc⟩
  · rintro ⟨hi, e, v, hv, hc⟩
    have := HetEval.mostFrequent_unique hv hmf
    subst this
    exact ⟨c, classOf_lt hc, i, ⟨hi, by unfold authorClass; rw [if_neg e]; exact hc⟩, rfl, rfl⟩

/-! Examples -/

/-- Authors 0, 1 and 2, 3 have written papers before, the test paper is by 0, 2 and 1: pairs (0, 2) and (2, 1) are new. -/
example : linkFiles 4 [[0, 1], [2, 3]] [[0, 2, 1]] [1, 3, 2, 2, 3, 0, 1, 0, 3, 1, 2, 3, 3, 2, 3, 2, 2] = some
    ([(0, 1, 1), (0, 3, 0), (1, 0, 1), (1, 2, 0), (2, 3, 1), (2, 2, 0), (3, 2, 1), (3, 3, 0)],
     [(0, 2, 1), (0, 0, 0), (1, 2, 1), (1, 1, 0), (2, 0, 1), (2, 2, 0), (2, 1, 1), (2, 2, 0)]) := by decide +kernel

/-- Two dimensions, of which one is used. -/
example : columnsFrom 3 (featureLine (fun a => [(a : Rat), a + 1]) (2, 5, 1)) = [10] := by decide +kernel

example : f1 [(1, 1), (1, 0), (0, 1), (0, 0), (1, 1)] = some (4 / 6) := by decide +kernel

/-- Author 0 with papers at venues 17, 17 and 9 is in class 0, author 1 in class 2, author 2 has no paper. -/
example : classSplit (fun k => k = 0) (classLists 3 18 [(0, 17), (1, 17), (2, 9)] fun i => [[0, 1, 2], [2], []].getD i []) =
    ([(0, 0)], [(1, 2)]) := by decide +kernel

/-! Refuted -/

/-- A pair that is a positive of the test can be a negative of training. -/
theorem C89_negative_refuted : ∃ tr te, linkFiles 4 [[0, 1], [2, 3]] [[0, 2]] [2, 1, 2, 2, 3, 0, 1, 3, 2, 0, 0, 2, 2] = some (tr, te) ∧
    (0, 2, 0) ∈ tr ∧ (0, 2, 1) ∈ te :=
  ⟨[(0, 1, 1), (0, 2, 0), (1, 0, 1), (1, 1, 0), (2, 3, 1), (2, 2, 0), (3, 2, 1), (3, 3, 0)],
    [(0, 2, 1), (0, 0, 0), (2, 0, 1), (2, 1, 0)], by decide +kernel⟩

/-- An author can be their own negative; and if all papers together are by all authors nothing else is left. -/
theorem C89_self_refuted : ∀ draws r, negative (fun d => decide (d ∈ trainLists [[0, 1, 2]] 1)) draws = some r → (∀ d ∈ draws, 0 ≤ d ∧ d < 3) →
    r.1 = 1 := by
  intro draws
  have hb : ∀ d, 0 ≤ d ∧ d < 3 → d ≠ 1 → d ∈ trainLists [[0, 1, 2]] 1 := by
    intro d hd h1
    rcases (by omega : d = 0 ∨ d = 2) with rfl | rfl <;> decide +kernel
  induction draws with
  | nil => intro r h; simp [negative] at h
  | cons d ds ih =>
    intro r h hd
    unfold negative at h
    by_cases e : d = 1
    · subst e
      rw [if_neg (by decide +kernel)] at h
      simp at h
      rw [← h]
    · rw [if_pos (by simpa using hb d (hd d (by simp)) e)] at h
      exact ih r h (fun x hx => hd x (by simp [hx]))

/-- The last dimension of the embeddings is not used: pairs that differ there look the same. -/
theorem C89_dimension_refuted : columnsFrom 3 (featureLine (fun a => [1, (a : Rat)]) (2, 5, 1)) =
    columnsFrom 3 (featureLine (fun a => [1, (a : Rat)]) (3, 7, 1)) := by decide +kernel

/-- Without a correctly predicted pair there is no F1 but an exception. -/
theorem C89_f1_refuted : f1 [(0, 1), (0, 0), (1, 0)] = none ∧ f1 [(0, 1), (0, 0)] = none := by decide +kernel

/-- A paper without a venue counts for venue 0: an author with one known venue, of class 0, is not classified. -/
theorem C89_venue_refuted : classLists 1 18 [(0, 17)] (fun _ => [0, 1, 2]) = [[], [], [], []] ∧
    classLists 1 18 [(0, 17)] (fun _ => [0]) = [[0], [], [], []] := by decide +kernel

end DeepGNN
