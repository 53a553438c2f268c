import Verif.Proofs.RandomWalk

/-
Transition probabilities of random walks.
-/

namespace DeepGNN.RandomWalk

open Spec (Edge)

variable {C : WeightCodec} {wm : Option Nat} {m : Meta} {parts : List (List (List Rec))} {g : Graph}

theorem pick_cut {x : Rat} {n : Int} : ∀ {l : List (Int × Rat)} {acc : Rat}, acc < x → pick x acc l = some n →
    ∃ l1 l2 w, l = l1 ++ (n, w) :: l2 ∧ acc + (l1.map (·.2)).sum < x ∧ x ≤ acc + (l1.map (·.2)).sum + w
  | [], acc, _, h => by rw [pick] at h; cases h
  | (k, w) :: l, acc, hx, h => by
    rw [pick] at h
    split at h
    · rename_i hlt
      obtain ⟨l1, l2, w', h1, h2, h3⟩ := pick_cut hlt h
      refine ⟨(k, w) :: l1, l2, w', by rw [h1]; rfl, ?_, ?_⟩
      · rw [List.map_cons, List.sum_cons, ← Rat.add_assoc]; exact h2
      · rw [List.map_cons, List.sum_cons, ← Rat.add_assoc]; exact h3
    · rename_i hge
      cases h
      refine ⟨[], l, w, rfl, ?_, ?_⟩
      · simpa [Rat.add_zero] using hx
      · simpa [Rat.add_zero] using Rat.not_lt.1 hge

theorem total_eq (l : List (Int × Rat)) : total l = (l.map (·.2)).sum := rfl

theorem total_pos {l : List (Int × Rat)} (hne : l ≠ []) (h : ∀ x ∈ l, 0 < x.2) : 0 < (l.map (·.2)).sum := by
  induction l with
  | nil => exact absurd rfl hne
  | cons a l ih =>
    rw [List.map_cons, List.sum_cons]
    have h1 := h a List.mem_cons_self
    by_cases hl : l = []
    · subst hl; simpa [Rat.add_zero] using h1
    · have h2 := ih hl fun x hx => h x (List.mem_cons_of_mem _ hx)
      grind

/-- The weight of the explored edges to `c`. -/
theorem explored_sum {q : Rat} (past c : Int) (near : Int → Bool) : ∀ nbs : List Nbr,
    (((nbs.filterMap fun n => if n.dst = past then none else if near n.dst then some (n.dst, (n.weight : Rat))
      else some (n.dst, (n.weight : Rat) / q)).filter fun x => x.1 = c).map (·.2)).sum =
    if c = past then 0 else if near c then ((((nbs.filter fun x => x.dst = c).map (·.weight)).sum : Int) : Rat)
      else ((((nbs.filter fun x => x.dst = c).map (·.weight)).sum : Int) : Rat) / q
  | [] => by simp [Rat.div_def, Rat.zero_mul]
  | n :: nbs => by
    have ih := explored_sum (q := q) past c near nbs
    rw [List.filterMap_cons]
    by_cases h1 : n.dst = past
    · rw [if_pos h1]
      simp only
      rw [ih]
      by_cases h2 : c = past
      · rw [if_pos h2, if_pos h2]
      · rw [if_neg h2, if_neg h2, List.filter_cons_of_neg (by simp only [decide_eq_true_eq]; omega)]
    · rw [if_neg h1]
      by_cases h2 : n.dst = c
      · have h3 : c ≠ past := h2 ▸ h1
        rw [if_neg h3] at ih ⊢
        rw [List.filter_cons_of_pos (l := nbs) (by simpa using h2), List.map_cons, List.sum_cons, h2]
        by_cases h4 : near c = true
        · rw [if_pos h4] at ih ⊢
          rw [if_pos h4]
          simp only
          rw [List.filter_cons_of_pos (by simp), List.map_cons, List.sum_cons, ih, Rat.intCast_add]
        · rw [if_neg h4] at ih ⊢
          rw [if_neg h4]
          simp only
          rw [List.filter_cons_of_pos (by simp), List.map_cons, List.sum_cons, ih, Rat.intCast_add]
          grind
      · rw [List.filter_cons_of_neg (l := nbs) (by simpa using h2)]
        by_cases h4 : near n.dst = true
        · rw [if_pos h4]
          simp only
          rw [List.filter_cons_of_neg (by simpa using h2), ih]
        · rw [if_neg h4]
          simp only
          rw [List.filter_cons_of_neg (by simpa using h2), ih]

theorem lookup_sum {b : Int} : ∀ {l : List Nbr}, (l.map (·.dst)).Nodup → ∀ {x : Int}, (l.map fun n => (n.dst, n.weight)).lookup b = some x →
    ((l.filter fun n => n.dst = b).map (·.weight)).sum = x
  | [], _, x, h => by simp at h
  | n :: l, hd, x, h => by
    rw [List.map_cons, List.nodup_cons] at hd
    rw [List.map_cons, List.lookup_cons] at h
    by_cases he : b = n.dst
    · rw [show (b == n.dst) = true by simpa using he] at h
      simp only [Option.some.injEq] at h
      rw [List.filter_cons_of_pos (by simpa using he.symm), List.map_cons, List.sum_cons, h]
      have : l.filter (fun n => decide (n.dst = b)) = [] := by
        rw [List.filter_eq_nil_iff]
        intro y hy hyb
        exact hd.1 (by rw [← he, ← of_decide_eq_true hyb]; exact List.mem_map_of_mem hy)
      rw [this]; simp
    · rw [show (b == n.dst) = false by simpa using he] at h
      simp only at h
      rw [List.filter_cons_of_neg (by simpa using fun h => he h.symm)]
      exact lookup_sum hd.2 h

theorem lookup_isSome {b : Int} : ∀ {l : List Nbr}, ((l.map fun n => (n.dst, n.weight)).lookup b).isSome = true ↔ b ∈ l.map (·.dst)
  | [] => by simp
  | n :: l => by
    rw [List.map_cons, List.lookup_cons, List.map_cons, List.mem_cons]
    by_cases he : b = n.dst
    · rw [show (b == n.dst) = true by simpa using he]; simp [he]
    · rw [show (b == n.dst) = false by simpa using he]; simp only [he, false_or]; exact lookup_isSome

/-- One step as a choice by the random number. -/
theorem step_share {p q : Rat} {default : Int} {w : Walker} {nbs : List Nbr} {weight : Int → Rat} {scale : Rat} (hs : 0 < scale)
    (hne : transitions p q w nbs ≠ []) (hpos : ∀ x ∈ transitions p q w nbs, 0 < x.2)
    (hsum : ∀ c, (((transitions p q w nbs).filter fun x => x.1 = c).map (·.2)).sum = scale * weight c) :
    ∃ choice : Rat → Int, Spec.Proportional choice weight ∧ ∀ u, u ≤ 1 → ∃ w', step p q u default w nbs = some w' ∧
      w'.row = w.row ++ [choice u] := by
  have ht := total_pos hne hpos
  have hp : ∀ u, u ≤ 1 → ∃ n, pick (total (transitions p q w nbs) * u) 0 (transitions p q w nbs) = some n := by
    intro u hu
    refine pick_some hne ?_
    rw [Rat.zero_add]
    have := Rat.mul_le_mul_of_nonneg_left hu (Rat.le_of_lt ht)
    rwa [Rat.mul_one] at this
  refine ⟨fun u => (pick (total (transitions p q w nbs) * u) 0 (transitions p q w nbs)).getD 0,
    ⟨transitions p q w nbs, scale, hs, hpos, hsum, ?_⟩, ?_⟩
  · intro u h0 h1
    obtain ⟨n, hn⟩ := hp u h1
    have hx : 0 < total (transitions p q w nbs) * u := Rat.mul_pos ht h0
    obtain ⟨l1, l2, v, h2, h3, h4⟩ := pick_cut hx hn
    rw [Rat.zero_add] at h3 h4
    refine ⟨l1, l2, n, v, h2, by simp only [hn, Option.getD_some], ?_, ?_⟩
    · rw [Rat.mul_comm]; exact h3
    · rw [Rat.mul_comm]; exact h4
  · intro u hu
    obtain ⟨n, hn⟩ := hp u hu
    rw [step]
    simp only
    rw [if_neg hne, hn]
    exact ⟨_, rfl, by simp only [hn, Option.getD_some]⟩

theorem stepAll_get {p q : Rat} {u : Nat → Rat} {default : Int} (N : Int → List Nbr) : ∀ {i : Nat} {ws ws' : List Walker},
    stepAll p q default u i ws (ws.flatMap fun w => N w.curr) (ws.map fun w => (N w.curr).length) = some ws' →
    ∀ {j : Nat} {w : Walker}, ws[j]? = some w → ∃ w', ws'[j]? = some w' ∧ step p q (u (i + j)) default w (N w.curr) = some w'
  | i, [], ws', _, j, w, hj => by simp at hj
  | i, v :: ws, ws', h, j, w, hj => by
    rw [List.flatMap_cons, List.map_cons, stepAll, List.take_left, List.drop_left, Option.bind_eq_some_iff] at h
    obtain ⟨v', h1, h2⟩ := h
    rw [Option.map_eq_some_iff] at h2
    obtain ⟨ws'', h3, rfl⟩ := h2
    cases j with
    | zero =>
      cases hj
      exact ⟨v', rfl, by rw [Nat.add_zero]; exact h1⟩
    | succ j =>
      obtain ⟨w', h4, h5⟩ := stepAll_get N h3 (j := j) (by simpa using hj)
      exact ⟨w', by simpa using h4, by rw [show i + (j + 1) = i + 1 + j by omega]; exact h5⟩

theorem stepAll_length {p q : Rat} {u : Nat → Rat} {default : Int} : ∀ {i : Nat} {ws ws' : List Walker} {nbs : List Nbr} {cs : List Nat},
    stepAll p q default u i ws nbs cs = some ws' → ws'.length = ws.length
  | i, [], ws', _, _, h => by rw [stepAll] at h; cases h; rfl
  | i, v :: ws, ws', _, [], h => by rw [stepAll] at h; cases h
  | i, v :: ws, ws', _, c :: cs, h => by
    rw [stepAll, Option.bind_eq_some_iff] at h
    obtain ⟨v', h1, h2⟩ := h
    rw [Option.map_eq_some_iff] at h2
    obtain ⟨ws'', h3, rfl⟩ := h2
    rw [List.length_cons, List.length_cons, stepAll_length h3]

/-- Only the random numbers of the steps that are made matter. -/
theorem walkLoop_congr {types : List Int} {p q : Rat} {default : Int} {D D' : Nat → Nat → Rat} : ∀ {k i : Nat} (ws : List Walker),
    (∀ t, i ≤ t → t < i + k → D t = D' t) → walkLoop g types p q default D k i ws = walkLoop g types p q default D' k i ws
  | 0, _, _, _ => rfl
  | k + 1, i, ws, h => by
    rw [walkLoop, walkLoop, h i (by omega) (by omega)]
    congr 1; funext r; congr 1; funext ws'
    exact walkLoop_congr ws' fun t h1 h2 => h t (by omega) (by omega)

/-- The last step of the walks. -/
theorem walkLoop_snoc {types : List Int} {p q : Rat} {default : Int} {D : Nat → Nat → Rat} : ∀ {k i : Nat} (ws : List Walker),
    walkLoop g types p q default D (k + 1) i ws = (walkLoop g types p q default D k i ws).bind fun ws' =>
      (Multihop.clientNeighbors g (ws'.map (·.curr)) types).bind fun r => stepAll p q default (D (i + k)) 0 ws' r.1 r.2
  | 0, i, ws => by
    simp only [walkLoop, Option.bind_some, Nat.add_zero]
    congr 1; funext r
    cases stepAll p q default (D i) 0 ws r.1 r.2 <;> rfl
  | k + 1, i, ws => by
    rw [walkLoop]
    conv => rhs; rw [walkLoop]
    rw [Option.bind_assoc]
    congr 1; funext r
    rw [Option.bind_assoc]
    congr 1; funext ws'
    rw [walkLoop_snoc, show i + 1 + k = i + (k + 1) by omega]

/-- What the last two entries of a row are. -/
def Trail (N : Int → List Nbr) (default : Int) (w : Walker) : Prop :=
  w.curr = default ∨ (w.nbs = (N w.past).map (fun n => (n.dst, n.weight)) ∧ ∃ pre, w.row = pre ++ [w.past, w.curr])

theorem step_trail {p q u : Rat} {default : Int} {N : Int → List Nbr} {w w' : Walker} (hr : ∃ l, w.row = l ++ [w.curr])
    (h : step p q u default w (N w.curr) = some w') : Trail N default w' ∧ ∃ l, w'.row = l ++ [w'.curr] := by
  rw [step] at h
  split at h
  · cases h; exact ⟨Or.inl rfl, w.row, rfl⟩
  · obtain ⟨n, -, rfl⟩ := Option.map_eq_some_iff.1 h
    obtain ⟨l, hl⟩ := hr
    exact ⟨Or.inr ⟨rfl, l, by rw [hl]; simp⟩, w.row, rfl⟩

theorem stepAll_trail {p q : Rat} {u : Nat → Rat} {default : Int} {N : Int → List Nbr} {i : Nat} {ws ws' : List Walker}
    (hr : ∀ w ∈ ws, ∃ l, w.row = l ++ [w.curr])
    (h : stepAll p q default u i ws (ws.flatMap fun w => N w.curr) (ws.map fun w => (N w.curr).length) = some ws') :
    ∀ w' ∈ ws', Trail N default w' ∧ ∃ l, w'.row = l ++ [w'.curr] := by
  intro w' hw'
  obtain ⟨j, hj⟩ := List.mem_iff_getElem?.1 hw'
  have hlen := stepAll_length h
  have hjl : j < ws.length := by
    have := (List.getElem?_eq_some_iff.1 hj).1; omega
  obtain ⟨w'', h1, h2⟩ := stepAll_get N h (List.getElem?_eq_getElem hjl)
  rw [hj] at h1; cases h1
  exact step_trail (hr _ (List.getElem_mem hjl)) h2

end DeepGNN.RandomWalk
