import Verif.Proofs.AliasFile

/-
C21 Alias records select the right element.
The equally likely outcomes of one draw from an alias file with `n` records are the `n * q * one` pairs
of a record and a second draw `a / (q * one)`, for any resolution `q`.
-/

namespace DeepGNN

/-- The outcomes of one draw. -/
def C21_outcomes {α} (q one : Nat) (recs : List (AliasRec α)) : List α :=
  recs.flatMap fun r => (List.range (q * one)).map (r.pick q)

/-- In how many outcomes `x` is selected. -/
def C21_times {α} [DecidableEq α] (q one : Nat) (recs : List (AliasRec α)) (x : α) : Nat :=
  (C21_outcomes q one recs).count x

/-- The node records of a type given to a writer, with their weights. -/
def C21_nodes (recs : List Rec) (t : Nat) : List (Int × Int) :=
  (recs.filter fun r => r.dst = -1 ∧ r.typ = (t : Int)).map fun r => (r.src, r.weight)

/-- The edge records of a type given to a writer, with their weights. -/
def C21_edges (recs : List Rec) (t : Nat) : List ((Int × Int) × Int) :=
  (recs.filter fun r => r.dst ≠ -1 ∧ r.typ = (t : Int)).map fun r => ((r.src, r.dst), r.weight)

theorem weightOf_pos {α} [DecidableEq α] {l : List (α × Int)} {x : α} (h : 0 < Spec.weightOf l x) :
    ∃ y ∈ l, y.1 = x ∧ 0 < y.2 := by
  simp only [Spec.weightOf] at h
  induction l with
  | nil => simp at h
  | cons a l ih =>
    rw [List.filter_cons] at h
    by_cases ha : a.1 = x
    · simp only [ha, decide_true, if_true, List.map_cons, List.sum_cons] at h
      by_cases h2 : 0 < a.2
      · exact ⟨a, by simp, ha, h2⟩
      · obtain ⟨y, h3, h4⟩ := ih (by omega)
        exact ⟨y, by simp [h3], h4⟩
    · simp only [ha, decide_false] at h
      obtain ⟨y, h3, h4⟩ := ih h
      exact ⟨y, by simp [h3], h4⟩

theorem nodeAliasInput_spec (recs : List Rec) (hr : ∀ r ∈ recs, r.dst = -1 → 0 ≤ r.typ ∧ 0 ≤ r.src ∧ r.src < 2 ^ 63) :
    ∃ a, nodeAliasInput recs = some a ∧ ∀ t : Nat, a.getD t [] = C21_nodes recs t := by
  obtain ⟨a, h1, h2⟩ := aliasInput_fold (fun r => asI64 r.src) (recs.filter fun r => r.dst = -1)
    (by intro r h; simp at h; exact (hr r h.1 h.2).1) []
  refine ⟨a, h1, fun t => ?_⟩
  rw [h2]
  simp only [C21_nodes, List.filter_filter, List.getD_nil, List.nil_append]
  refine (List.map_congr_left ?_).trans (congrArg _ (List.filter_congr ?_))
  · intro r h
    simp at h
    obtain ⟨-, h3, h4⟩ := hr r h.1 h.2.2
    simp [asI64_id h3 h4]
  · intro r _; simp [Bool.and_comm]

theorem edgeAliasInput_spec (recs : List Rec) (hr : ∀ r ∈ recs, r.dst ≠ -1 → 0 ≤ r.typ ∧ 0 ≤ r.src ∧ r.src < 2 ^ 63 ∧
      0 ≤ r.dst ∧ r.dst < 2 ^ 63) :
    ∃ a, edgeAliasInput recs = some a ∧ ∀ t : Nat, a.getD t [] = C21_edges recs t := by
  obtain ⟨a, h1, h2⟩ := aliasInput_fold (fun r => (asI64 r.src, asI64 r.dst)) (recs.filter fun r => r.dst ≠ -1)
    (by intro r h; simp at h; exact (hr r h.1 h.2).1) []
  refine ⟨a, h1, fun t => ?_⟩
  rw [h2]
  simp only [C21_edges, List.filter_filter, List.getD_nil, List.nil_append]
  refine (List.map_congr_left ?_).trans (congrArg _ (List.filter_congr ?_))
  · intro r h
    simp at h
    obtain ⟨-, h3, h4, h5, h6⟩ := hr r h.1 h.2.2
    simp [asI64_id h3 h4, asI64_id h5 h6]
  · intro r _; simp [Bool.and_comm]

/-- Outcomes and samples of an alias file. -/
theorem alias_sampling {α} [DecidableEq α] (C : WeightCodec) (zero : α) (l : List (α × Int))
    (hv : ∀ x ∈ l, C.Valid x.2 ∧ 0 ≤ x.2) (one : Nat) (hone : (l.map (·.2)).sum = one) (hpos : 0 < one) :
    ∃ f, aliasFile C zero l = some f ∧ f.length = l.length ∧
      (∀ (q : Nat) (x : α), (C21_times q one f x : Int) = l.length * q * Spec.weightOf l x) ∧
      ∀ (q : Nat), 0 < q → ∀ R s out, ∃ o s', weightedSample f q one R s out = some (o, s') ∧
        o.length = out.length ∧ ∀ x ∈ o, ∃ y ∈ l, y.1 = x ∧ 0 < y.2 := by
  obtain ⟨f, h1, h2, -, -, h5⟩ := aliasFile_spec C zero l hv one hone hpos
  have hne : l ≠ [] := by intro h; subst h; simp at hone; omega
  refine ⟨f, h1, h2, h5, fun q hq R s out => ?_⟩
  obtain ⟨o, e1, e2, e3⟩ := weightedSample_spec f q one hq hpos
    (by intro h; rw [h] at h2; simp at h2; exact hne (List.eq_nil_of_length_eq_zero h2.symm)) R s out
  refine ⟨o, _, e1, e2, fun x hx => ?_⟩
  have h6 := List.count_pos_iff.2 (e3 x hx)
  have h7 := h5 q x
  apply weightOf_pos
  rcases Int.lt_or_le 0 (Spec.weightOf l x) with h | h
  · exact h
  · have := Int.mul_nonpos_of_nonneg_of_nonpos (a := (l.length : Int) * q) (by apply Int.mul_nonneg <;> omega) h
    omega

/-- Nodes: over all equally likely outcomes of a draw from the alias file of type `t`, node `x` is
selected in the share of its weight in the total weight `one` of the type; every sample is a node of
that type with positive weight. -/
theorem C21_node_shares (C : WeightCodec) (recs : List Rec) (t : Nat)
    (hr : ∀ r ∈ recs, r.dst = -1 → 0 ≤ r.typ ∧ 0 ≤ r.src ∧ r.src < 2 ^ 63)
    (hw : ∀ r ∈ recs, r.dst = -1 → C.Valid r.weight ∧ 0 ≤ r.weight)
    (one : Nat) (hone : ((C21_nodes recs t).map (·.2)).sum = one) (hpos : 0 < one) :
    ∃ a f, nodeAliasInput recs = some a ∧ aliasFile C 0 (a.getD t []) = some f ∧
      f.length = (C21_nodes recs t).length ∧
      (∀ q x, (C21_times q one f x : Int) = f.length * q * Spec.weightOf (C21_nodes recs t) x) ∧
      ∀ q, 0 < q → ∀ R s out, ∃ o s', weightedSample f q one R s out = some (o, s') ∧
        o.length = out.length ∧ ∀ x ∈ o, ∃ r ∈ recs, r.dst = -1 ∧ r.typ = (t : Int) ∧ r.src = x ∧ 0 < r.weight := by
  obtain ⟨a, h1, h2⟩ := nodeAliasInput_spec recs hr
  obtain ⟨f, h3, h4, h5, h6⟩ := alias_sampling C 0 (C21_nodes recs t) (by
    intro x hx
    simp only [C21_nodes, List.mem_map, List.mem_filter, decide_eq_true_eq] at hx
    obtain ⟨r, ⟨hr, h, -⟩, rfl⟩ := hx
    exact hw r hr h) one hone hpos
  refine ⟨a, f, h1, by rw [h2]; exact h3, h4, by rw [h4]; exact h5, fun q hq R s out => ?_⟩
  obtain ⟨o, s', e1, e2, e3⟩ := h6 q hq R s out
  refine ⟨o, s', e1, e2, fun x hx => ?_⟩
  obtain ⟨y, hy, e4, e5⟩ := e3 x hx
  simp only [C21_nodes, List.mem_map, List.mem_filter, decide_eq_true_eq] at hy
  obtain ⟨r, ⟨h7, h8, h9⟩, rfl⟩ := hy
  exact ⟨r, h7, h8, h9, e4, e5⟩

/-- Edges: the same, with source and destination. -/
theorem C21_edge_shares (C : WeightCodec) (recs : List Rec) (t : Nat)
    (hr : ∀ r ∈ recs, r.dst ≠ -1 → 0 ≤ r.typ ∧ 0 ≤ r.src ∧ r.src < 2 ^ 63 ∧ 0 ≤ r.dst ∧ r.dst < 2 ^ 63)
    (hw : ∀ r ∈ recs, r.dst ≠ -1 → C.Valid r.weight ∧ 0 ≤ r.weight)
    (one : Nat) (hone : ((C21_edges recs t).map (·.2)).sum = one) (hpos : 0 < one) :
    ∃ a f, edgeAliasInput recs = some a ∧ aliasFile C (0, 0) (a.getD t []) = some f ∧
      f.length = (C21_edges recs t).length ∧
      (∀ q x, (C21_times q one f x : Int) = f.length * q * Spec.weightOf (C21_edges recs t) x) ∧
      ∀ q, 0 < q → ∀ R s out, ∃ o s', weightedSample f q one R s out = some (o, s') ∧
        o.length = out.length ∧
        ∀ x ∈ o, ∃ r ∈ recs, r.dst ≠ -1 ∧ r.typ = (t : Int) ∧ (r.src, r.dst) = x ∧ 0 < r.weight := by
  obtain ⟨a, h1, h2⟩ := edgeAliasInput_spec recs hr
  obtain ⟨f, h3, h4, h5, h6⟩ := alias_sampling C (0, 0) (C21_edges recs t) (by
    intro x hx
    simp only [C21_edges, List.mem_map, List.mem_filter, decide_eq_true_eq] at hx
    obtain ⟨r, ⟨hr, h, -⟩, rfl⟩ := hx
    exact hw r hr h) one hone hpos
  refine ⟨a, f, h1, by rw [h2]; exact h3, h4, by rw [h4]; exact h5, fun q hq R s out => ?_⟩
  obtain ⟨o, s', e1, e2, e3⟩ := h6 q hq R s out
  refine ⟨o, s', e1, e2, fun x hx => ?_⟩
  obtain ⟨y, hy, e4, e5⟩ := e3 x hx
  simp only [C21_edges, List.mem_map, List.mem_filter, decide_eq_true_eq] at hy
  obtain ⟨r, ⟨h7, h8, h9⟩, rfl⟩ := hy
  exact ⟨r, h7, h8, h9, e4, e5⟩

/-- Two types of nodes with some edges in between. -/
def C21_example : List Rec :=
  [⟨1, -1, 0, 1, none, none, []⟩, ⟨1, 2, 0, 5, none, none, []⟩, ⟨2, -1, 1, 7, none, none, []⟩,
   ⟨2, 1, 1, 2, none, none, []⟩, ⟨2, 3, 1, 0, none, none, []⟩, ⟨3, -1, 0, 3, none, none, []⟩,
   ⟨3, 1, 1, 6, none, none, []⟩, ⟨4, -1, 0, 0, none, none, []⟩]

/-- Non-vacuity: the nodes of type 0 have weights 1, 3, 0. -/
example : ∃ f, aliasFile intCodec 0 (C21_nodes C21_example 0) = some f ∧
    f = [⟨1, 3, 3⟩, ⟨3, 0, 4⟩, ⟨4, 3, 0⟩] ∧ (C21_outcomes 2 4 f).length = 24 ∧
    C21_times 2 4 f 1 = 6 ∧ C21_times 2 4 f 3 = 18 ∧ C21_times 2 4 f 4 = 0 := by
  refine ⟨[⟨1, 3, 3⟩, ⟨3, 0, 4⟩, ⟨4, 3, 0⟩], ?_⟩
  decide +kernel

example : ∃ a f, nodeAliasInput C21_example = some a ∧ aliasFile intCodec 0 (a.getD 0 []) = some f ∧
    ∀ R s, ∃ o s', weightedSample f 5 4 R s [9, 9, 9] = some (o, s') ∧ o.length = 3 ∧ ∀ x ∈ o, x = 1 ∨ x = 3 := by
  obtain ⟨a, f, h1, h2, -, -, h3⟩ := C21_node_shares intCodec C21_example 0 (by decide)
    (by simp only [intCodec]; decide) 4 (by decide) (by decide)
  refine ⟨a, f, h1, h2, fun R s => ?_⟩
  obtain ⟨o, s', h4, h5, h6⟩ := h3 5 (by decide) R s [9, 9, 9]
  refine ⟨o, s', h4, h5, fun x hx => ?_⟩
  obtain ⟨r, h7, h8, h9, rfl, h11⟩ := h6 x hx
  have : ∀ r ∈ C21_example, r.dst = -1 → r.typ = ((0 : Nat) : Int) → 0 < r.weight → r.src = 1 ∨ r.src = 3 := by decide
  exact this r h7 h8 h9 h11

example : ∃ a f, edgeAliasInput C21_example = some a ∧ aliasFile intCodec (0, 0) (a.getD 1 []) = some f ∧
    f.length = 3 ∧ ∀ q : Nat, (C21_times q 8 f (2, 1) : Int) = 3 * q * 2 := by
  obtain ⟨a, f, h1, h2, h3, h4, -⟩ := C21_edge_shares intCodec C21_example 1 (by decide)
    (by simp only [intCodec]; decide) 8 (by decide) (by decide)
  refine ⟨a, f, h1, h2, h3, fun q => ?_⟩
  rw [h4, h3]
  rfl

end DeepGNN
