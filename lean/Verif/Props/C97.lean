import Verif.Proofs.Mooc
import Verif.Props.C10

/-
C97: the MOOC dataset as a temporal graph.
-/

namespace DeepGNN

open Mooc

/-- **C97_one_user_partial.** For any file with the interactions of one user, in any order: one node record, and for every item of the file
exactly one edge record, created at the time of the first interaction, with the history of the interactions with this item.
(For several users this is false, see below.) -/
theorem C97_one_user_partial {rows : List Interaction} {u : Nat} (hne : rows ≠ []) (hu : ∀ r ∈ rows, r.user = u) :
    ∃ edges, edgeIterator rows = some (⟨u, -1, 0, 1, some 0, some (-1), []⟩ :: edges) ∧ (edges.map (·.dst)).Nodup ∧
      (∀ e ∈ edges, ∃ (x : Nat) (hist : List (Int × Bytes)) (c : Int),
        e = ⟨u, (x : Int) + 7046, 0, 1, some c, some (-1), [some (serializeTemporal hist)]⟩ ∧ hist.Perm (Spec.interactionsOf rows u x) ∧
        c ∈ hist.map (·.1) ∧ ∀ y ∈ hist, c ≤ y.1) ∧
      ∀ r ∈ rows, ∃ e ∈ edges, e.dst = (r.item : Int) + 7046 := by
  obtain ⟨hp, hs⟩ := sortRows_spec rows
  unfold edgeIterator
  cases hsr : sortRows rows with
  | nil =>
    rw [hsr] at hp
    exact absurd hp.nil_eq.symm hne
  | cons r0 rest =>
    rw [hsr] at hp hs
    have hs0 := hs
    rw [List.pairwise_cons] at hs
    have hmem : ∀ r ∈ r0 :: rest, r.user = u := fun r hr => hu r (hp.mem_iff.1 hr)
    have hr0 := hmem r0 List.mem_cons_self
    have hle : ∀ x ∈ rest, r0.item ≤ x.item := by
      intro x hx
      have h1 := hs.1 x hx
      have h2 := hmem x (List.mem_cons_of_mem _ hx)
      unfold Le at h1
      omega
    obtain ⟨groups, h1, h2, h3, h4⟩ := go_user u rest r0.item [((r0.time : Int), r0.value)] (by simp)
      (fun x hx => hmem x (List.mem_cons_of_mem _ hx)) hle hs.2
    have hh : ∀ g ∈ groups, g.2 = histOf (r0 :: rest) g.1 := by
      intro g hg
      rw [(h3 g hg).2.2, histOf_cons]
      by_cases h : g.1 = r0.item
      · rw [h]
      · simp [h, Ne.symm h]
    refine ⟨_, by rw [loop_cons, hr0, h1]; rfl, ?_, ?_, ?_⟩
    · rw [List.map_map]
      have : (fun g : Nat × List (Int × Bytes) => (edgeOf u g.1 g.2).dst) = (fun x : Nat => (x : Int) + maxSrc) ∘ (·.1) := rfl
      rw [show ((fun x => x.dst) ∘ fun g : Nat × List (Int × Bytes) => edgeOf u g.1 g.2) = (fun x : Nat => (x : Int) + maxSrc) ∘ (·.1) from rfl,
        ← List.map_map]
      unfold List.Nodup
      rw [List.pairwise_map]
      exact h2.imp (fun h => by omega)
    · intro e he
      obtain ⟨g, hg, rfl⟩ := List.mem_map.1 he
      have hg2 := hh g hg
      have hgne := (h3 g hg).2.1
      have hsorted : g.2.Pairwise fun a b => a.1 ≤ b.1 := by
        rw [hg2]
        unfold histOf
        rw [List.pairwise_map]
        refine List.Pairwise.imp_of_mem ?_ (hs0.sublist List.filter_sublist)
        intro a b ha hb hab
        have ha' := List.mem_filter.1 ha
        have hb' := List.mem_filter.1 hb
        have e1 := hmem a ha'.1
        have e2 := hmem b hb'.1
        have e3 : a.item = g.1 := by simpa using ha'.2
        have e4 : b.item = g.1 := by simpa using hb'.2
        unfold Le at hab
        simp only
        omega
      refine ⟨g.1, g.2, (g.2.map (·.1)).head!, ?_, ?_, ?_, ?_⟩
      · unfold serializeTemporal
        rw [sortHistory_id hsorted]
        rfl
      · rw [hg2]
        unfold histOf Spec.interactionsOf
        refine List.Perm.map _ ?_
        refine (hp.filter _).trans ?_
        refine List.Perm.of_eq ?_
        refine List.filter_congr fun r hr => ?_
        simp [hu r hr]
      · cases hg3 : g.2 with
        | nil => exact absurd hg3 hgne
        | cons f F => exact List.mem_cons_self
      · cases hg3 : g.2 with
        | nil => exact absurd hg3 hgne
        | cons f F =>
          intro y hy
          rw [hg3, List.pairwise_cons] at hsorted
          show f.1 ≤ y.1
          rcases List.mem_cons.1 hy with hy | hy
          · rw [hy]; exact Int.le_refl _
          · exact hsorted.1 y hy
    · intro r hr
      have hr' := hp.mem_iff.2 hr
      have : r.item ∈ groups.map (·.1) := by
        rw [h4]
        rcases List.mem_cons.1 hr' with h | h
        · left; rw [h]
        · exact Or.inr ⟨r, h, rfl⟩
      obtain ⟨g, hg, hgi⟩ := List.mem_map.1 this
      exact ⟨_, List.mem_map.2 ⟨g, hg, rfl⟩, by rw [← hgi]; rfl⟩

section
variable {C : WeightCodec} {wm : Option Nat} {m : Meta} {g : Graph} {rows : List Interaction} {recs : List Rec} {u : Nat}

/-- **C97_features_partial.** In a graph made of the records of such a file, the feature of the edge from the user to any item at any time is
the value of the latest interaction not after that time, zeros before the first one and for items the user had nothing to do with. -/
theorem C97_features_partial (hb : Built C wm m [[recs]] g) (hr : edgeIterator rows = some recs) (hne : rows ≠ []) (hu : ∀ r ∈ rows, r.user = u)
    (x : Nat) (hok : Spec.HistOk (Spec.interactionsOf rows u x)) (t : Int) (size : Nat) :
    ∃ v, g.edgeFeature [⟨u, (x : Int) + 7046, 0⟩] (some [t]) [(0, size)] = some (Spec.fit size v) ∧
      Spec.LatestValue (Spec.interactionsOf rows u x) t v := by
  obtain ⟨edges, h1, h2, h3, h4⟩ := C97_one_user_partial hne hu
  rw [hr] at h1
  have h1 := Option.some.inj h1
  have hbetween : Spec.edgesBetween [[recs]] u ((x : Int) + 7046) 0 = edges.filter fun r => decide (r.dst = (x : Int) + 7046) := by
    unfold Spec.edgesBetween Spec.edgeRecords Spec.allRecords
    rw [h1]
    simp only [List.flatten_cons, List.flatten_nil, List.append_nil]
    rw [List.filter_filter, List.filter_cons_of_neg (by simp)]
    refine List.filter_congr fun r hr => ?_
    obtain ⟨y, hist, c, rfl, -⟩ := h3 r hr
    have : ¬ ((y : Int) + 7046 = -1) := by omega
    simp [this]
  cases hf : edges.filter (fun r => decide (r.dst = (x : Int) + 7046)) with
  | nil =>
    rw [hf] at hbetween
    obtain ⟨row, e1, vs, e2, e3, e4⟩ := C10_edge_features hb ⟨u, (x : Int) + 7046, 0⟩ t [(0, size)] (fun _ _ => []) (by
      intro f _ r hr
      rw [hbetween] at hr
      exact absurd hr List.not_mem_nil)
    match vs, e2 with
    | [v], _ =>
      have hv := e4 ((0, size), v) (by simp)
      rw [hbetween] at hv
      have hv' : v = [] := by
        rcases hv with ⟨-, hv⟩ | ⟨r, hr, -⟩
        · exact hv
        · exact absurd hr List.not_mem_nil
      refine ⟨v, by rw [e1, e3]; simp, Or.inr ⟨hv', fun y hy => ?_⟩⟩
      exfalso
      unfold Spec.interactionsOf at hy
      obtain ⟨r, hr, -⟩ := List.mem_map.1 hy
      obtain ⟨hr, hri⟩ := List.mem_filter.1 hr
      obtain ⟨e, he, hed⟩ := h4 r hr
      have : e ∈ edges.filter (fun r => decide (r.dst = (x : Int) + 7046)) := by
        refine List.mem_filter.2 ⟨he, ?_⟩
        rw [hed]
        have : r.user = u ∧ r.item = x := by simpa using hri
        simp [this.2]
      rw [hf] at this
      exact absurd this List.not_mem_nil
  | cons e rest =>
    rw [hf] at hbetween
    have hmem : ∀ r ∈ e :: rest, r ∈ edges ∧ r.dst = (x : Int) + 7046 := by
      intro r hr
      rw [← hf] at hr
      simpa using List.mem_filter.1 hr
    have hsame : ∀ r ∈ edges, r.dst = (x : Int) + 7046 → r = e := by
      intro r hr hd
      obtain ⟨he, hed⟩ := hmem e List.mem_cons_self
      obtain ⟨i, hi, rfl⟩ := List.getElem_of_mem hr
      obtain ⟨j, hj, hje⟩ := List.getElem_of_mem he
      rw [← hje]
      have hn := (List.getElem_inj (h₀ := by simpa using hi) (h₁ := by simpa using hj) h2).1 (by
        rw [List.getElem_map, List.getElem_map, hd, hje, hed])
      simp [hn]
    obtain ⟨y, hist, c, he, hperm, -⟩ := h3 e (hmem e List.mem_cons_self).1
    have hyx : y = x := by
      have := (hmem e List.mem_cons_self).2
      rw [he] at this
      simp only at this
      omega
    subst hyx
    have hoks : Spec.HistOk hist := by
      refine ⟨fun z hz => hok.times z (hperm.mem_iff.1 hz), by rw [hperm.length_eq]; exact hok.count, ?_⟩
      rw [hperm.length_eq, (hperm.map _).sum_nat]
      exact hok.size
    obtain ⟨row, e1, vs, e2, e3, e4⟩ := C10_edge_features hb ⟨u, (y : Int) + 7046, 0⟩ t [(0, size)] (fun _ _ => hist) (by
      intro f hf' r hr
      rw [hbetween] at hr
      have hre := hsame r (hmem r hr).1 (hmem r hr).2
      rw [hre, he]
      right
      have : f = (0, size) := by simpa using hf'
      rw [this]
      exact ⟨rfl, hoks⟩)
    match vs, e2 with
    | [v], _ =>
      have hv := e4 ((0, size), v) (by simp)
      rw [hbetween] at hv
      refine ⟨v, by rw [e1, e3]; simp, ?_⟩
      rcases hv with ⟨h0, -⟩ | ⟨r, -, hv⟩
      · cases h0
      · rcases hv with ⟨c', hm', hle', hmax⟩ | ⟨hv, hlt⟩
        · exact Or.inl ⟨c', hperm.mem_iff.1 hm', hle', fun z hz => hmax z (hperm.mem_iff.2 hz)⟩
        · exact Or.inr ⟨hv, fun z hz => hlt z (hperm.mem_iff.2 hz)⟩

end

/-- **C97_lost_refuted.** For any file that is not empty, the number of edges is the number of pairs of a user and an item, minus the
number of users, plus 1: with every user but one, an edge gets lost. -/
theorem C97_lost_refuted {rows : List Interaction} (hne : rows ≠ []) :
    ∃ recs, edgeIterator rows = some recs ∧
      (recs.filter fun r => decide (r.dst ≠ -1)).length + (Spec.usersOf rows).length = (Spec.pairsOf rows).length + 1 := by
  obtain ⟨hp, hs⟩ := sortRows_spec rows
  have hU : (Spec.usersOf rows).length = (Spec.usersOf (sortRows rows)).length := (eraseDups_length_perm (hp.map _)).symm
  have hP : (Spec.pairsOf rows).length = (Spec.pairsOf (sortRows rows)).length := (eraseDups_length_perm (hp.map _)).symm
  unfold edgeIterator
  rw [hU, hP]
  cases hsr : sortRows rows with
  | nil =>
    rw [hsr] at hp
    exact absurd hp.nil_eq.symm hne
  | cons r rest =>
    rw [hsr] at hs
    refine ⟨_, loop_cons r rest, ?_⟩
    rw [List.filter_cons_of_neg (by simp [nodeRec])]
    have h1 := go_count rest r.user r.item [((r.time : Int), r.value)]
    have h2 : (Spec.usersOf (r :: rest)).length = 1 + changes r.user (rest.map (·.user)) :=
      eraseDups_changes (R := fun a b => a ≤ b) (fun a b h1 h2 => Nat.le_antisymm h1 h2) _ _ (by
        rw [← List.map_cons (f := fun x : Interaction => x.user), List.pairwise_map]
        exact hs.imp (fun h => by unfold Le at h; omega))
    have h3 : (Spec.pairsOf (r :: rest)).length = 1 + changes (r.user, r.item) (rest.map fun r => (r.user, r.item)) :=
      eraseDups_changes (R := fun a b : Nat × Nat => a.1 < b.1 ∨ (a.1 = b.1 ∧ a.2 ≤ b.2))
        (fun a b h1 h2 => Prod.ext (by omega) (by omega)) _ _ (by
        rw [← List.map_cons (f := fun x : Interaction => (x.user, x.item)), List.pairwise_map]
        exact hs.imp (fun h => by unfold Le at h; simp only; omega))
    rw [h2, h3]
    omega

/-- **C97_updates_refuted.** There is never an edge for a later update of the features: no file has more edges than pairs of a user and an
item. -/
theorem C97_updates_refuted {rows : List Interaction} {recs : List Rec} (h : edgeIterator rows = some recs) :
    (recs.filter fun r => decide (r.dst ≠ -1)).length ≤ (Spec.pairsOf rows).length := by
  by_cases hne : rows = []
  · subst hne
    cases h
  · obtain ⟨recs', h', hc⟩ := C97_lost_refuted hne
    rw [h] at h'
    cases h'
    have : 0 < (Spec.usersOf rows).length := by
      cases rows with
      | nil => exact absurd rfl hne
      | cons r rest => simp [Spec.usersOf, List.eraseDups_cons]
    omega

theorem Mooc.go_nodes : ∀ (rows : List Interaction) (s d : Nat) (F : List (Int × Bytes)), ∀ r ∈ go s d F rows, r.dst = -1 →
    ∃ x ∈ rows, r.src = x.user
  | [], s, d, F, r, hr, hd => by
    rw [go, List.mem_singleton] at hr
    subst hr
    simp only [edgeOf] at hd
    omega
  | x :: rows, s, d, F, r, hr, hd => by
    have tail : ∀ {s' d' : Nat} {F' : List (Int × Bytes)}, r ∈ go s' d' F' rows → ∃ y ∈ x :: rows, r.src = y.user := by
      intro s' d' F' hr
      obtain ⟨y, hy, h⟩ := go_nodes rows s' d' F' r hr hd
      exact ⟨y, List.mem_cons_of_mem _ hy, h⟩
    rw [go] at hr
    split at hr
    · rcases List.mem_cons.1 hr with hr | hr
      · exact ⟨x, List.mem_cons_self, by rw [hr]; rfl⟩
      · exact tail hr
    · split at hr
      · rcases List.mem_cons.1 hr with hr | hr
        · subst hr
          simp only [edgeOf] at hd
          omega
        · exact tail hr
      · exact tail hr

/-- **C97_items_refuted.** Items do not become nodes: every node record is for a user of the file. -/
theorem C97_items_refuted {rows : List Interaction} {recs : List Rec} (h : edgeIterator rows = some recs) :
    ∀ r ∈ recs, r.dst = -1 → ∃ x ∈ rows, r.src = x.user := by
  obtain ⟨hp, -⟩ := sortRows_spec rows
  unfold edgeIterator at h
  cases hsr : sortRows rows with
  | nil => rw [hsr] at h; cases h
  | cons x rest =>
    rw [hsr, loop_cons] at h
    cases h
    intro r hr hd
    have hin : ∃ y ∈ x :: rest, r.src = y.user := by
      rcases List.mem_cons.1 hr with hr | hr
      · exact ⟨x, List.mem_cons_self, by rw [hr]; rfl⟩
      · obtain ⟨y, hy, h⟩ := go_nodes rest _ _ _ r hr hd
        exact ⟨y, List.mem_cons_of_mem _ hy, h⟩
    obtain ⟨y, hy, h⟩ := hin
    rw [hsr] at hp
    exact ⟨y, hp.mem_iff.1 hy, h⟩

/-- User 1 acts on item 3 at time `t`, user 2 on item 4 at time 5. -/
def Mooc.exTwo (t : Nat) : List Interaction := [⟨1, 3, t, [7]⟩, ⟨2, 4, 5, [8]⟩]

/-- **C97_mixed_refuted.** With two users: the edge of user 1 is missing, and the edge of user 2, who first acts at time 5, has the value of
user 1 at time 4. -/
theorem C97_mixed_refuted : ∃ (recs : List Rec) (g : Graph), edgeIterator (exTwo 3) = some recs ∧
    Built intCodec (some 0) ⟨0, 1, 1⟩ [[recs]] g ∧ Spec.interactionsOf (exTwo 3) 1 3 = [(3, [7])] ∧ Spec.interactionsOf (exTwo 3) 2 4 = [(5, [8])] ∧
    g.edgeFeature [⟨1, 3 + 7046, 0⟩] (some [4]) [(0, 1)] = some [0] ∧ g.edgeFeature [⟨2, 4 + 7046, 0⟩] (some [4]) [(0, 1)] = some [7] := by
  let recs : List Rec := [⟨1, -1, 0, 1, some 0, some (-1), []⟩, ⟨2, -1, 0, 1, some 0, some (-1), []⟩,
    ⟨2, 4 + 7046, 0, 1, some 3, some (-1), [some (serializeSorted [(3, [7]), (5, [8])])]⟩]
  obtain ⟨g, hg, hb⟩ := built_of_check (wm := some 0) (m := ⟨0, 1, 1⟩) (parts := [[recs]]) (by decide +kernel)
  have this : (graphOf intCodec (some 0) ⟨0, 1, 1⟩ [[recs]]).map (fun g =>
      (g.edgeFeature [⟨1, 3 + 7046, 0⟩] (some [4]) [(0, 1)], g.edgeFeature [⟨2, 4 + 7046, 0⟩] (some [4]) [(0, 1)])) =
      some (some [0], some [7]) := by decide +kernel
  rw [hg] at this
  have this := Option.some.inj this
  simp only [Prod.mk.injEq] at this
  exact ⟨recs, g, by decide +kernel, hb, by decide +kernel, by decide +kernel, this.1, this.2⟩

/-- **C97_late_refuted.** If user 1 acts later than user 2, the history of the edge of user 2 is not in the order of time, and the value of
user 2 at time 5 is not found. -/
theorem C97_late_refuted : ∃ (recs : List Rec) (g : Graph), edgeIterator (exTwo 9) = some recs ∧
    Built intCodec (some 0) ⟨0, 1, 1⟩ [[recs]] g ∧ Spec.interactionsOf (exTwo 9) 2 4 = [(5, [8])] ∧
    g.edgeFeature [⟨2, 4 + 7046, 0⟩] (some [5]) [(0, 1)] = some [0] := by
  let recs : List Rec := [⟨1, -1, 0, 1, some 0, some (-1), []⟩, ⟨2, -1, 0, 1, some 0, some (-1), []⟩,
    ⟨2, 4 + 7046, 0, 1, some 9, some (-1), [some (serializeSorted [(9, [7]), (5, [8])])]⟩]
  obtain ⟨g, hg, hb⟩ := built_of_check (wm := some 0) (m := ⟨0, 1, 1⟩) (parts := [[recs]]) (by decide +kernel)
  have this : (graphOf intCodec (some 0) ⟨0, 1, 1⟩ [[recs]]).map (fun g => g.edgeFeature [⟨2, 4 + 7046, 0⟩] (some [5]) [(0, 1)]) =
      some (some [0]) := by decide +kernel
  rw [hg] at this
  exact ⟨recs, g, by decide +kernel, hb, by decide +kernel, Option.some.inj this⟩

/-- **C97_same_id_refuted.** The last user and the first item are the same node: an interaction of the two is an edge of node 7046 to itself. -/
theorem C97_same_id_refuted (t : Nat) (v : Bytes) : ∃ n e : Rec, edgeIterator [⟨7046, 0, t, v⟩] = some [n, e] ∧ e.src = e.dst := by
  refine ⟨_, _, loop_cons _ _, rfl⟩

/-- **C97_empty_refuted.** A file without interactions fails. -/
theorem C97_empty_refuted : edgeIterator [] = none := rfl

/-! ### Examples -/

/-- One user, two items, out of order. -/
def Mooc.exOne : List Interaction := [⟨1, 5, 9, [7]⟩, ⟨1, 3, 8, [6]⟩, ⟨1, 5, 2, [9]⟩, ⟨1, 3, 4, [1]⟩]

/-- The hypotheses of C97_one_user_partial hold, and this is what the code gives. -/
example : (∀ r ∈ exOne, r.user = 1) ∧ edgeIterator exOne = some [⟨1, -1, 0, 1, some 0, some (-1), []⟩,
    ⟨1, 3 + 7046, 0, 1, some 4, some (-1), [some (serializeSorted [(4, [1]), (8, [6])])]⟩,
    ⟨1, 5 + 7046, 0, 1, some 2, some (-1), [some (serializeSorted [(2, [9]), (9, [7])])]⟩] := by decide +kernel

/-- A graph of these records exists; C97_features_partial applies to it: the value of item 3 at time 7 is that of time 4. -/
example : ∃ (recs : List Rec) (g : Graph), edgeIterator exOne = some recs ∧ Built intCodec (some 0) ⟨0, 1, 1⟩ [[recs]] g ∧
    (∃ v, g.edgeFeature [⟨(1 : Nat), ((3 : Nat) : Int) + 7046, 0⟩] (some [7]) [(0, 1)] = some (Spec.fit 1 v) ∧
      Spec.LatestValue (Spec.interactionsOf exOne 1 3) 7 v) ∧
    g.edgeFeature [⟨1, 3 + 7046, 0⟩] (some [7]) [(0, 1)] = some [1] ∧ g.edgeFeature [⟨1, 3 + 7046, 0⟩] (some [8]) [(0, 1)] = some [6] := by
  let recs : List Rec := [⟨1, -1, 0, 1, some 0, some (-1), []⟩,
    ⟨1, 3 + 7046, 0, 1, some 4, some (-1), [some (serializeSorted [(4, [1]), (8, [6])])]⟩,
    ⟨1, 5 + 7046, 0, 1, some 2, some (-1), [some (serializeSorted [(2, [9]), (9, [7])])]⟩]
  have hr : edgeIterator exOne = some recs := by decide +kernel
  obtain ⟨g, hg, hb⟩ := built_of_check (wm := some 0) (m := ⟨0, 1, 1⟩) (parts := [[recs]]) (by decide +kernel)
  have this : (graphOf intCodec (some 0) ⟨0, 1, 1⟩ [[recs]]).map (fun g =>
      (g.edgeFeature [⟨1, 3 + 7046, 0⟩] (some [7]) [(0, 1)], g.edgeFeature [⟨1, 3 + 7046, 0⟩] (some [8]) [(0, 1)])) =
      some (some [1], some [6]) := by decide +kernel
  rw [hg] at this
  have this := Option.some.inj this
  simp only [Prod.mk.injEq] at this
  exact ⟨recs, g, hr, hb, C97_features_partial hb hr (by decide) (by decide) 3 ⟨by decide +kernel, by decide +kernel, by decide +kernel⟩ 7 1,
    this.1, this.2⟩

/-- Three users and five pairs: three edges. -/
example : (edgeIterator [⟨1, 3, 9, [7]⟩, ⟨1, 4, 9, [7]⟩, ⟨2, 4, 5, [8]⟩, ⟨5, 1, 0, []⟩, ⟨5, 2, 0, []⟩, ⟨5, 2, 1, []⟩]).map
    (fun recs => recs.map fun r => (r.src, r.dst)) =
    some [(1, -1), (1, 3 + 7046), (2, -1), (5, -1), (5, 1 + 7046), (5, 2 + 7046)] := by decide +kernel

end DeepGNN
