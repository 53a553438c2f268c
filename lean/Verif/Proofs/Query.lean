import Verif.Proofs.Load

namespace DeepGNN

/-- Start position attached to every run of a node. -/
def runStarts {α} (s : Nat) : List (Int × List α) → List ((Int × List α) × Nat)
  | [] => []
  | g :: gs => (g, s) :: runStarts (s + g.2.length) gs

theorem runStarts_append {α} (s : Nat) (a b : List (Int × List α)) :
    runStarts s (a ++ b) = runStarts s a ++ runStarts (s + (a.map (·.2.length)).sum) b := by
  induction a generalizing s with
  | nil => simp [runStarts]
  | cons x xs ih => simp [runStarts, ih, Nat.add_assoc]

theorem map_fst_runStarts {α} (s : Nat) (l : List (Int × List α)) :
    (runStarts s l).map (·.1) = l := by
  induction l generalizing s with
  | nil => rfl
  | cons x xs ih => simp [runStarts, ih]

@[simp] theorem length_runStarts {α} (s : Nat) (l : List (Int × List α)) :
    (runStarts s l).length = l.length := by
  induction l generalizing s with
  | nil => rfl
  | cons x xs ih => simp [runStarts, ih]

theorem getElem_runStarts {α} (s : Nat) (l : List (Int × List α)) (i : Nat) (hi : i < l.length) :
    (runStarts s l)[i]'(by simpa using hi) = (l[i], s + ((l.take i).map (·.2.length)).sum) := by
  induction l generalizing s i with
  | nil => simp at hi
  | cons x xs ih =>
    cases i with
    | zero => simp [runStarts]
    | succ i =>
      simp only [runStarts, List.getElem_cons_succ]
      rw [ih _ _ (by simpa using hi)]
      simp [Nat.add_assoc]

def toGroup {α} (x : (Int × List α) × Nat) : Group :=
  { typ := x.1.1, start := x.2, last := x.2 + x.1.2.length }

/-- Slices of a table laid out run by run. -/
theorem slice_runStarts {α β} {l : List (Int × List α)} {s : Nat} {g : Int × List α} {st : Nat}
    (h : (g, st) ∈ runStarts s l) (f : Int × List α → List β)
    (hf : ∀ g ∈ l, (f g).length = g.2.length) (i : Nat) (hi : i < g.2.length) :
    s ≤ st ∧ st - s + i < (l.flatMap f).length ∧ (l.flatMap f)[st - s + i]? = (f g)[i]? := by
  induction l generalizing s with
  | nil => simp [runStarts] at h
  | cons x xs ih =>
    have hx := hf x (by simp)
    simp only [runStarts, List.mem_cons] at h
    rcases h with h | h
    · obtain ⟨rfl, rfl⟩ := Prod.mk.injEq .. ▸ h
      refine ⟨Nat.le_refl _, ?_, ?_⟩
      · simp only [List.flatMap_cons, List.length_append, Nat.sub_self]; omega
      · simp only [List.flatMap_cons, Nat.sub_self, Nat.zero_add]
        rw [List.getElem?_append_left (by omega)]
    · obtain ⟨h1, h2, h3⟩ := ih h (fun g hg => hf g (by simp [hg]))
      refine ⟨by omega, ?_, ?_⟩
      · simp only [List.flatMap_cons, List.length_append]; omega
      · rw [List.flatMap_cons, List.getElem?_append_right (by omega), ← h3]
        congr 1; omega

variable {m : Meta} {p : Partition} {Rs : List (List (Int × List EdgeRecord))} {sent : EdgeRecord}

/-- Edges stored before node `k`. -/
def edgeStart (Rs : List (List (Int × List EdgeRecord))) (k : Nat) : Nat :=
  ((Rs.take k).flatten.map (·.2.length)).sum

theorem LoadedEdges.runs_split (k : Nat) (hk : k < Rs.length) :
    Rs.flatten = (Rs.take k).flatten ++ Rs[k] ++ (Rs.drop (k + 1)).flatten := by
  conv => lhs; rw [← List.take_append_drop k Rs]
  rw [List.flatten_append, List.append_assoc]
  congr 1
  conv => lhs; rw [List.drop_eq_getElem_cons hk]
  exact List.flatten_cons

theorem LoadedEdges.groups (h : LoadedEdges m p Rs sent) (k : Nat) (hk : k < Rs.length) :
    p.groups k = some ((runStarts (edgeStart Rs k) Rs[k]).map toGroup) := by
  have hsplit := runs_split k hk
  simp only [Partition.groups, h.neighborsIndex]
  rw [getElem?_offsFrom _ _ _ (by simp; omega), getElem?_offsFrom _ _ _ (by simp; omega)]
  simp only [Option.bind_eq_bind, Option.bind_some]
  have hlen : 0 + (List.take (k + 1) (List.map List.length Rs)).sum -
      (0 + (List.take k (List.map List.length Rs)).sum) =
      (runStarts (edgeStart Rs k) Rs[k]).length := by
    rw [List.take_succ_eq_append_getElem (by simpa using hk)]
    simp
  rw [hlen]
  apply mapM_range'
  intro i hi
  have hi' : i < Rs[k].length := by simpa using hi
  have hoff : 0 + (List.take k (List.map List.length Rs)).sum = (Rs.take k).flatten.length := by
    rw [List.length_flatten, List.map_take]; omega
  rw [hoff, h.edgeTypes, h.edgeTypeOffset]
  have hlt : (Rs.take k).flatten.length + i < Rs.flatten.length := by
    rw [hsplit]; simp only [List.length_append]; omega
  rw [getElem?_offsFrom _ _ _ (by rw [List.length_map]; omega),
    getElem?_offsFrom _ _ _ (by rw [List.length_map]; omega),
    List.getElem?_append_left (by rw [List.length_map]; exact hlt)]
  have hget : Rs.flatten[(Rs.take k).flatten.length + i] = Rs[k][i] := by
    have : Rs.flatten[(Rs.take k).flatten.length + i]? = Rs[k][i]? := by
      conv => lhs; rw [hsplit]
      rw [List.append_assoc, List.getElem?_append_right (by omega), List.getElem?_append_left (by omega)]
      congr 1; omega
    rw [List.getElem?_eq_getElem hlt, List.getElem?_eq_getElem hi'] at this
    exact Option.some.inj this
  rw [List.getElem?_map, List.getElem?_eq_getElem hlt]
  simp only [Option.bind_some, Option.map_some, hget]
  rw [getElem_runStarts _ _ _ hi']
  have htake : ∀ j, j ≤ Rs[k].length → 0 + (List.take ((Rs.take k).flatten.length + j)
      (Rs.flatten.map (·.2.length))).sum = edgeStart Rs k + ((Rs[k].take j).map (·.2.length)).sum := by
    intro j hj
    rw [← List.map_take]
    conv => lhs; rw [hsplit]
    rw [List.append_assoc, List.take_length_add_append, List.take_append_of_le_length hj]
    simp [edgeStart]
  rw [htake i (by omega), Nat.add_assoc _ i 1, htake (i + 1) (by omega)]
  simp only [toGroup, pure, Option.some.injEq, Group.mk.injEq, true_and]
  rw [List.take_succ_eq_append_getElem hi', List.map_append, List.sum_append, Nat.add_assoc]
  simp

theorem LoadedEdges.mem_runStarts (k : Nat) (hk : k < Rs.length) {x : (Int × List EdgeRecord) × Nat}
    (hx : x ∈ runStarts (edgeStart Rs k) Rs[k]) : x ∈ runStarts 0 Rs.flatten := by
  rw [runs_split k hk, runStarts_append, runStarts_append]
  simp only [List.mem_append]
  exact Or.inl (Or.inr (by simpa [edgeStart] using hx))

theorem LoadedEdges.edgeDst_get (h : LoadedEdges m p Rs sent) {g : Int × List EdgeRecord} {st : Nat}
    (hx : (g, st) ∈ runStarts 0 Rs.flatten) (i : Nat) (hi : i < g.2.length) :
    p.edgeDst[st + i]? = some g.2[i].dst := by
  obtain ⟨_, h1, h2⟩ := slice_runStarts hx (fun g => g.2.map (·.dst)) (by simp) i hi
  rw [h.edgeDst, List.map_flatMap, List.getElem?_append_left (by simpa using h1)]
  simp only [Nat.sub_zero] at h2
  rw [h2, List.getElem?_map, List.getElem?_eq_getElem hi]; rfl

theorem LoadedEdges.edgeWeights_get (h : LoadedEdges m p Rs sent) {g : Int × List EdgeRecord} {st : Nat}
    (hx : (g, st) ∈ runStarts 0 Rs.flatten) (i : Nat) (hi : i < g.2.length) :
    p.edgeWeights[st + i]? = some (fsum 0 ((g.2.map (·.weight)).take (i + 1))) := by
  obtain ⟨_, h1, h2⟩ := slice_runStarts hx (fun g => cumsFrom 0 (g.2.map (·.weight))) (by simp) i hi
  simp only [Nat.sub_zero] at h2
  rw [h.edgeWeights, h2, getElem?_cumsFrom _ _ _ (by simpa using hi)]

/-- The weight reported for edge `i` of a run with weights `ws`. -/
def seenWeight (ws : List Int) (i : Nat) : Int :=
  if i = 0 then fsum 0 (ws.take 1) else f32 (fsum 0 (ws.take (i + 1)) - fsum 0 (ws.take i))

theorem LoadedEdges.edgeWeight (h : LoadedEdges m p Rs sent) {g : Int × List EdgeRecord} {st : Nat}
    (hx : (g, st) ∈ runStarts 0 Rs.flatten) (i : Nat) (hi : i < g.2.length) :
    p.edgeWeight st (st + i) = some (seenWeight (g.2.map (·.weight)) i) := by
  simp only [Partition.edgeWeight, h.edgeWeights_get hx i hi, Option.bind_eq_bind, Option.bind_some,
    seenWeight]
  split
  · rename_i hgt
    have : st + i - 1 = st + (i - 1) := by omega
    rw [this, h.edgeWeights_get hx (i - 1) (by omega), show i - 1 + 1 = i by omega,
      if_neg (by omega)]
    rfl
  · have : i = 0 := by omega
    subst this; simp

theorem mem_of_mem_runStarts {α} {s : Nat} {l : List (Int × List α)} {x : (Int × List α) × Nat}
    (hx : x ∈ runStarts s l) : x.1 ∈ l := by
  rw [← map_fst_runStarts s l]; exact List.mem_map_of_mem hx

theorem walk_subset {α} (key : α → Int) (l : List α) (es : List Int) :
    ∀ x ∈ walk key l es, x ∈ l := fun x hx =>
  (List.mem_filter.1 ((walk_sublist_filter key l es).subset hx)).1

end DeepGNN
