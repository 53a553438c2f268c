import Verif.Proofs.NodeQuery

namespace DeepGNN

/-- A node map record as seen by the graph: node id, partition, internal id. -/
structure LogEntry where
  id : Int
  part : Nat
  internal : Nat

def logFor (log : List LogEntry) (n : Int) : List LogEntry := log.filter (fun x => x.id = n)

/-- The lookup tables of the graph describe the records read so far. -/
structure GInv (g : Graph) (log : List LogEntry) : Prop where
  lenP : g.partIdx.length = g.internal.length
  lenC : g.counts.length = g.internal.length
  none : ∀ n, g.nodeMap n = Option.none → logFor log n = []
  some : ∀ n off, g.nodeMap n = Option.some off →
    logFor log n ≠ [] ∧
    off + (logFor log n).length ≤ g.internal.length ∧
    g.counts[off]? = Option.some (logFor log n).length ∧
    (g.internal.drop off).take (logFor log n).length = (logFor log n).map (·.internal) ∧
    (g.partIdx.drop off).take (logFor log n).length = (logFor log n).map (·.part)

theorem logFor_snoc_self (log : List LogEntry) (x : LogEntry) :
    logFor (log ++ [x]) x.id = logFor log x.id ++ [x] := by
  simp [logFor, List.filter_append]

theorem logFor_snoc_ne (log : List LogEntry) (x : LogEntry) {n : Int} (h : n ≠ x.id) :
    logFor (log ++ [x]) n = logFor log n := by
  have : ¬ x.id = n := fun e => h e.symm
  simp [logFor, List.filter_append, this]

theorem take_drop_append {α} (l k : List α) (off c : Nat) (h : off + c ≤ l.length) :
    ((l ++ k).drop off).take c = (l.drop off).take c := by
  rw [List.drop_append_of_le_length (by omega), List.take_append_of_le_length (by simp; omega)]

theorem GInv.addNode {g : Graph} {log : List LogEntry} (h : GInv g log) (index : Nat) (r : Int × Nat) :
    ∃ g', g.addNode index r = Option.some g' ∧ GInv g' (log ++ [⟨r.1, index, r.2⟩]) ∧
      g'.parts = g.parts := by
  cases hm : g.nodeMap r.1 with
  | none =>
    simp only [Graph.addNode, hm]
    refine ⟨_, rfl, ?_, rfl⟩
    have h0 := h.none _ hm
    constructor
    · simp [h.lenP]
    · simp [h.lenC]
    · intro n hn
      simp only at hn
      split at hn
      · simp at hn
      · rename_i hne
        rw [logFor_snoc_ne _ _ hne]; exact h.none n hn
    · intro n off hn
      simp only at hn
      split at hn
      · rename_i he
        subst he
        obtain rfl := (Option.some.inj hn).symm
        have := logFor_snoc_self log ⟨r.1, index, r.2⟩
        simp only at this
        rw [this, h0]
        refine ⟨by simp, by simp, ?_, ?_, ?_⟩
        · rw [List.getElem?_append_right (by rw [h.lenC]; omega)]; simp [h.lenC]
        · simp
        · simp [← h.lenP]
      · rename_i hne
        rw [logFor_snoc_ne _ _ hne]
        obtain ⟨h1, h2, h3, h4, h5⟩ := h.some n off hn
        have hlt : 0 < (logFor log n).length := List.length_pos_iff.2 h1
        refine ⟨h1, by simp; omega, ?_, ?_, ?_⟩
        · rw [List.getElem?_append_left (by rw [h.lenC]; omega)]; exact h3
        · rw [take_drop_append _ _ _ _ h2]; exact h4
        · rw [take_drop_append _ _ _ _ (by rw [h.lenP]; exact h2)]; exact h5
  | some old =>
    obtain ⟨o1, o2, o3, o4, o5⟩ := h.some _ _ hm
    have hc : ¬ (old + (logFor log r.1).length > g.internal.length ∨
        old + (logFor log r.1).length > g.partIdx.length) := by rw [h.lenP]; omega
    simp only [Graph.addNode, hm, o3, Option.bind_eq_bind, Option.bind_some, hc, if_false]
    refine ⟨_, rfl, ?_, rfl⟩
    rw [o4, o5]
    constructor
    · simp [h.lenP]
    · simp [h.lenC, Nat.add_assoc]
    · intro n hn
      simp only at hn
      split at hn
      · simp at hn
      · rename_i hne
        rw [logFor_snoc_ne _ _ hne]; exact h.none n hn
    · intro n off hn
      simp only at hn
      split at hn
      · rename_i he
        subst he
        obtain rfl := (Option.some.inj hn).symm
        have := logFor_snoc_self log ⟨r.1, index, r.2⟩
        simp only at this
        rw [this]
        refine ⟨by simp, by simp [Nat.add_assoc], ?_, ?_, ?_⟩
        · rw [List.getElem?_append_right (by rw [h.lenC]; omega)]; simp [h.lenC]
        · simp only [List.append_assoc]
          rw [List.drop_left, List.take_of_length_le (by simp)]
          simp
        · simp only [List.append_assoc]
          rw [← h.lenP, List.drop_left, List.take_of_length_le (by simp)]
          simp
      · rename_i hne
        rw [logFor_snoc_ne _ _ hne]
        obtain ⟨h1, h2, h3, h4, h5⟩ := h.some n off hn
        have hlt : 0 < (logFor log n).length := List.length_pos_iff.2 h1
        refine ⟨h1, by simp; omega, ?_, ?_, ?_⟩
        · rw [List.getElem?_append_left (by rw [h.lenC]; omega)]; exact h3
        · simp only [List.append_assoc]
          rw [take_drop_append _ _ _ _ h2]; exact h4
        · simp only [List.append_assoc]
          rw [take_drop_append _ _ _ _ (by rw [h.lenP]; exact h2)]; exact h5

theorem GInv.addNodes {g : Graph} {log : List LogEntry} (h : GInv g log) (index : Nat)
    (rs : List (Int × Nat)) :
    ∃ g', rs.foldlM (fun g r => g.addNode index r) g = Option.some g' ∧
      GInv g' (log ++ rs.map fun r => ⟨r.1, index, r.2⟩) ∧ g'.parts = g.parts := by
  induction rs generalizing g log with
  | nil => exact ⟨g, rfl, by simpa using h, rfl⟩
  | cons r rs ih =>
    obtain ⟨g1, h1, h2, h3⟩ := h.addNode index r
    obtain ⟨g2, h4, h5, h6⟩ := ih h2
    refine ⟨g2, ?_, by simpa using h5, h6.trans h3⟩
    rw [List.foldlM_cons, h1]; exact h4

/-- A converted partition together with what is in memory after loading it. -/
structure Item where
  files : PartitionFiles
  part : Partition
  blks : List Blk

/-- `it` was loaded from its files. -/
structure ItemOk (C : WeightCodec) (m : Meta) (it : Item) : Prop where
  load : loadPartition C m it.files = some it.part
  map : parseNodeMap it.files.nodeMap = it.blks.zipIdx.map (fun x => (x.1.id, x.2))
  loaded : Loaded m it.part it.blks

def itemLog (i : Nat) (it : Item) : List LogEntry := it.blks.zipIdx.map fun x => ⟨x.1.id, i, x.2⟩

theorem loadGraph_items {C : WeightCodec} {m : Meta} (items : List Item)
    (hok : ∀ it ∈ items, ItemOk C m it) :
    ∃ g, loadGraph C m (items.map fun it => [it.files]) = some g ∧
      g.parts = items.map (·.part) ∧ GInv g (items.zipIdx.flatMap fun x => itemLog x.2 x.1) := by
  suffices H : ∀ (items : List Item) (g0 : Graph) (log : List LogEntry) (i : Nat),
      (∀ it ∈ items, ItemOk C m it) → GInv g0 log →
      ∃ g, ((items.map fun it => [it.files]).zipIdx i).foldlM
          (fun g (x : List PartitionFiles × Nat) => g.loadSuffixes C m x.2 x.1) g0 = some g ∧
        g.parts = g0.parts ++ items.map (·.part) ∧
        GInv g (log ++ (items.zipIdx i).flatMap fun x => itemLog x.2 x.1) by
    have h0 : GInv ({} : Graph) [] := by
      constructor <;> simp [logFor]
    obtain ⟨g, h1, h2, h3⟩ := H items {} [] 0 hok h0
    exact ⟨g, h1, by simpa using h2, by simpa using h3⟩
  intro items
  induction items with
  | nil => intro g0 log i _ h; exact ⟨g0, rfl, by simp, by simpa using h⟩
  | cons it items ih =>
    intro g0 log i hok h
    have hit := hok it (by simp)
    have h' : GInv { g0 with parts := g0.parts ++ [it.part] } log := ⟨h.1, h.2, h.3, h.4⟩
    obtain ⟨g1, h1, h2, h3⟩ := h'.addNodes i (it.blks.zipIdx.map (fun x => (x.1.id, x.2)))
    obtain ⟨g2, h4, h5, h6⟩ := ih g1 _ (i + 1) (fun x hx => hok x (by simp [hx])) h2
    refine ⟨g2, ?_, ?_, ?_⟩
    · rw [List.map_cons, List.zipIdx_cons, List.foldlM_cons]
      simp only [Graph.loadSuffixes, List.foldlM_cons, List.foldlM_nil, hit.load, Option.bind_eq_bind,
        Option.bind_some, Graph.readNodeMap, hit.map, h1]
      exact h4
    · rw [h5, h3]; simp
    · rw [List.zipIdx_cons, List.flatMap_cons]
      simp only [List.map_map] at h6
      simpa [itemLog, Function.comp_def] using h6

theorem mapM_range'_of_slice {β} (f : Nat → Option β) {γ} (l : List γ) (g : γ → β) (off : Nat)
    (h : ∀ i (hi : i < l.length), f (off + i) = some (g l[i])) :
    (List.range' off l.length).mapM f = some (l.map g) := mapM_range' f g l off h

theorem getElem?_of_take_drop {α} {l : List α} {off c : Nat} {k : List α}
    (h : (l.drop off).take c = k) (i : Nat) (hi : i < k.length) : l[off + i]? = k[i]? := by
  rw [← h] at hi ⊢
  rw [List.getElem?_take, if_pos (by simp at hi; omega), List.getElem?_drop]

/-- Where the queries for a node look: every block written for it, in load order. -/
theorem entries_items {items : List Item} {g : Graph}
    (hp : g.parts = items.map (·.part))
    (hg : GInv g (items.zipIdx.flatMap fun x => itemLog x.2 x.1)) (n : Int) :
    g.entries n = some (items.flatMap fun it =>
      (it.blks.zipIdx.filter (fun x => x.1.id = n)).map fun x => (it.part, x.2)) ∧
    (g.nodeMap n = none ↔ ∀ it ∈ items, ∀ b ∈ it.blks, b.id ≠ n) := by
  have hlog : ∀ n, (logFor (items.zipIdx.flatMap fun x => itemLog x.2 x.1) n) =
      items.zipIdx.flatMap fun it => (it.1.blks.zipIdx.filter (fun x => x.1.id = n)).map
        fun x => ⟨x.1.id, it.2, x.2⟩ := by
    intro n
    simp only [logFor, itemLog, List.filter_flatMap]
    congr 1; funext it
    rw [List.filter_map]; rfl
  have hmap : ∀ x ∈ logFor (items.zipIdx.flatMap fun x => itemLog x.2 x.1) n,
      x.part < items.length := by
    intro x hx
    rw [hlog] at hx
    obtain ⟨it, hit, hx⟩ := List.mem_flatMap.1 hx
    obtain ⟨y, hy, rfl⟩ := List.mem_map.1 hx
    have := List.snd_lt_of_mem_zipIdx hit
    simpa using this
  have hnone : (logFor (items.zipIdx.flatMap fun x => itemLog x.2 x.1) n) = [] ↔
      ∀ it ∈ items, ∀ b ∈ it.blks, b.id ≠ n := by
    rw [hlog, List.flatMap_eq_nil_iff]
    constructor
    · intro h it hit b hb hbn
      obtain ⟨i, hi, rfl⟩ := List.mem_iff_getElem.1 hit
      have := h (items[i], i) (by
        rw [List.mem_zipIdx_iff_getElem?]; simp [hi])
      simp only [List.map_eq_nil_iff, List.filter_eq_nil_iff, decide_eq_true_eq] at this
      obtain ⟨j, hj, rfl⟩ := List.mem_iff_getElem.1 hb
      exact this (items[i].blks[j], j) (by rw [List.mem_zipIdx_iff_getElem?]; simp [hj]) hbn
    · intro h it hit
      simp only [List.map_eq_nil_iff, List.filter_eq_nil_iff, decide_eq_true_eq]
      intro x hx
      have h1 : it.1 ∈ items := by
        rw [List.mem_zipIdx_iff_getElem?] at hit; exact List.mem_of_getElem? hit
      have h2 : x.1 ∈ it.1.blks := by
        rw [List.mem_zipIdx_iff_getElem?] at hx; exact List.mem_of_getElem? hx
      exact h _ h1 _ h2
  have hres : ((logFor (items.zipIdx.flatMap fun x => itemLog x.2 x.1) n).map
      fun x => (((items.map (·.part))[x.part]?).getD {}, x.internal)) =
      items.flatMap fun it =>
        (it.blks.zipIdx.filter (fun x => x.1.id = n)).map fun x => (it.part, x.2) := by
    rw [hlog, List.map_flatMap]
    have : items = items.zipIdx.map (·.1) := by rw [List.zipIdx_map_fst]
    conv => rhs; rw [this, List.flatMap_map]
    rw [List.flatMap_def, List.flatMap_def]
    congr 1
    apply List.map_congr_left
    intro it hit
    rw [List.map_map]
    apply List.map_congr_left
    intro x hx
    rw [List.mem_zipIdx_iff_getElem?] at hit
    simp [List.getElem?_map, hit]
  constructor
  · rw [← hres]
    simp only [Graph.entries]
    cases hm : g.nodeMap n with
    | none =>
      simp only
      rw [hg.none n hm]; rfl
    | some off =>
      obtain ⟨h1, h2, h3, h4, h5⟩ := hg.some n off hm
      simp only [h3, Option.bind_eq_bind, Option.bind_some]
      apply mapM_range'
      intro i hi
      rw [getElem?_of_take_drop h5 i (by simpa using hi), getElem?_of_take_drop h4 i (by simpa using hi)]
      have hlt := hmap _ (List.getElem_mem hi)
      simp only [List.getElem?_map, List.getElem?_eq_getElem hi, Option.map_some, Option.bind_some, hp]
      rw [List.getElem?_eq_getElem hlt]
      simp
  · constructor
    · intro h; exact hnone.1 (hg.none n h)
    · intro h
      cases hm : g.nodeMap n with
      | none => rfl
      | some off => exact absurd (hnone.2 h) (hg.some n off hm).1

end DeepGNN
