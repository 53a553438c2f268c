import Verif.Proofs.Remote
import Verif.Proofs.GraphQuery

/-
The tables of a node in a graph are those of its partitions, so distributing the partitions over several graphs
only reorders them.
-/

namespace DeepGNN

variable {C : WeightCodec} {wm : Option Nat} {m : Meta} {parts : List (List (List Rec))} {g : Graph}

/-- Entries of node `n` in the files of a partition. -/
def fileEntries (C : WeightCodec) (m : Meta) (n : Int) (f : PartitionFiles) : List (Partition × Nat) :=
  match loadPartition C m f with
  | none => []
  | some p => ((parseNodeMap f.nodeMap).filter fun x => x.1 = n).map fun x => (p, x.2)

/-- Entries of node `n` in a partition converted from `part`. -/
def partEntries (C : WeightCodec) (wm : Option Nat) (m : Meta) (n : Int) (part : List (List Rec)) : List (Partition × Nat) :=
  match convertPartition C wm part with
  | none => []
  | some f => fileEntries C m n f

theorem flatMap_partEntries (n : Int) {fs : List PartitionFiles} (h : parts.mapM (convertPartition C wm) = some fs) :
    parts.flatMap (partEntries C wm m n) = fs.flatMap (fileEntries C m n) := by
  induction parts generalizing fs with
  | nil =>
    obtain rfl : [] = fs := by simpa using h
    rfl
  | cons p ps ih =>
    rw [List.mapM_cons] at h
    obtain ⟨f, h1, h2⟩ := Option.bind_eq_some_iff.1 h
    obtain ⟨fs', h3, h4⟩ := Option.bind_eq_some_iff.1 h2
    obtain rfl : f :: fs' = fs := by simpa using h4
    rw [List.flatMap_cons, List.flatMap_cons, ih h3, partEntries, h1]

theorem Built.entries (h : Built C wm m parts g) (n : Int) :
    g.entries n = some (parts.flatMap (partEntries C wm m n)) := by
  obtain ⟨items, hg, hc, -⟩ := h.exists_items
  rw [(entries_items hg.parts_eq hg.inv n).1, flatMap_partEntries n hc, List.flatMap_map]
  congr 1
  rw [List.flatMap_def, List.flatMap_def]
  congr 1
  apply List.map_congr_left
  intro it hit
  rw [fileEntries, (hg.ok it hit).load, (hg.ok it hit).map]
  simp only [List.filter_map, List.map_map, Function.comp_def]

theorem mapM_eq_map {α β : Type} [Inhabited β] {q : α → Option β} {l : List α} {r : List β} (h : l.mapM q = some r) :
    (∀ a ∈ l, q a = some ((q a).getD default)) ∧ r = l.map fun a => (q a).getD default := by
  induction l generalizing r with
  | nil =>
    obtain rfl : [] = r := by simpa using h
    simp
  | cons a l ih =>
    rw [List.mapM_cons] at h
    obtain ⟨x, h1, h2⟩ := Option.bind_eq_some_iff.1 h
    obtain ⟨xs, h3, h4⟩ := Option.bind_eq_some_iff.1 h2
    obtain rfl : x :: xs = r := by simpa using h4
    obtain ⟨h5, h6⟩ := ih h3
    constructor
    · intro b hb
      rcases List.mem_cons.1 hb with rfl | hb
      · rw [h1]; rfl
      · exact h5 b hb
    · rw [List.map_cons, h1, h6]; rfl

/-- A query answered partition by partition: the answers of the servers, together, are those of the local graph. -/
theorem distribute {β : Type} [Inhabited β] (q : Partition × Nat → Option β) (h : Built C wm m parts g)
    (servers : List (List (List (List Rec)) × Graph)) (hs : ∀ s ∈ servers, Built C wm m s.1 s.2)
    (hp : (servers.flatMap (·.1)).Perm parts) (n : Int) {rs : List β}
    (hr : (g.entries n).bind (fun es => es.mapM q) = some rs) :
    ∃ ans : List (List (List Rec)) → List β,
      (∀ s ∈ servers, (s.2.entries n).bind (fun es => es.mapM q) = some (ans s.1)) ∧
      (servers.flatMap fun s => ans s.1).Perm rs := by
  rw [h.entries n, Option.bind_some] at hr
  obtain ⟨h1, rfl⟩ := mapM_eq_map hr
  refine ⟨fun ps => (ps.flatMap (partEntries C wm m n)).map fun a => (q a).getD default, ?_, ?_⟩
  · intro s hsm
    rw [(hs s hsm).entries n, Option.bind_some]
    apply mapM_some_map
    intro a ha
    apply h1
    obtain ⟨p, hp1, hp2⟩ := List.mem_flatMap.1 ha
    exact List.mem_flatMap.2 ⟨p, hp.mem_iff.1 (List.mem_flatMap.2 ⟨s, hsm, hp1⟩), hp2⟩
  · rw [← List.map_flatMap]
    apply List.Perm.map
    have : (servers.flatMap fun s => s.1.flatMap (partEntries C wm m n)) =
        (servers.flatMap (·.1)).flatMap (partEntries C wm m n) := by rw [List.flatMap_assoc]
    rw [this]
    exact hp.flatMap_right _

end DeepGNN
