import Verif.Proofs.GraphQuery

/-
Checking the hypotheses of the theorems on concrete inputs.
-/

namespace DeepGNN

/-- Convert and load. -/
def graphOf (C : WeightCodec) (wm : Option Nat) (m : Meta) (parts : List (List (List Rec))) : Option Graph :=
  (parts.mapM (convertPartition C wm)).bind fun fs => loadGraph C m (fs.map fun f => [f])

/-- The graph loaded from the files of an accepted input satisfies `Built`. -/
theorem built_of (C : WeightCodec) (wm : Option Nat) (m : Meta) (parts : List (List (List Rec)))
    (hc : ∃ fs, parts.mapM (convertPartition C wm) = some fs ∧ ∀ f ∈ fs, FilesFit f ∧
      f.nodeFeatureCount ≤ m.nodeFeatureCount ∧ f.edgeFeatureCount ≤ m.edgeFeatureCount)
    (hok : ∀ r ∈ Spec.allRecords parts, RecOk C r) (hm : 0 ≤ m.watermark → wm ≠ none) :
    ∃ g, graphOf C wm m parts = some g ∧ Built C wm m parts g := by
  obtain ⟨fs, hfs, hp⟩ := hc
  obtain ⟨g, items, h1, -, -⟩ := graph_of_parts hfs (fun f hf => (hp f hf).1) hok m hm
  refine ⟨g, ?_, ⟨fs, hfs, hp, h1⟩, hok, hm⟩
  rw [graphOf, hfs]; exact h1

/-- All conditions of `built_of` as a computation, for concrete inputs. -/
def builtCheck (wm : Option Nat) (m : Meta) (parts : List (List (List Rec))) : Bool :=
  (match parts.mapM (convertPartition intCodec wm) with
    | none => false
    | some fs => fs.all fun f => decide (FilesFit f) && decide (f.nodeFeatureCount ≤ m.nodeFeatureCount)
        && decide (f.edgeFeatureCount ≤ m.edgeFeatureCount)) &&
  (Spec.allRecords parts).all (fun r => decide (r.src < 2 ^ 63 ∧ r.dst < 2 ^ 63 ∧
    -(2 ^ 24) ≤ r.weight ∧ r.weight ≤ 2 ^ 24)) &&
  (decide (m.watermark < 0) || wm.isSome)

theorem built_of_check {wm : Option Nat} {m : Meta} {parts : List (List (List Rec))}
    (h : builtCheck wm m parts = true) :
    ∃ g, graphOf intCodec wm m parts = some g ∧ Built intCodec wm m parts g := by
  simp only [builtCheck, Bool.and_eq_true, List.all_eq_true, decide_eq_true_eq, Bool.or_eq_true] at h
  obtain ⟨⟨h1, h2⟩, h3⟩ := h
  apply built_of
  · split at h1
    · simp at h1
    · rename_i fs hfs
      refine ⟨fs, hfs, ?_⟩
      simp only [List.all_eq_true, Bool.and_eq_true, decide_eq_true_eq] at h1
      exact fun f hf => ⟨(h1 f hf).1.1, (h1 f hf).1.2, (h1 f hf).2⟩
  · intro r hr
    obtain ⟨a, b, c⟩ := h2 r hr
    exact ⟨a, b, fun _ => c⟩
  · intro hm hn
    subst hn
    rcases h3 with h3 | h3
    · omega
    · simp at h3


end DeepGNN
