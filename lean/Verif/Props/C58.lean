import Verif.Proofs.Reject
import Verif.Props.C02

/-
C58 Valid input is converted, invalid input is refused.
-/

namespace DeepGNN

open Spec

/-- For all inputs of all partitions: if ids, types and times are in range, consecutive edges of a node have non-decreasing types, no edge is
created before or removed after its node, the input needs less than `2^64 - 24` bytes per partition, and the metadata
has room for the features, then the conversion of every partition succeeds and the written files can be loaded. -/
theorem C58_accepts (C : WeightCodec) (wm : Option Nat) (parts : List (List (List Rec))) (hv : ∀ calls ∈ parts, ValidPart calls)
    (hsize : ∀ calls ∈ parts, inputSize calls + 24 < 2 ^ 64)
    (hw : ∀ r ∈ edgeRecords parts, C.Valid r.weight) (m : Meta) (hm : 0 ≤ m.watermark → wm ≠ none)
    (hft : ∀ r ∈ allRecords parts, r.features.length ≤ if r.dst = -1 then m.nodeFeatureCount else m.edgeFeatureCount) :
    ∃ fs g, parts.mapM (convertPartition C wm) = some fs ∧ loadGraph C m (fs.map fun f => [f]) = some g ∧ Built C wm m parts g := by
  have hrec : ∀ calls ∈ parts, ∀ r ∈ calls.flatten, r ∈ allRecords parts := by
    intro calls hc r hr
    obtain ⟨l, h1, h2⟩ := List.mem_flatten.1 hr
    exact List.mem_flatten.2 ⟨l, List.mem_flatten.2 ⟨calls, hc, h1⟩, h2⟩
  have hone : ∀ calls ∈ parts, ∃ f, convertPartition C wm calls = some f ∧ FilesFit f ∧ f.nodeFeatureCount ≤ m.nodeFeatureCount ∧
      f.edgeFeatureCount ≤ m.edgeFeatureCount := by
    intro calls hc
    refine convertPartition_some C wm calls (hv calls hc) (hsize calls hc) ?_
    intro r hr
    have := hft r (hrec calls hc r hr)
    constructor
    · intro hd; rwa [if_pos hd] at this
    · intro hd; rwa [if_neg hd] at this
  obtain ⟨fs, h1, h2⟩ : ∃ fs, parts.mapM (convertPartition C wm) = some fs ∧ ∀ f ∈ fs, FilesFit f ∧ f.nodeFeatureCount ≤ m.nodeFeatureCount ∧
      f.edgeFeatureCount ≤ m.edgeFeatureCount := by
    clear hv hsize hw hft hrec hm
    induction parts with
    | nil => exact ⟨[], rfl, by simp⟩
    | cons c parts ih =>
      obtain ⟨f, h1, h2⟩ := hone c (by simp)
      obtain ⟨fs, h3, h4⟩ := ih (fun x hx => hone x (by simp [hx]))
      refine ⟨f :: fs, by rw [List.mapM_cons, h1, h3]; rfl, ?_⟩
      intro x hx
      rcases List.mem_cons.1 hx with rfl | hx
      · exact h2
      · exact h4 x hx
  obtain ⟨g, h3, h4⟩ := C02_load_succeeds C wm parts fs h1 (fun f hf => (h2 f hf).1) (by
    intro r hr
    obtain ⟨l, h5, h6⟩ := List.mem_flatten.1 hr
    obtain ⟨calls, h7, h8⟩ := List.mem_flatten.1 h5
    have hfit := (hv calls h7).fits r (List.mem_flatten.2 ⟨l, h8, h6⟩)
    refine ⟨hfit.src.2, ?_, fun hd => hw r (List.mem_filter.2 ⟨hr, by simpa using hd⟩)⟩
    rcases hfit.dst with h | h <;> omega) m hm (fun f hf => (h2 f hf).2)
  exact ⟨fs, g, h1, h3, h4⟩

/-- Input with ids that do not fit, edge types that decrease, or an edge created before its node or removed after it is refused. Missing:
`removed_at = -1` (never) of an edge and `removed_at = 0` of a node are not checked, see `C58_lifetime_refuted`. -/
theorem C58_refuses_partial (C : WeightCodec) (wm : Option Nat) (calls : List (List Rec))
    (hr : ∀ r ∈ calls.flatten, (r.dst = -1 → r.removed ≠ some 0) ∧ (r.dst ≠ -1 → r.removed ≠ some (-1)))
    (hbad : (∃ r ∈ calls.flatten, ¬ (0 ≤ r.src ∧ r.src < 2 ^ 64) ∨ ¬ (r.dst = -1 ∨ (0 ≤ r.dst ∧ r.dst < 2 ^ 64)) ∨ ¬ r.typ < 2 ^ 31) ∨
      ¬ TypesOrdered calls.flatten ∨ ∃ call ∈ calls, ¬ LifetimesNested 0 none call) : convertPartition C wm calls = none := by
  cases h : convertPartition C wm calls with
  | none => rfl
  | some f =>
    obtain ⟨h1, h2, h3⟩ := convertPartition_checks h hr
    rcases hbad with ⟨r, hm, hb⟩ | hb | ⟨c, hc, hb⟩
    · obtain ⟨k1, k2, k3⟩ := h1 r hm
      rcases hb with hb | hb | hb
      · exact absurd k1 hb
      · exact absurd k2 hb
      · exact absurd k3 hb
    · exact absurd h2 hb
    · exact absurd (h3 c hc) hb

/-- The converter accepts an edge that outlives its node: node 1 is removed at time 5, its edge has `removed_at = -1`, "never". The check
`removed_at <= node_removed_at` compares -1 as a number (writers.py:145-149). -/
theorem C58_lifetime_refuted : ¬ ∀ (wm : Option Nat) (calls : List (List Rec)) (f : PartitionFiles),
    convertPartition intCodec wm calls = some f → ∀ call ∈ calls, LifetimesNested 0 none call := by
  intro h
  have hc : (convertPartition intCodec (some 9) [[⟨1, -1, 0, 1, some 1, some 5, []⟩, ⟨1, 2, 0, 1, some 2, some (-1), []⟩]]).isSome = true := by
    decide +kernel
  obtain ⟨f, hf⟩ := Option.isSome_iff_exists.1 hc
  have := h (some 9) _ f hf _ List.mem_cons_self
  simp [LifetimesNested, removalTime, removalLe] at this

/-! Cases that meet the hypotheses. -/

def exValid : List (List Rec) :=
  [[⟨7, -1, 1, 1, some 1, some 5, [some [1, 2], none]⟩, ⟨7, 3, 0, 2, some 2, some 5, []⟩, ⟨7, 9, 1, 2, none, none, [some [4]]⟩],
   [⟨3, 7, 2, 4, none, some (-1), []⟩, ⟨3, 9, 2, 4, some 0, some 8, []⟩, ⟨9, 3, 0, 1, none, none, []⟩]]

theorem exValid_ok : ValidPart exValid where
  fits := by
    intro r hr
    simp [exValid] at hr
    rcases hr with rfl | rfl | rfl | rfl | rfl | rfl <;> constructor <;> simp [TimeFits]
  types := by
    refine typesOrdered_cons (by decide) (typesOrdered_cons (by decide) (typesOrdered_cons (by decide) (typesOrdered_cons (by decide)
      (typesOrdered_cons (by decide) (typesOrdered_single _)))))
  lifetimes := by
    intro c hc
    simp [exValid] at hc
    rcases hc with rfl | rfl <;> simp [LifetimesNested, removalTime, removalLe]

example : ∃ fs g, [exValid].mapM (convertPartition intCodec (some 9)) = some fs ∧ loadGraph intCodec ⟨2, 1, 9⟩ (fs.map fun f => [f]) = some g ∧
    Built intCodec (some 9) ⟨2, 1, 9⟩ [exValid] g := by
  refine C58_accepts intCodec (some 9) [exValid] (by simpa using exValid_ok) (by simp [inputSize, exValid, recordSize]) ?_ ⟨2, 1, 9⟩ (by simp) ?_
  · intro r hr
    simp [edgeRecords, allRecords, exValid] at hr
    rcases hr with rfl | rfl | rfl | rfl | rfl <;> exact ⟨by decide, by decide⟩
  · intro r hr
    simp [allRecords, exValid] at hr
    rcases hr with rfl | rfl | rfl | rfl | rfl | rfl <;> simp

/-- Refused: decreasing types; an edge older than its node; a negative id. -/
example : convertPartition intCodec none [[⟨1, 2, 1, 1, none, none, []⟩, ⟨1, 3, 0, 1, none, none, []⟩]] = none :=
  C58_refuses_partial _ _ _ (by simp) (.inr (.inl fun h => absurd (h [] _ _ [] rfl (by decide) (by decide) rfl) (by decide)))

example : convertPartition intCodec none [[⟨1, -1, 1, 1, some 4, none, []⟩, ⟨1, 3, 0, 1, some 2, none, []⟩]] = none :=
  C58_refuses_partial _ _ _ (by simp) (.inr (.inr ⟨_, List.mem_cons_self, by simp [LifetimesNested]⟩))

example : convertPartition intCodec none [[⟨-4, -1, 1, 1, some 4, none, []⟩]] = none :=
  C58_refuses_partial _ _ _ (by simp) (.inl ⟨_, List.mem_cons_self, by simp⟩)

end DeepGNN
