import Verif.Proofs.InitCheckpoint

/-
C121 An encoder that starts from a checkpoint has the checkpoint's weights.
-/

namespace DeepGNN
open Pretrained InitCkpt InitCkpt.Spec

variable {V : Type}

/-- For every checkpoint and encoder, if loading ends without error: every parameter, in order, has the shape it had; its value is that of
a weight of the checkpoint that belongs to it, or its initial value, and then it is in a part that the checkpoint does not have. -/
theorem C121_sources (shape : V → List Nat) (pairs : List (Key × Key)) (params sd out : List (Key × V))
    (h : initFrom shape pairs params sd = some out) : out.map (·.1) = params.map (·.1) ∧
      (out.map fun p => shape p.2) = (params.map fun p => shape p.2) ∧
      ∀ x ∈ out, (∃ e ∈ sd, BelongsTo pairs e.1 x.1 ∧ x.2 = e.2) ∨ (x ∈ params ∧ PartAbsent sd pairs x.1) := by
  rw [initFrom, loadStrict] at h
  split at h
  · rename_i hc
    rw [Bool.and_eq_true, List.all_eq_true] at hc
    cases h
    refine ⟨by simp, ?_, ?_⟩
    · rw [List.map_map]
      refine List.map_congr_left fun p hp => ?_
      have := hc.1 p hp
      cases hv : (extract sd pairs params).lookup p.1 with
      | none => rw [hv] at this; cases this
      | some v =>
        rw [hv] at this
        simp only [Function.comp_def, hv, Option.getD_some]
        simpa using this
    · intro x hx
      obtain ⟨p, hp, rfl⟩ := List.mem_map.1 hx
      have := hc.1 p hp
      cases hv : (extract sd pairs params).lookup p.1 with
      | none => rw [hv] at this; cases this
      | some v => exact mem_extract (lookup_some_mem hv)
  · cases h

/-- So if all weights that belong to a parameter have the same value, and its part is in the checkpoint, that is its value.
Missing: several weights that belong to it (false, `C121_two_refuted`). -/
theorem C121_value_partial (shape : V → List Nat) (pairs : List (Key × Key)) (params sd out : List (Key × V))
    (h : initFrom shape pairs params sd = some out) (k : Key) (v : V) (hk : k ∈ params.map (·.1))
    (hv : ∀ e ∈ sd, BelongsTo pairs e.1 k → e.2 = v) (hp : ¬PartAbsent sd pairs k) : (k, v) ∈ out := by
  obtain ⟨h1, -, h3⟩ := C121_sources shape pairs params sd out h
  rw [← h1] at hk
  obtain ⟨x, hx, rfl⟩ := List.mem_map.1 hk
  rcases h3 x hx with ⟨e, he, h4, h5⟩ | ⟨-, h4⟩
  · rw [← hv e he h4, ← h5]; exact hx
  · exact absurd h4 hp

/-- A parameter for which the checkpoint has no weight, although it has its part, is an error. -/
theorem C121_missing (shape : V → List Nat) (pairs : List (Key × Key)) (params sd : List (Key × V)) (k : Key)
    (hk : k ∈ params.map (·.1)) (hno : ∀ e ∈ sd, ¬BelongsTo pairs e.1 k) (hp : ¬PartAbsent sd pairs k) :
    initFrom shape pairs params sd = none := by
  cases h : initFrom shape pairs params sd with
  | none => rfl
  | some out =>
    obtain ⟨h1, -, h3⟩ := C121_sources shape pairs params sd out h
    rw [← h1] at hk
    obtain ⟨x, hx, rfl⟩ := List.mem_map.1 hk
    rcases h3 x hx with ⟨e, he, h4, -⟩ | ⟨-, h4⟩
    · exact absurd h4 (hno e he)
    · exact absurd h4 hp

/-- Loading ends without error if the names and shapes fit: every parameter has a weight, its prefix being the first in the name, or is in
an absent part; and every weight with a prefix belongs to a parameter of the same shape. -/
theorem C121_succeeds (shape : V → List Nat) (pairs : List (Key × Key)) (params sd : List (Key × V))
    (hnd : (params.map (·.1)).Nodup)
    (hall : ∀ k ∈ params.map (·.1), PartAbsent sd pairs k ∨ ∃ e ∈ sd, ∃ p ∈ pairs, ∃ front name, p.1 ≠ [] ∧
      e.1 = front ++ p.1 ++ name ∧ k = p.2 ++ name ∧ ¬p.1 <:+: front ++ p.1.dropLast)
    (hfit : ∀ e ∈ sd, ∀ k, BelongsTo pairs e.1 k → ∃ v, (k, v) ∈ params ∧ shape e.2 = shape v) :
    (initFrom shape pairs params sd).isSome := by
  have hhas : ∀ k ∈ params.map (·.1), k ∈ (extract sd pairs params).map (·.1) := by
    intro k hk
    refine keepAll_has sd pairs params _ ?_
    rcases hall k hk with ⟨p, hp, h1, h2⟩ | ⟨e, he, p, hp, f, n, h0, h1, h2, h3⟩
    · exact Or.inr ⟨hk, p, hp, absent_exist h2, h1⟩
    · exact Or.inl (takeAll_has pairs sd [] (Or.inr ⟨e, he, p, hp, n, by rw [h1]; exact afterFirst_first h0 n f h3, h2⟩))
  rw [initFrom, loadStrict, if_pos]
  · rfl
  rw [Bool.and_eq_true, List.all_eq_true, List.all_eq_true]
  constructor
  · intro p hp
    obtain ⟨v, hv⟩ := Option.isSome_iff_exists.1 (mem_lookup_isSome.2 (hhas p.1 (List.mem_map.2 ⟨p, hp, rfl⟩)))
    rw [hv]
    have heq : ∀ w, (p.1, w) ∈ params → w = p.2 := by
      intro w hw
      have h1 := (mem_lookup hnd).2 hw
      have h2 := (mem_lookup hnd).2 (show (p.1, p.2) ∈ params from hp)
      rw [h1] at h2
      exact Option.some.inj h2
    have hshape : shape v = shape p.2 := by
      rcases mem_extract (lookup_some_mem hv) with ⟨e, he, h1, h2⟩ | ⟨h1, -⟩
      · obtain ⟨w, hw, hs⟩ := hfit e he _ h1
        rw [show v = e.2 from h2, hs, heq w hw]
      · rw [heq v h1]
    simpa using hshape
  · intro x hx
    rw [mem_lookup_isSome]
    rcases mem_extract hx with ⟨e, he, h1, -⟩ | ⟨h1, -⟩
    · obtain ⟨w, hw, -⟩ := hfit e he _ h1
      exact List.mem_map.2 ⟨_, hw, rfl⟩
    · exact List.mem_map.2 ⟨x, h1, rfl⟩

/-- Two weights whose names differ only in what comes before the prefix, as in a checkpoint with two copies of a model: the later one
replaces the earlier one, without an error. -/
theorem C121_two_refuted (shape : V → List Nat) (src dst first second name : Key) (a b v : V) (ha : shape a = shape v)
    (hb : shape b = shape v) (h1 : afterFirst src (first ++ src ++ name) = some name)
    (h2 : afterFirst src (second ++ src ++ name) = some name) :
    initFrom shape [(src, dst)] [(dst ++ name, v)] [(first ++ src ++ name, a), (second ++ src ++ name, b)] =
        some [(dst ++ name, b)] ∧
      initFrom shape [(src, dst)] [(dst ++ name, v)] [(second ++ src ++ name, b), (first ++ src ++ name, a)] =
        some [(dst ++ name, a)] := by
  generalize first ++ src ++ name = k1 at h1 ⊢
  generalize second ++ src ++ name = k2 at h2 ⊢
  constructor
  · simp [initFrom, extract, takeOne, keepOne, existInSrc, loadStrict, setKey, h1, h2, hb]
  · simp [initFrom, extract, takeOne, keepOne, existInSrc, loadStrict, setKey, h1, h2, ha]

/-- Prefixes of a published checkpoint. -/
def examplePairs : List (Key × Key) := [("bert".toList, "bert_encoder".toList), ("qpooler".toList, "poolers.0".toList)]

/-- The bert part is loaded, the pooler keeps its initial value. -/
example : initFrom (fun v : List Nat => [v.length]) examplePairs
      [("bert_encoder.w".toList, [0, 0]), ("poolers.0.w".toList, [9])] [("m.bert.w".toList, [1, 2]), ("cls.w".toList, [3])] =
    some [("bert_encoder.w".toList, [1, 2]), ("poolers.0.w".toList, [9])] := by decide +kernel
/-- A weight of the bert part is missing: an error. -/
example : initFrom (fun v : List Nat => [v.length]) examplePairs
      [("bert_encoder.w".toList, [0, 0]), ("bert_encoder.b".toList, [0])] [("m.bert.w".toList, [1, 2])] = none := by decide +kernel
/-- Two copies. -/
example : afterFirst "bert".toList ("ema.".toList ++ "bert".toList ++ ".w".toList) = some ".w".toList ∧
    afterFirst "bert".toList ([] ++ "bert".toList ++ ".w".toList) = some ".w".toList := by decide +kernel
/-- A checkpoint that fits. -/
example : (initFrom (fun v : List Nat => [v.length]) [(['b'], ['x'])] [(['x', '.', 'w'], [0])] [(['b', '.', 'w'], [1])]).isSome := by
  refine C121_succeeds _ _ _ _ (by decide) ?_ ?_
  · intro k hk
    right
    refine ⟨_, List.mem_singleton.2 rfl, _, List.mem_singleton.2 rfl, [], ['.', 'w'], by decide, rfl, by simpa using hk, ?_⟩
    simp
  · intro e he k hb
    obtain ⟨p, hp, f, n, h1, h2⟩ := hb
    rw [List.mem_singleton.1 he] at h1 ⊢
    rw [List.mem_singleton.1 hp] at h1 h2
    match f, h1 with
    | [], h1 =>
      simp only [List.nil_append, List.cons_append, List.cons.injEq, true_and] at h1
      exact ⟨[0], by simp [h2, ← h1], rfl⟩
    | [_], h1 => simp at h1
    | [_, _], h1 => simp at h1
    | _ :: _ :: _ :: _, h1 => simp at h1

end DeepGNN
