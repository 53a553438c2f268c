import Verif.Proofs.PretrainedLoad

/-
C117 Loading a pretrained model gives every parameter the weight of its name.
-/

namespace DeepGNN
open Pretrained Pretrained.Spec

variable {V : Type}

/-- If new names are not taken and no name contains both old words: loading ends with a model or, exactly if a weight has another
shape than its parameter, with an error.  In the model every parameter has the weight with its name of today, and every
other parameter keeps its initial value and is reported.  Missing: new names that are taken (`C117_taken_refuted`), names
with both words (`C117_both_refuted`), and that all parameters are loaded or there is an error
(`C117_missing_refuted`). -/
theorem C117_values_partial (shape : V → List Nat) (hasBert : Bool) (params sd : List (Key × V)) (hw : OneWord sd)
    (hc : NoClash sd) : ∃ pre, PrefixIs hasBert sd pre ∧
      (loadModel shape hasBert params sd = none ↔
        ∃ e ∈ sd, ∃ p ∈ params, pre ++ p.1 = today e.1 ∧ shape e.2 ≠ shape p.2) ∧
      ∀ out missing, loadModel shape hasBert params sd = some (out, missing) →
        out.map (·.1) = params.map (·.1) ∧
        (∀ p ∈ params, ∀ e ∈ sd, pre ++ p.1 = today e.1 → (p.1, e.2) ∈ out ∧ pre ++ p.1 ∉ missing) ∧
        ∀ p ∈ params, (∀ e ∈ sd, pre ++ p.1 ≠ today e.1) → p ∈ out ∧ pre ++ p.1 ∈ missing := by
  obtain ⟨d, hd, hl⟩ := renamed hw hc
  refine ⟨startPrefix hasBert d, startPrefix_is hl hasBert, ?_, ?_⟩
  · rw [loadModel, hd, Option.bind_some]
    simp only
    have hiff : (params.any fun p => (d.lookup (startPrefix hasBert d ++ p.1)).any fun v => decide (shape v ≠ shape p.2)) = true ↔
        ∃ e ∈ sd, ∃ p ∈ params, startPrefix hasBert d ++ p.1 = today e.1 ∧ shape e.2 ≠ shape p.2 := by
      rw [List.any_eq_true]
      constructor
      · rintro ⟨p, hp, h⟩
        cases hv : d.lookup (startPrefix hasBert d ++ p.1) with
        | none => rw [hv] at h; cases h
        | some v =>
          rw [hv] at h
          obtain ⟨k, hk, hke⟩ := (hl _ _).1 hv
          exact ⟨(k, v), hk, p, hp, hke.symm, by simpa using h⟩
      · rintro ⟨e, he, p, hp, h1, h2⟩
        refine ⟨p, hp, ?_⟩
        rw [(hl _ e.2).2 ⟨e.1, he, h1.symm⟩]
        simpa using h2
    rw [← hiff]
    split
    · rename_i h; simp only [h]
    · rename_i h; simp only [h]; simp
  · intro out missing h
    rw [loadModel, hd, Option.bind_some] at h
    simp only at h
    split at h
    · cases h
    · rw [Option.some.injEq, Prod.mk.injEq] at h
      obtain ⟨rfl, rfl⟩ := h
      refine ⟨by simp, ?_, ?_⟩
      · intro p hp e he h1
        have hv := (hl _ e.2).2 ⟨e.1, he, h1.symm⟩
        refine ⟨List.mem_map.2 ⟨p, hp, by rw [hv]; rfl⟩, fun hm => ?_⟩
        have := (List.mem_filter.1 hm).2
        rw [hv] at this; cases this
      · intro p hp hno
        have hv : d.lookup (startPrefix hasBert d ++ p.1) = none := by
          cases hv : d.lookup (startPrefix hasBert d ++ p.1) with
          | none => rfl
          | some v =>
            obtain ⟨k, hk, hke⟩ := (hl _ _).1 hv
            exact absurd hke.symm (hno (k, v) hk)
        exact ⟨List.mem_map.2 ⟨p, hp, by rw [hv]; rfl⟩, List.mem_filter.2 ⟨List.mem_map.2 ⟨p, hp, rfl⟩, by rw [hv]; rfl⟩⟩

/-- What "contains" and "replaced" mean in the names of today: a word is contained if it is a part of the name; a name without it
stays; otherwise its first occurrence is replaced, and then those in the rest. -/
theorem C117_names (word new : Key) (hw : word ≠ []) :
    (∀ k, contains word k = true ↔ ∃ a b, a ++ word ++ b = k) ∧
    (∀ k, (¬∃ a b, a ++ word ++ b = k) → replace word new k = k) ∧
    ∀ a b, (¬∃ x y, x ++ word ++ y = a ++ word.dropLast) → replace word new (a ++ word ++ b) = a ++ new ++ replace word new b :=
  ⟨fun k => contains_iff word k, fun k h => replace_none new k h, fun a b h => replace_first hw new b a h⟩

/-- A new name that is taken: whatever the weight in the old style and the one that has its name of today, the second is lost. -/
theorem C117_taken_refuted (old : Key) (ho : contains "gamma".toList old = true) (hb : contains "beta".toList old = false)
    (hn : ¬IsOld (today old)) (a b : V) (hne : a ≠ b) :
    ∃ d, renameAll (oldNew [(old, a), (today old, b)]) [(old, a), (today old, b)] = some d ∧
      d.lookup (today old) = some a ∧ ∀ k, d.lookup k ≠ some b := by
  have h1 : newKey old = some (today old) := (newKey_eq fun h => Bool.false_ne_true (hb.symm.trans h.2)).1 (Or.inl ho)
  have h2 : newKey (today old) = none := ((newKey_eq fun h => hn (Or.inl h.1)).2 hn).1
  have hne' : today old ≠ old := fun h => hn (by rw [h]; exact Or.inl ho)
  have hps : oldNew [(old, a), (today old, b)] = [(old, today old)] := by simp [oldNew, h1, h2]
  rw [hps]
  refine ⟨setKey ([(old, a), (today old, b)].filter fun e => e.1 ≠ old) (today old) a, ?_, ?_, ?_⟩
  · simp [renameAll]
  · rw [lookup_step, if_pos rfl]
  · intro k
    rw [lookup_step]
    split
    · exact fun h => hne (Option.some.inj h)
    · rename_i hk
      split
      · simp
      · rename_i hk'
        have e1 : (k == old) = false := by simpa using hk'
        have e2 : (k == today old) = false := by simpa using hk
        simp [List.lookup_cons, e1, e2]

/-- A name with both words: only "beta" is replaced, whatever the name; so some name still has "gamma", and its weight is not
loaded. -/
theorem C117_both_refuted : (∀ k : Key, contains "gamma".toList k = true → contains "beta".toList k = true →
      newKey k = some (replace "beta".toList "bias".toList k)) ∧
    ∃ k n : Key, newKey k = some n ∧ contains "gamma".toList n = true := by
  refine ⟨fun k _ hb => ?_, "gamma.beta".toList, "gamma.bias".toList, by decide +kernel, by decide +kernel⟩
  rw [newKey]
  exact if_pos hb

/-- A model none of whose parameters is in the dictionary, as when the weights of the inner model are given to a model with a
head, is returned with its initial values and without an error. -/
theorem C117_missing_refuted (shape : V → List Nat) (hasBert : Bool) (params sd : List (Key × V)) (hw : OneWord sd)
    (hc : NoClash sd) (hno : ∀ pre, PrefixIs hasBert sd pre → ∀ p ∈ params, ∀ e ∈ sd, pre ++ p.1 ≠ today e.1) :
    ∃ missing, loadModel shape hasBert params sd = some (params, missing) := by
  obtain ⟨d, hd, hl⟩ := renamed hw hc
  have hnone : ∀ p ∈ params, d.lookup (startPrefix hasBert d ++ p.1) = none := by
    intro p hp
    cases hv : d.lookup (startPrefix hasBert d ++ p.1) with
    | none => rfl
    | some v =>
      obtain ⟨k, hk, hke⟩ := (hl _ _).1 hv
      exact absurd hke.symm (hno _ (startPrefix_is hl hasBert) p hp (k, v) hk)
  have hany : (params.any fun p => (d.lookup (startPrefix hasBert d ++ p.1)).any fun v => decide (shape v ≠ shape p.2)) = false := by
    rw [List.any_eq_false]
    intro p hp
    rw [hnone p hp]; simp
  have hmap : (params.map fun p => (p.1, (d.lookup (startPrefix hasBert d ++ p.1)).getD p.2)) = params := by
    conv => rhs; rw [← List.map_id params]
    refine List.map_congr_left fun p hp => ?_
    rw [hnone p hp]; rfl
  rw [loadModel, hd, Option.bind_some]
  simp only [hany, hmap]
  exact ⟨_, rfl⟩

/-- Weights in both styles, with values and shapes. -/
def exampleDict : List (Key × List Nat) :=
  [("bert.n.gamma".toList, [1, 2]), ("bert.n.beta".toList, [3]), ("bert.d.weight".toList, [4])]

/-- Parameters of the inner model. -/
def exampleParams : List (Key × List Nat) := [("n.weight".toList, [0, 0]), ("n.bias".toList, [0]), ("p.weight".toList, [0])]

example : OneWord exampleDict := by unfold OneWord exampleDict; decide +kernel
example : NoClash exampleDict := by
  unfold NoClash IsOld exampleDict
  exact ⟨by decide +kernel, by decide +kernel, by decide +kernel⟩
example : loadModel (fun v => [v.length]) false exampleParams exampleDict =
    some ([("n.weight".toList, [1, 2]), ("n.bias".toList, [3]), ("p.weight".toList, [0])], ["bert.p.weight".toList]) := by
  decide +kernel
/-- The same weights for a model that has "bert": nothing is loaded. -/
example : loadModel (fun v => [v.length]) true exampleParams exampleDict =
    some (exampleParams, ["n.weight".toList, "n.bias".toList, "p.weight".toList]) := by decide +kernel
/-- Another shape: an error. -/
example : loadModel (fun v => [v.length]) false [("n.bias".toList, [0, 0])] exampleDict = none := by decide +kernel
example : contains "gamma".toList "n.gamma".toList = true ∧ contains "beta".toList "n.gamma".toList = false ∧
    today "n.gamma".toList = "n.weight".toList := by decide +kernel
example : ¬IsOld (today "n.gamma".toList) := by unfold IsOld; decide +kernel
example : ∀ pre, PrefixIs true exampleDict pre → ∀ p ∈ exampleParams, ∀ e ∈ exampleDict, pre ++ p.1 ≠ today e.1 := by
  intro pre h
  rw [h.2 (by simp)]
  decide +kernel
/-- An occurrence that is the first one. -/
example : ¬∃ x y : Key, x ++ "gamma".toList ++ y = "n.".toList ++ "gamma".toList.dropLast := by
  intro h
  have := (contains_iff "gamma".toList _).2 h
  revert this
  decide +kernel
example : replace "beta".toList "bias".toList "beta.bebeta".toList = "bias.bebias".toList := by decide +kernel

end DeepGNN
