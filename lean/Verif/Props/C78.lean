import Verif.Proofs.Generator

/-
C78 Every seed gives a generator that never gets stuck, and different seeds give different results.
-/

namespace DeepGNN

open Generator

theorem low_eq_iff (x y : BitVec 64) : x &&& 1#64 = y &&& 1#64 ↔ x.toNat % 2 = y.toNat % 2 := by
  rw [← BitVec.toNat_inj, BitVec.toNat_and, BitVec.toNat_and]
  show x.toNat &&& 1 = y.toNat &&& 1 ↔ _
  rw [Nat.and_one_is_mod, Nat.and_one_is_mod]

theorem draw_window (seed : BitVec 64) (m i : Nat) : (next (run i (run m (ofSeed seed)))).1 = draw seed (m + i) := by
  rw [← run_add]
  rfl

/-- **C78_seeds.** Two calls with different seeds below 2^64: among any 128 successive draws, from any draw number on, there
is one where the two generators give different results, of different parity. -/
theorem C78_seeds {a b : Int} (ha : 0 ≤ a ∧ a < 2 ^ 64) (hb : 0 ≤ b ∧ b < 2 ^ 64) (hab : a ≠ b) (m : Nat) :
    ∃ n, m ≤ n ∧ n < m + 128 ∧ (draw (pySeed a) n).toNat % 2 ≠ (draw (pySeed b) n).toNat % 2 := by
  apply Classical.byContradiction
  intro hno
  have hs : run m (ofSeed (pySeed a)) = run m (ofSeed (pySeed b)) := by
    apply lows_injective
    apply lows_congr
    intro i hi
    rw [low_eq_iff, draw_window, draw_window]
    apply Classical.byContradiction
    intro hne
    exact hno ⟨m + i, by omega, by omega, hne⟩
  have h1 := ofSeed_injective (run_injective hs)
  have h2 := congrArg BitVec.toNat h1
  simp only [pySeed, BitVec.toNat_ofInt] at h2
  omega

/-- The one state whose next 128 results are all odd. -/
def Generator.oddState : State := ⟨0xe3b3abb4b39495b9#64, 0xe9d1475ce937edb8#64⟩

theorem oddState_odd : ∀ i < 128, (next (run i oddState)).1.toNat % 2 = 1 := by decide +kernel

theorem oddState_stops : (next (run 128 oddState)).1.toNat % 2 = 0 := by decide +kernel

/-- **C78_alive.** For every seed, any 129 successive draws contain an even and an odd result: the generator never dies,
sticks or repeats a single value. -/
theorem C78_alive (seed : BitVec 64) (m : Nat) :
    (∃ n, m ≤ n ∧ n < m + 129 ∧ (draw seed n).toNat % 2 = 0) ∧ (∃ n, m ≤ n ∧ n < m + 129 ∧ (draw seed n).toNat % 2 = 1) := by
  constructor
  · apply Classical.byContradiction
    intro hno
    have hodd : ∀ i < 129, (draw seed (m + i)).toNat % 2 = 1 := by
      intro i hi
      have h := Nat.mod_two_eq_zero_or_one (draw seed (m + i)).toNat
      rcases h with h | h
      · exact absurd ⟨m + i, by omega, by omega, h⟩ hno
      · exact h
    have hs : run m (ofSeed seed) = oddState := by
      apply lows_injective
      apply lows_congr
      intro i hi
      rw [low_eq_iff, draw_window, hodd i (by omega), oddState_odd i hi]
    have h := hodd 128 (by omega)
    rw [← draw_window, hs, oddState_stops] at h
    exact absurd h (by decide)
  · apply Classical.byContradiction
    intro hno
    have hs : run m (ofSeed seed) = ⟨0, 0⟩ := by
      apply lows_injective
      apply lows_congr
      intro i hi
      rw [low_eq_iff, draw_window, run_zero_state]
      rcases Nat.mod_two_eq_zero_or_one (draw seed (m + i)).toNat with h | h
      · rw [h]; rfl
      · exact absurd ⟨m + i, by omega, by omega, h⟩ hno
    exact run_ne_zero (ofSeed_ne_zero seed) m hs

/-- **C78_recurs.** The results of every seed repeat from the start: some period brings back every draw. -/
theorem C78_recurs (seed : BitVec 64) : ∃ p, 0 < p ∧ p ≤ 2 ^ 128 ∧ ∀ n, draw seed (n + p) = draw seed n := by
  obtain ⟨p, hp, hle, h⟩ := run_returns (ofSeed seed)
  refine ⟨p, hp, hle, fun n => ?_⟩
  unfold draw
  rw [Nat.add_comm, run_add, h]

/-- The first results of seeds 0 and 1 and of Python's -1, which is 2^64 - 1. -/
example : draw (pySeed 0) 0 = 0x509946a41cd733a3#64 ∧ draw (pySeed 0) 0 ≠ draw (pySeed 1) 0 ∧ pySeed (-1) = pySeed (2 ^ 64 - 1) := by
  decide +kernel

/-- C78_seeds and C78_alive meet actual seeds. -/
example : (∃ n, 5 ≤ n ∧ n < 5 + 128 ∧ (draw (pySeed 0) n).toNat % 2 ≠ (draw (pySeed (2 ^ 64 - 1)) n).toNat % 2) ∧
    ∃ n, 1000 ≤ n ∧ n < 1000 + 129 ∧ (draw (pySeed 42) n).toNat % 2 = 0 :=
  ⟨C78_seeds (by decide) (by decide) (by decide) 5, (C78_alive (pySeed 42) 1000).1⟩

end DeepGNN
