/-
Single precision arithmetic on the weights.  A `float` is kept as an integer multiple of a fixed
power of two; addition and subtraction of floats are exact addition and subtraction of these
integers followed by rounding to 24 significant bits, to nearest, ties to even (IEEE 754, the
default mode).  Overflow to infinity and the loss of bits below the common power of two
(subnormals) are not modelled.
-/

namespace DeepGNN

/-- Round a natural number to 24 significant bits. -/
def round24 (a : Nat) : Nat :=
  if a < 2 ^ 24 then a
  else
    let e := a.log2 - 23
    let q := a / 2 ^ e
    let r := a % 2 ^ e
    (if 2 * r > 2 ^ e ∨ (2 * r = 2 ^ e ∧ q % 2 = 1) then q + 1 else q) * 2 ^ e

/-- The float nearest to an integer. -/
def f32 (x : Int) : Int := if x < 0 then -(round24 x.natAbs : Int) else (round24 x.natAbs : Int)

/-- Running float sum, as in `acc_weight += e.m_weight` (src/cc/lib/graph/partition.cc:316). -/
def fsum (a : Int) (l : List Int) : Int := l.foldl (fun a w => f32 (a + w)) a

theorem f32_small {x : Int} (h : x.natAbs ≤ 2 ^ 24) : f32 x = x := by
  have : round24 x.natAbs = x.natAbs := by
    rcases Nat.lt_or_eq_of_le h with h | h
    · simp [round24, h]
    · rw [h]; decide
  simp only [f32, this]
  split <;> omega

@[simp] theorem f32_zero : f32 0 = 0 := by decide

end DeepGNN
