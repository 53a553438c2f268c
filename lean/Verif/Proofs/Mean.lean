import Verif.Spec.Weighted

/-
Means over finite grids of draws.
-/

namespace DeepGNN

variable {α : Type}

def rsum (l : List Rat) : Rat := l.foldr (· + ·) 0

/-- Mean of `f` over a list. -/
def avg (L : List α) (f : α → Rat) : Rat := rsum (L.map f) / L.length

/-- Mean of `f` over all lists of `n` elements of `L`. -/
def mean (L : List α) : Nat → (List α → Rat) → Rat
  | 0, f => f []
  | n + 1, f => avg L fun a => mean L n fun as => f (a :: as)

@[simp] theorem rsum_nil : rsum [] = 0 := rfl
@[simp] theorem rsum_cons (x : Rat) (l : List Rat) : rsum (x :: l) = x + rsum l := rfl

theorem rsum_append (a b : List Rat) : rsum (a ++ b) = rsum a + rsum b := by
  induction a with
  | nil => simp [Rat.zero_add]
  | cons x a ih => simp only [List.cons_append, rsum_cons, ih]; grind

theorem rsum_map_add (L : List α) (f g : α → Rat) : rsum (L.map fun a => f a + g a) = rsum (L.map f) + rsum (L.map g) := by
  induction L with
  | nil => simp [Rat.zero_add]
  | cons x L ih => simp only [List.map_cons, rsum_cons, ih]; grind

theorem rsum_map_mul (L : List α) (c : Rat) (f : α → Rat) : rsum (L.map fun a => c * f a) = c * rsum (L.map f) := by
  induction L with
  | nil => simp
  | cons x L ih => simp only [List.map_cons, rsum_cons, ih]; grind

theorem rsum_map_const (L : List α) (c : Rat) : rsum (L.map fun _ => c) = L.length * c := by
  induction L with
  | nil => simp
  | cons x L ih => simp only [List.map_cons, rsum_cons, ih, List.length_cons, Rat.natCast_add]; grind

theorem length_ne {L : List α} (h : L ≠ []) : (L.length : Rat) ≠ 0 := by
  have := List.length_pos_iff.2 h
  intro h0
  have : ((L.length : Nat) : Rat) = ((0 : Nat) : Rat) := h0
  rw [Rat.natCast_inj] at this
  omega

theorem avg_congr {L : List α} {f g : α → Rat} (h : ∀ a ∈ L, f a = g a) : avg L f = avg L g := by
  rw [avg, avg, List.map_congr_left h]

theorem avg_add (L : List α) (f g : α → Rat) : (avg L fun a => f a + g a) = avg L f + avg L g := by
  simp only [avg, rsum_map_add]; grind

theorem avg_mul (L : List α) (c : Rat) (f : α → Rat) : (avg L fun a => c * f a) = c * avg L f := by
  simp only [avg, rsum_map_mul]; grind

theorem avg_const {L : List α} (h : L ≠ []) (c : Rat) : (avg L fun _ => c) = c := by
  have := length_ne h
  simp only [avg, rsum_map_const]; grind

theorem mean_congr {L : List α} {n : Nat} {f g : List α → Rat}
    (h : ∀ as, as.length = n → (∀ a ∈ as, a ∈ L) → f as = g as) : mean L n f = mean L n g := by
  induction n generalizing f g with
  | zero => exact h [] rfl (by simp)
  | succ n ih =>
    apply avg_congr
    intro a ha
    apply ih
    intro as h1 h2
    exact h (a :: as) (by simp [h1]) (by simpa [ha] using h2)

theorem mean_add (L : List α) (n : Nat) (f g : List α → Rat) : (mean L n fun as => f as + g as) = mean L n f + mean L n g := by
  induction n generalizing f g with
  | zero => rfl
  | succ n ih => simp only [mean, ih, avg_add]

theorem mean_mul (L : List α) (n : Nat) (c : Rat) (f : List α → Rat) : (mean L n fun as => c * f as) = c * mean L n f := by
  induction n generalizing f with
  | zero => rfl
  | succ n ih => simp only [mean, ih, avg_mul]

theorem mean_const {L : List α} (h : L ≠ []) (n : Nat) (c : Rat) : (mean L n fun _ => c) = c := by
  induction n with
  | zero => rfl
  | succ n ih => simp only [mean, ih, avg_const h]

theorem mean_append (L : List α) (m n : Nat) (f : List α → Rat) :
    mean L (m + n) f = mean L m fun as => mean L n fun bs => f (as ++ bs) := by
  induction m generalizing f with
  | zero => simp [mean]
  | succ m ih =>
    rw [Nat.succ_add]
    simp only [mean, ih, List.cons_append]

/-- The mean of a sum over the draws. -/
theorem mean_sum {L : List α} (h : L ≠ []) (n : Nat) (f : α → Rat) :
    (mean L n fun as => rsum (as.map f)) = n * avg L f := by
  induction n with
  | zero => simp [mean]
  | succ n ih =>
    simp only [mean, List.map_cons, rsum_cons]
    have : ∀ a, (mean L n fun as => f a + rsum (as.map f)) = f a + n * avg L f := by
      intro a
      rw [mean_add, mean_const h, ih]
    simp only [this]
    rw [avg_add, avg_const h, Rat.natCast_add]
    grind

/-- Exchange of two means. -/
theorem avg_comm {β : Type} (L : List α) (K : List β) (f : α → β → Rat) :
    (avg L fun a => avg K fun b => f a b) = avg K fun b => avg L fun a => f a b := by
  have : rsum (L.map fun a => rsum (K.map fun b => f a b)) = rsum (K.map fun b => rsum (L.map fun a => f a b)) := by
    induction L with
    | nil => simp [rsum_map_const]
    | cons x L ih =>
      simp only [List.map_cons, rsum_cons, ih, rsum_map_add]
  simp only [avg]
  have e1 : ∀ (M : List α) (c : Rat) (g : α → Rat), (rsum (M.map fun a => g a / c)) = rsum (M.map g) / c := by
    intro M c g
    have : (fun a => g a / c) = fun a => c⁻¹ * g a := by funext a; grind
    rw [this, rsum_map_mul]; grind
  have e2 : ∀ (M : List β) (c : Rat) (g : β → Rat), (rsum (M.map fun a => g a / c)) = rsum (M.map g) / c := by
    intro M c g
    have : (fun a => g a / c) = fun a => c⁻¹ * g a := by funext a; grind
    rw [this, rsum_map_mul]; grind
  rw [e1, e2, this]; grind

theorem mean_avg_comm {β : Type} (L : List α) (K : List β) (n : Nat) (f : List α → β → Rat) :
    (mean L n fun as => avg K fun b => f as b) = avg K fun b => mean L n fun as => f as b := by
  induction n generalizing f with
  | zero => rfl
  | succ n ih => simp only [mean, ih, avg_comm L K]

theorem mean_comm {β : Type} (L : List α) (K : List β) (m n : Nat) (f : List α → List β → Rat) :
    (mean L m fun as => mean K n fun bs => f as bs) = mean K n fun bs => mean L m fun as => f as bs := by
  induction n generalizing f with
  | zero => rfl
  | succ n ih => simp only [mean, mean_avg_comm, ih]

end DeepGNN
