import Verif.Model.Float
/- Offset tables ("compressed sparse row" layout): general list lemmas. -/

namespace DeepGNN

/-- Start offsets of consecutive blocks of the given sizes. -/
def starts (a : Nat) : List Nat → List Nat
  | [] => []
  | x :: xs => a :: starts (a + x) xs

/-- Start offsets followed by the end of the last block. -/
def offsFrom (a : Nat) (l : List Nat) : List Nat := starts a l ++ [a + l.sum]

@[simp] theorem length_starts (a : Nat) (l : List Nat) : (starts a l).length = l.length := by
  induction l generalizing a with
  | nil => rfl
  | cons x xs ih => simp [starts, ih]

theorem starts_append (a : Nat) (l m : List Nat) :
    starts a (l ++ m) = starts a l ++ starts (a + l.sum) m := by
  induction l generalizing a with
  | nil => simp [starts]
  | cons x xs ih => simp [starts, ih, Nat.add_assoc]

theorem starts_snoc (a : Nat) (l : List Nat) (x : Nat) :
    starts a (l ++ [x]) = starts a l ++ [a + l.sum] := by
  simp [starts_append, starts]

theorem starts_le (a : Nat) (l : List Nat) : ∀ x ∈ starts a l, x ≤ a + l.sum := by
  induction l generalizing a with
  | nil => simp [starts]
  | cons y ys ih =>
    intro x hx
    simp only [starts, List.mem_cons] at hx
    rcases hx with rfl | hx
    · omega
    · have := ih _ _ hx; simp; omega

theorem offsFrom_cons (a x : Nat) (l : List Nat) :
    offsFrom a (x :: l) = a :: offsFrom (a + x) l := by
  simp [offsFrom, starts, Nat.add_assoc]

theorem offsFrom_nil (a : Nat) : offsFrom a [] = [a] := by simp [offsFrom, starts]

@[simp] theorem length_offsFrom (a : Nat) (l : List Nat) : (offsFrom a l).length = l.length + 1 := by
  simp [offsFrom]

theorem getElem?_offsFrom (a : Nat) (l : List Nat) (k : Nat) (h : k ≤ l.length) :
    (offsFrom a l)[k]? = some (a + (l.take k).sum) := by
  induction l generalizing a k with
  | nil =>
    have : k = 0 := by simpa using h
    subst this; simp [offsFrom_nil]
  | cons x xs ih =>
    rw [offsFrom_cons]
    cases k with
    | zero => simp
    | succ k =>
      simp only [List.getElem?_cons_succ, List.take_succ_cons, List.sum_cons]
      rw [ih _ _ (by simpa using h)]
      simp [Nat.add_assoc]

/-- Pair every block of a list of lists with the position where it starts. -/
def withStart {α} (s : Nat) : List (List α) → List (List α × Nat)
  | [] => []
  | r :: rs => (r, s) :: withStart (s + r.length) rs

theorem withStart_append {α} (s : Nat) (a b : List (List α)) :
    withStart s (a ++ b) = withStart s a ++ withStart (s + a.flatten.length) b := by
  induction a generalizing s with
  | nil => simp [withStart]
  | cons x xs ih => simp [withStart, ih, Nat.add_assoc]

theorem map_fst_withStart {α} (s : Nat) (l : List (List α)) : (withStart s l).map (·.1) = l := by
  induction l generalizing s with
  | nil => rfl
  | cons x xs ih => simp [withStart, ih]

theorem map_snd_withStart {α} (s : Nat) (l : List (List α)) :
    (withStart s l).map (·.2) = starts s (l.map List.length) := by
  induction l generalizing s with
  | nil => rfl
  | cons x xs ih => simp [withStart, starts, ih]

@[simp] theorem length_withStart {α} (s : Nat) (l : List (List α)) :
    (withStart s l).length = l.length := by
  induction l generalizing s with
  | nil => rfl
  | cons x xs ih => simp [withStart, ih]

/-- The slice at a block's start position is the block. -/
theorem getElem?_of_mem_withStart {α} {l : List (List α)} {s : Nat} {r : List α} {st : Nat}
    (h : (r, st) ∈ withStart s l) (i : Nat) (hi : i < r.length) :
    s ≤ st ∧ l.flatten[st - s + i]? = r[i]? := by
  induction l generalizing s with
  | nil => simp [withStart] at h
  | cons x xs ih =>
    simp only [withStart, List.mem_cons] at h
    rcases h with h | h
    · obtain ⟨rfl, rfl⟩ := Prod.mk.injEq .. ▸ h
      refine ⟨Nat.le_refl _, ?_⟩
      simp only [List.flatten_cons, Nat.sub_self, Nat.zero_add]
      rw [List.getElem?_append_left hi]
    · obtain ⟨h1, h2⟩ := ih h
      refine ⟨by omega, ?_⟩
      rw [List.flatten_cons, List.getElem?_append_right (by omega), ← h2]
      congr 1; omega

/-- `mapM` over an index range that reads the elements of a known list. -/
theorem mapM_range' {α β} (f : Nat → Option β) (g : α → β) (l : List α) (s : Nat)
    (h : ∀ i (hi : i < l.length), f (s + i) = some (g l[i])) :
    (List.range' s l.length).mapM f = some (l.map g) := by
  induction l generalizing s with
  | nil => simp
  | cons x xs ih =>
    have h0 := h 0 (by simp)
    simp only [Nat.add_zero, List.getElem_cons_zero] at h0
    have := ih (s + 1) (fun i hi => by
      have := h (i + 1) (by simpa using hi)
      simp only [List.getElem_cons_succ] at this
      rw [← this]; congr 1; omega)
    rw [List.length_cons, List.range'_succ, List.mapM_cons, h0, this]
    rfl

theorem mapM_some_map {α β} (f : α → Option β) (g : α → β) (l : List α)
    (h : ∀ a ∈ l, f a = some (g a)) : l.mapM f = some (l.map g) := by
  induction l with
  | nil => simp
  | cons x xs ih =>
    rw [List.mapM_cons, h x (by simp), ih (fun a ha => h a (by simp [ha]))]; rfl

/-- Running sums in single precision. -/
def cumsFrom (a : Int) : List Int → List Int
  | [] => []
  | x :: xs => f32 (a + x) :: cumsFrom (f32 (a + x)) xs

@[simp] theorem length_cumsFrom (a : Int) (l : List Int) : (cumsFrom a l).length = l.length := by
  induction l generalizing a with
  | nil => rfl
  | cons x xs ih => simp [cumsFrom, ih]

theorem getElem?_cumsFrom (a : Int) (l : List Int) (i : Nat) (h : i < l.length) :
    (cumsFrom a l)[i]? = some (fsum a (l.take (i + 1))) := by
  induction l generalizing a i with
  | nil => simp at h
  | cons x xs ih =>
    cases i with
    | zero => simp [cumsFrom, fsum]
    | succ i =>
      simp only [cumsFrom, List.getElem?_cons_succ, List.take_succ_cons]
      rw [ih _ _ (by simpa using h)]
      simp [fsum]

end DeepGNN
