import Verif.Model.SkipGrams
import Verif.Spec.SkipGrams

/-
C39: skip-gram generation.
-/

namespace DeepGNN

open SkipGrams

namespace SkipGrams

theorem flatMap_congr_mem {α β : Type} {l : List α} {f g : α → List β} (h : ∀ a, a ∈ l → f a = g a) :
    l.flatMap f = l.flatMap g := by
  induction l with
  | nil => rfl
  | cons a l ih =>
    rw [List.flatMap_cons, List.flatMap_cons, h a List.mem_cons_self, ih (fun b hb => h b (List.mem_cons_of_mem _ hb))]

theorem filterMap_congr_mem {α β : Type} {l : List α} {f g : α → Option β} (h : ∀ a, a ∈ l → f a = g a) :
    l.filterMap f = l.filterMap g := by
  induction l with
  | nil => rfl
  | cons a l ih =>
    rw [List.filterMap_cons, List.filterMap_cons, h a List.mem_cons_self, ih (fun b hb => h b (List.mem_cons_of_mem _ hb))]

/-- Pairs of one position, in the order they are written. -/
def innerOut {α : Type} (path : List α) (j : Nat) (ks : List Nat) : List (α × α) :=
  ks.filterMap fun k => if k = j then none else (path[j]?).bind fun a => (path[k]?).map fun b => (a, b)

def onePathOut {α : Type} (left : Nat) (path : List α) (len : Nat) (js : List Nat) : List (α × α) :=
  js.flatMap fun j => innerOut path j (List.range' (max 0 (j - left)) (min (len - 1) (j + left) + 1 - max 0 (j - left)))

/-- Writing a list of pairs one after the other. -/
def puts {α : Type} (o : Out α) : List (α × α) → Option (Out α)
  | [] => some o
  | p :: ps => (put o p.1 p.2).bind (puts · ps)

theorem puts_append {α : Type} (o : Out α) (a b : List (α × α)) :
    puts o (a ++ b) = (puts o a).bind (puts · b) := by
  induction a generalizing o with
  | nil => rfl
  | cons p ps ih =>
    simp only [List.cons_append, puts]
    cases put o p.1 p.2 with
    | none => rfl
    | some o1 => exact ih o1

theorem inner_puts {α : Type} (path : List α) (j : Nat) (hj : j < path.length) :
    ∀ (ks : List Nat) (o : Out α), (∀ k, k ∈ ks → k < path.length) → inner path j ks o = puts o (innerOut path j ks)
  | [], o, _ => rfl
  | k :: ks, o, h => by
    have ih := fun o => inner_puts path j hj ks o (fun k hk => h k (List.mem_cons_of_mem _ hk))
    have hk := h k List.mem_cons_self
    rw [inner, innerOut]
    by_cases e : k = j
    · rw [if_pos e, List.filterMap_cons, if_pos e]; exact ih o
    · rw [if_neg e, List.filterMap_cons, if_neg e]
      simp only [List.getElem?_eq_getElem hj, List.getElem?_eq_getElem hk, Option.bind_some, Option.map_some, puts]
      cases put o path[j] path[k] with
      | none => rfl
      | some o1 =>
        rw [Option.bind_some, Option.bind_some, ih o1, innerOut]
        simp only [List.getElem?_eq_getElem hj, Option.bind_some]

theorem onePath_puts {α : Type} (left : Nat) (path : List α) :
    ∀ (js : List Nat) (o : Out α), (∀ j, j ∈ js → j < path.length) →
      onePath left path path.length js o = puts o (onePathOut left path path.length js)
  | [], o, _ => rfl
  | j :: js, o, h => by
    have hj := h j List.mem_cons_self
    rw [onePath, onePathOut, List.flatMap_cons, puts_append]
    rw [inner_puts path j hj]
    · cases puts o (innerOut path j _) with
      | none => rfl
      | some o1 => exact onePath_puts left path js o1 (fun j hj => h j (List.mem_cons_of_mem _ hj))
    · intro k hk
      rw [List.mem_range'_1] at hk
      omega

theorem allPaths_puts {α : Type} (left len : Nat) :
    ∀ (paths : List (List α)) (o : Out α), (∀ p, p ∈ paths → p.length = len) →
      allPaths left len paths o = puts o (paths.flatMap fun p => onePathOut left p len (List.range len))
  | [], o, _ => rfl
  | p :: ps, o, h => by
    have hp := h p List.mem_cons_self
    subst hp
    rw [allPaths, List.flatMap_cons, puts_append, onePath_puts left p _ _ (fun j hj => List.mem_range.1 hj)]
    cases puts o (onePathOut left p p.length (List.range p.length)) with
    | none => rfl
    | some o1 => exact allPaths_puts left p.length ps o1 (fun q hq => h q (List.mem_cons_of_mem _ hq))

theorem puts_eq {α : Type} (ps : List (α × α)) :
    ∀ (done : List (Option (α × α))) (n : Nat),
      puts ⟨done ++ List.replicate n none, done.length⟩ ps =
        if ps.length ≤ n then some ⟨done ++ ps.map some ++ List.replicate (n - ps.length) none, done.length + ps.length⟩ else none := by
  induction ps with
  | nil => intro done n; simp [puts]
  | cons p ps ih =>
    intro done n
    rw [puts, put]
    cases n with
    | zero => simp
    | succ n =>
      simp only [List.length_append, List.length_replicate]
      rw [if_pos (by omega), Option.bind_some]
      have e : (done ++ List.replicate (n + 1) none).set done.length (some (p.1, p.2)) =
          (done ++ [some p]) ++ List.replicate n none := by
        rw [List.set_append_right _ _ (Nat.le_refl _), Nat.sub_self, List.replicate_succ, List.set_cons_zero]
        simp
      have e2 : done.length + 1 = (done ++ [some p]).length := by simp
      rw [e, e2, ih]
      simp only [List.length_append, List.length_cons, List.length_nil, List.map_cons, Nat.add_le_add_iff_right]
      by_cases h : ps.length ≤ n
      · rw [if_pos h, if_pos h]
        simp [Nat.add_assoc, Nat.add_comm 1]
      · rw [if_neg h, if_neg h]

theorem filter_range_window {a b n : Nat} (hab : a ≤ b) (hbn : b ≤ n) :
    (List.range n).filter (fun k => decide (a ≤ k ∧ k < b)) = List.range' a (b - a) := by
  have e : List.range n = List.range' 0 a ++ (List.range' a (b - a) ++ List.range' b (n - b)) := by
    rw [List.range_eq_range']
    have h1 := List.range'_append_1 (s := a) (m := b - a) (n := n - b)
    have h2 := List.range'_append_1 (s := 0) (m := a) (n := n - a)
    rw [show a + (b - a) = b by omega, show b - a + (n - b) = n - a by omega] at h1
    rw [h1]
    rw [Nat.zero_add, show a + (n - a) = n by omega] at h2
    exact h2.symm
  rw [e, List.filter_append, List.filter_append]
  have f1 : (List.range' 0 a).filter (fun k => decide (a ≤ k ∧ k < b)) = [] := by
    rw [List.filter_eq_nil_iff]
    intro k hk
    rw [List.mem_range'_1] at hk
    simp; omega
  have f2 : (List.range' b (n - b)).filter (fun k => decide (a ≤ k ∧ k < b)) = [] := by
    rw [List.filter_eq_nil_iff]
    intro k hk
    rw [List.mem_range'_1] at hk
    simp; omega
  have f3 : (List.range' a (b - a)).filter (fun k => decide (a ≤ k ∧ k < b)) = List.range' a (b - a) := by
    rw [List.filter_eq_self]
    intro k hk
    rw [List.mem_range'_1] at hk
    simp; omega
  rw [f1, f2, f3]; simp

theorem filterMap_if {α β : Type} (l : List α) (p : α → Prop) [DecidablePred p] (f : α → Option β) :
    l.filterMap (fun k => if p k then f k else none) = (l.filter (fun k => decide (p k))).filterMap f := by
  induction l with
  | nil => rfl
  | cons a l ih =>
    by_cases h : p a
    · rw [List.filterMap_cons, if_pos h, List.filter_cons_of_pos (by simpa using h), List.filterMap_cons, ih]
    · rw [List.filterMap_cons, if_neg h, List.filter_cons_of_neg (by simpa using h), ih]

/-- The specification's pairs of position `j`, as pairs over an interval. -/
theorem window_eq {α : Type} (left right : Nat) (path : List α) {j : Nat} (hj : j < path.length) :
    (List.range path.length).filterMap (fun k =>
      if Spec.InWindow left right j k then (path[j]?).bind fun a => (path[k]?).map fun b => (a, b) else none) =
    innerOut path j (List.range' (max 0 (j - left)) (min (path.length - 1) (j + right) + 1 - max 0 (j - left))) := by
  rw [innerOut, ← filter_range_window (n := path.length) (by omega) (by omega), ← filterMap_if]
  refine filterMap_congr_mem fun k hk => ?_
  rw [List.mem_range] at hk
  by_cases e : k = j
  · rw [if_neg (fun h => h.1 e)]
    simp [e]
  · by_cases w : Spec.InWindow left right j k
    · have w2 := w.2
      rw [if_pos w, if_pos (by omega), if_neg e]
    · rw [if_neg w, if_neg (fun h => w ⟨e, by omega, by omega⟩)]

theorem innerOut_length {α : Type} (path : List α) {j : Nat} (hj : j < path.length) {a m : Nat} (h1 : a ≤ j) (h2 : j < a + m)
    (h3 : a + m ≤ path.length) : (innerOut path j (List.range' a m)).length = m - 1 := by
  have e : List.range' a m = List.range' a (j - a) ++ (j :: List.range' (j + 1) (a + m - (j + 1))) := by
    have q1 := List.range'_append_1 (s := a) (m := j - a) (n := a + m - j)
    rw [show a + (j - a) = j by omega, show j - a + (a + m - j) = m by omega] at q1
    rw [← q1, show a + m - j = (a + m - (j + 1)) + 1 by omega, List.range'_succ]
  have key : ∀ ks : List Nat, (∀ k, k ∈ ks → k < path.length ∧ k ≠ j) → (innerOut path j ks).length = ks.length := by
    intro ks
    induction ks with
    | nil => intro _; rfl
    | cons k ks ih =>
      intro h
      have hk := h k List.mem_cons_self
      rw [innerOut, List.filterMap_cons, if_neg hk.2]
      simp only [List.getElem?_eq_getElem hj, List.getElem?_eq_getElem hk.1, Option.bind_some, Option.map_some, List.length_cons]
      have := ih (fun k hk => h k (List.mem_cons_of_mem _ hk))
      rw [innerOut] at this
      simp only [List.getElem?_eq_getElem hj, Option.bind_some] at this
      omega
  rw [e, innerOut, List.filterMap_append, List.filterMap_cons, if_pos rfl, List.length_append]
  have k1 := key (List.range' a (j - a)) (fun k hk => by rw [List.mem_range'_1] at hk; omega)
  have k2 := key (List.range' (j + 1) (a + m - (j + 1))) (fun k hk => by rw [List.mem_range'_1] at hk; omega)
  rw [innerOut] at k1 k2
  rw [k1, k2, List.length_range', List.length_range']
  omega

theorem foldl_add_sum (f : Nat → Nat) (l : List Nat) (n : Nat) : l.foldl (fun c i => c + f i) n = n + (l.map f).sum := by
  induction l generalizing n with
  | nil => rfl
  | cons a l ih => rw [List.foldl_cons, ih, List.map_cons, List.sum_cons]; omega

end SkipGrams

/-- `get_skipgrams_size` is the number of skip-grams of a path, whatever its length and the two window sizes. -/
theorem C39_size {α : Type} (path : List α) (hp : path ≠ []) (left right : Nat) :
    size path.length left right = some (Spec.skipGrams left right path).length := by
  have h0 : path.length > 0 := by cases path with | nil => exact absurd rfl hp | cons a l => simp
  rw [size, if_pos h0, foldl_add_sum (fun i => (i - max 0 (i - left)) + (min (path.length - 1) (i + right) - i)), Nat.zero_add,
    Spec.skipGrams, List.length_flatMap]
  congr 2
  refine List.map_congr_left fun j hj => ?_
  rw [List.mem_range] at hj
  rw [window_eq left right path hj, innerOut_length path hj (by omega) (by omega) (by omega)]
  omega

theorem SkipGrams.onePathOut_eq {α : Type} (left : Nat) (path : List α) :
    onePathOut left path path.length (List.range path.length) = Spec.skipGrams left left path := by
  rw [onePathOut, Spec.skipGrams]
  refine flatMap_congr_mem fun j hj => ?_
  rw [List.mem_range] at hj
  rw [window_eq left left path hj]

theorem SkipGrams.length_flatMap_const {α β : Type} (l : List α) (f : α → List β) (n : Nat) (h : ∀ a, a ∈ l → (f a).length = n) :
    (l.flatMap f).length = l.length * n := by
  induction l with
  | nil => simp
  | cons a l ih =>
    rw [List.flatMap_cons, List.length_append, h a List.mem_cons_self, ih (fun b hb => h b (List.mem_cons_of_mem _ hb)),
      List.length_cons, Nat.add_mul]
    omega

/-- What `gen_skipgrams` does for any two windows: it produces the skip-grams of a window of the left size on both sides;
if these are more than announced it fails, if they are fewer the remaining entries are uninitialised memory. -/
theorem C39_actual {α : Type} (paths : List (List α)) {len : Nat} (hl : 0 < len) (hp : ∀ p, p ∈ paths → p.length = len)
    (left right : Nat) :
    gen paths len left right =
      (size len left right).bind fun n =>
        let out := paths.flatMap (Spec.skipGrams left left)
        if out.length ≤ paths.length * n then
          some (out.map some ++ List.replicate (paths.length * n - out.length) none)
        else none := by
  rw [gen]
  cases hs : size len left right with
  | none => rfl
  | some n =>
    rw [Option.bind_some, Option.bind_some, allPaths_puts left len paths _ hp]
    have e : (paths.flatMap fun p => onePathOut left p len (List.range len)) = paths.flatMap (Spec.skipGrams left left) := by
      refine flatMap_congr_mem fun p hpm => ?_
      have := hp p hpm
      subst this
      exact onePathOut_eq left p
    have := puts_eq (paths.flatMap (Spec.skipGrams left left)) [] (paths.length * n)
    simp only [List.nil_append, List.length_nil] at this
    rw [e, this]
    simp only
    split <;> rfl

/-- With the same window size on both sides `gen_skipgrams` succeeds and returns exactly the skip-grams of every path,
all entries written, as many as `get_skipgrams_size` announces per path. -/
theorem C39_pairs_partial {α : Type} (paths : List (List α)) {len : Nat} (hl : 0 < len) (hp : ∀ p, p ∈ paths → p.length = len)
    (window : Nat) :
    gen paths len window window = some ((paths.flatMap (Spec.skipGrams window window)).map some) ∧
    ∀ n, size len window window = some n → (paths.flatMap (Spec.skipGrams window window)).length = paths.length * n := by
  have hlen : ∀ n, size len window window = some n → (paths.flatMap (Spec.skipGrams window window)).length = paths.length * n := by
    intro n hn
    refine length_flatMap_const _ _ n fun p hpm => ?_
    have e := hp p hpm
    have hne : p ≠ [] := by
      intro h; subst h; simp at e; omega
    have := C39_size p hne window window
    rw [e, hn] at this
    exact (Option.some.inj this).symm
  refine ⟨?_, hlen⟩
  rw [C39_actual paths hl hp]
  cases hs : size len window window with
  | none => rw [size, if_pos hl] at hs; exact absurd hs (by simp)
  | some n =>
    rw [Option.bind_some]
    simp only
    rw [hlen n hs, if_pos (Nat.le_refl _), Nat.sub_self]
    simp

example : gen [[10, 11, 12, 13], [20, 21, 22, 23]] 4 1 1 =
    some [some (10, 11), some (11, 10), some (11, 12), some (12, 11), some (12, 13), some (13, 12),
      some (20, 21), some (21, 20), some (21, 22), some (22, 21), some (22, 23), some (23, 22)] ∧ size 4 1 1 = some 6 := by
  decide +kernel

example : Spec.skipGrams 1 2 [10, 11, 12, 13] =
    [(10, 11), (10, 12), (11, 10), (11, 12), (11, 13), (12, 11), (12, 13), (13, 12)] := by
  decide +kernel

/-- Different window sizes: with a larger left window the call fails, with a larger right window pairs are missing and
uninitialised entries are returned. -/
theorem C39_windows_refuted :
    gen [[10, 11, 12, 13]] 4 2 1 = none ∧
    gen [[10, 11, 12, 13]] 4 1 2 =
      some [some (10, 11), some (11, 10), some (11, 12), some (12, 11), some (12, 13), some (13, 12), none, none] ∧
    (10, 12) ∈ Spec.skipGrams 1 2 [10, 11, 12, 13] := by
  decide +kernel

end DeepGNN
