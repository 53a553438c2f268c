import Verif.Proofs.PaddedText

/-
C120 The vector of a text does not depend on what fills up the text.
-/

namespace DeepGNN
open Padded Padded.Spec

variable {T : Type}

/-- For any layers, heads and weights: two texts with the same words at the same positions (at least one) have the same vector, whatever
fills them up, and however long the filling is.  The exponential underflows `u` below the largest score, and the scores of a query, and
the weights of the pooler, lie in a range shorter than the mask by `u`.  Missing: texts without words
(false, `C120_empty_refuted`), scores in a larger range (false, `C120_range_refuted`). -/
theorem C120_filling_partial {e : Int → Int} {u k kp : Int} (he : Underflows e u) (layers : List (Layer T))
    (hl : LayersSeparated u k layers) (weight : T → Int) (hw : Separated u kp weight) (values : List (T → Int))
    (a b : List (T × Bool)) (hab : words a = words b) (hne : words a ≠ []) :
    encode e k kp layers weight values a = encode e k kp layers weight values b := by
  have key : ∀ c : List (T × Bool), words c ≠ [] → encode e k kp layers weight values c =
      encode e k kp layers weight values ((words c).map fun t => (t, true)) := by
    intro c hc
    have hf : c.filter (·.2) ≠ [] := by
      rw [filter_words]; simpa using hc
    obtain ⟨h1, h2⟩ := layers_filter he layers hl c hf
    rw [encode, encode, ← filter_words, ← h1, pool, pool]
    exact List.map_congr_left fun v _ => softmaxSum_masked he weight v hw _ h2
  rw [key a hne, key b (hab ▸ hne), hab]

/-- In a text without words the mask has no effect: it is encoded as if all that fills it up were words. -/
theorem C120_empty_refuted (e : Int → Int) (k kp : Int) (layers : List (Layer T)) (weight : T → Int) (values : List (T → Int))
    (toks : List T) : words (allMasked toks false) = [] ∧
      encode e k kp layers weight values (allMasked toks false) = encode e k kp layers weight values (allMasked toks true) := by
  constructor
  · simp [words, allMasked]
  · obtain ⟨t, ht⟩ := allMasked_layers e k layers toks
    rw [encode, encode, ht, ht, pool, pool]
    refine List.map_congr_left fun v _ => ?_
    have hm : ∀ m, softmaxSum e ((allMasked t m).map fun t => (weight t.1 + masked kp t.2, v t.1)) =
        softmaxSum e (t.map fun t => (weight t, v t)) := by
      intro m
      rw [← softmaxSum_shift e (masked kp m) (t.map fun t => (weight t, v t)), allMasked, List.map_map, List.map_map]
      rfl
    rw [hm, hm]

/-- If what fills up a text has a score higher than that of a word by the mask and more, by `u`, it replaces the word: the word's
value does not count. -/
theorem C120_range_refuted {e : Int → Int} {u kp : Int} (he : Underflows e u) (weight : T → Int)
    (word filling : T) (h : weight word + u ≤ weight filling - kp) (v : T → Int) :
    pool e kp weight [v] [(word, true), (filling, false)] = [(e 0 * v filling, e 0)] := by
  have hu := he.1
  have hm : maxL [weight word + masked kp true, weight filling + masked kp false] = weight filling - kp := by
    show max (weight word + 0) (weight filling + -kp) = _
    rw [Int.max_eq_right (by omega)]; omega
  simp only [pool, softmaxSum, List.map_cons, List.map_nil, hm, sumL, List.foldr_cons, List.foldr_nil]
  have h1 : e (weight word + masked kp true - (weight filling - kp)) = 0 := he.2 _ (by simp only [masked, if_true]; omega)
  have h2 : weight filling + masked kp false - (weight filling - kp) = 0 := by simp [masked]; omega
  rw [h1, h2]
  simp

/-- An exponential with underflow. -/
def exampleExp (x : Int) : Int := if x ≤ -10 then 0 else if x < 0 then 1 else 2

/-- A layer with scores between 0 and 4. -/
def exampleLayer : Layer Nat :=
  { heads := [{ score := fun x y => (x * y % 5 : Nat), value := fun y => y }]
    post := fun x c => x + (c.map fun p => (p.1 / p.2).toNat).sum }

theorem exampleExp_underflows : Underflows exampleExp 10 := ⟨by decide, fun x hx => if_pos hx⟩

theorem exampleLayer_separated : LayersSeparated 10 100 [exampleLayer, exampleLayer] := by
  intro l hl h hh x y z
  have : l = exampleLayer := by simpa using hl
  subst this
  have : h = { score := fun x y => (x * y % 5 : Nat), value := fun y => y } := by simpa [exampleLayer] using hh
  subst this
  have h1 := Nat.mod_lt (x * y) (show 5 > 0 by decide)
  have h2 := Nat.mod_lt (x * z) (show 5 > 0 by decide)
  show ((x * y % 5 : Nat) : Int) - 100 ≤ ((x * z % 5 : Nat) : Int) - 10
  omega

example : Separated 10 100 fun y : Nat => ((y % 3 : Nat) : Int) := by
  intro y z
  have h1 := Nat.mod_lt y (show 3 > 0 by decide)
  show ((y % 3 : Nat) : Int) - 100 ≤ ((z % 3 : Nat) : Int) - 10
  omega
/-- The same words with different filling, and the filling alone. -/
example : encode exampleExp 100 100 [exampleLayer, exampleLayer] (fun y => (y % 3 : Nat)) [fun y => y]
      [(3, true), (7, false), (4, true)] =
    encode exampleExp 100 100 [exampleLayer, exampleLayer] (fun y => (y % 3 : Nat)) [fun y => y] [(3, true), (4, true), (9, false)] := by
  decide +kernel
example : encode exampleExp 100 100 [exampleLayer] (fun y => (y % 3 : Nat)) [fun y => y] [(3, false), (7, false)] ≠
    encode exampleExp 100 100 [exampleLayer] (fun y => (y % 3 : Nat)) [fun y => y] [(3, false), (8, false)] := by decide +kernel

end DeepGNN
