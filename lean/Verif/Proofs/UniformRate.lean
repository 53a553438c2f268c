import Verif.Spec.Uniform
import Verif.Proofs.Toss
import Verif.Proofs.Sampling
import Verif.Proofs.SumRounding

namespace DeepGNN.Toss

theorem countP_flatMap_sum {α β} (p : β → Bool) (f : α → List β) (l : List α) :
    (l.flatMap f).countP p = (l.map fun a => (f a).countP p).sum := by
  induction l with
  | nil => rfl
  | cons a l ih => rw [List.flatMap_cons, List.countP_append, ih, List.map_cons, List.sum_cons]

theorem sum_map_mul {α} (f : α → Nat) (k : Nat) (l : List α) : (l.map fun a => k * f a).sum = k * (l.map f).sum := by
  induction l with
  | nil => rfl
  | cons a l ih => simp only [List.map_cons, List.sum_cons, ih, Nat.mul_add]

theorem sum_range_get {α} (f : Option α → Nat) (xs : List α) :
    ((List.range xs.length).map fun d => f xs[d]?).sum = (xs.map fun x => f (some x)).sum := by
  have : (List.range xs.length).map (fun d => f xs[d]?) = xs.map fun x => f (some x) := by
    apply List.ext_getElem
    · simp
    · intro i h1 h2
      simp only [List.length_map, List.length_range] at h1
      simp [h1]
  rw [this]

theorem sum_if_range (w n A B : Nat) : ((List.range (n + w)).map fun c => if c < w then A else B).sum = w * A + n * B := by
  induction n with
  | zero =>
    rw [Nat.zero_add]
    have : (List.range w).map (fun c => if c < w then A else B) = (List.range w).map fun _ => A := by
      apply List.map_congr_left
      intro c hc
      rw [if_pos (List.mem_range.1 hc)]
    rw [this, List.map_const', List.sum_replicate_nat, List.length_range]; omega
  | succ n ih =>
    rw [show n + 1 + w = n + w + 1 by omega, List.range_succ, List.map_append, List.sum_append_nat, ih]
    simp only [List.map_cons, List.map_nil, List.sum_cons, List.sum_nil]
    rw [if_neg (by omega), Nat.add_mul]; omega

theorem drawsFor_length {α} (seen : Nat) (xs : List α) (blocks : List (List α)) :
    (drawsFor seen (xs :: blocks)).length = (seen + xs.length) * (xs.length * (drawsFor (seen + xs.length) blocks).length) := by
  simp only [drawsFor, List.length_flatMap, List.length_map]
  rw [List.map_const', List.map_const', List.sum_replicate_nat, List.sum_replicate_nat, List.length_range, List.length_range]

/-- Number of draws that leave `x`, by the draw for the first block. -/
theorem hits_cons {α} [BEq α] (x : α) (s : Option α) (seen : Nat) (xs : List α) (blocks : List (List α)) :
    (drawsFor seen (xs :: blocks)).countP (fun d => slotAfter s (xs :: blocks) d == some x) =
      xs.length * (xs.map fun y => (drawsFor (seen + xs.length) blocks).countP fun d => slotAfter (some y) blocks d == some x).sum +
      seen * (xs.length * (drawsFor (seen + xs.length) blocks).countP fun d => slotAfter s blocks d == some x) := by
  simp only [drawsFor, countP_flatMap_sum, List.countP_map]
  have h : ∀ c, ((List.range xs.length).map fun d => (drawsFor (seen + xs.length) blocks).countP
      ((fun d => slotAfter s (xs :: blocks) d == some x) ∘ fun x => (c, d) :: x)).sum =
      if c < xs.length then (xs.map fun y => (drawsFor (seen + xs.length) blocks).countP fun d => slotAfter (some y) blocks d == some x).sum
      else xs.length * (drawsFor (seen + xs.length) blocks).countP fun d => slotAfter s blocks d == some x := by
    intro c
    by_cases hc : c < xs.length
    · rw [if_pos hc, ← sum_range_get (fun o => (drawsFor (seen + xs.length) blocks).countP fun d => slotAfter o blocks d == some x)]
      simp only [Function.comp_def, slotAfter, if_pos hc]
    · rw [if_neg hc]
      simp only [Function.comp_def, slotAfter, if_neg hc]
      rw [List.map_const', List.sum_replicate_nat, List.length_range]
  simp only [h]
  exact sum_if_range ..

theorem sum_eq_count {α} [BEq α] [LawfulBEq α] (x : α) (A B : Nat) (xs : List α) :
    (xs.map fun y => (if y == x then A else 0) + B).sum = xs.count x * A + xs.length * B := by
  induction xs with
  | nil => simp
  | cons y xs ih =>
    rw [List.map_cons, List.sum_cons, ih, List.count_cons, List.length_cons]
    split <;> simp only [Nat.add_mul, Nat.one_mul, Nat.zero_mul] <;> omega

theorem slot_fair {α} [BEq α] [LawfulBEq α] (x : α) (s : Option α) (seen : Nat) (blocks : List (List α)) :
    (drawsFor seen blocks).countP (fun d => slotAfter s blocks d == some x) * (seen + blocks.flatten.length) =
      ((if s == some x then seen else 0) + blocks.flatten.count x) * (drawsFor seen blocks).length := by
  induction blocks generalizing s seen with
  | nil =>
    simp only [drawsFor, slotAfter, List.countP_cons, List.countP_nil, List.flatten_nil, List.length_nil, List.count_nil, List.length_cons]
    by_cases h : (s == some x) = true <;> simp [h]
  | cons xs blocks ih =>
    rw [hits_cons, drawsFor_length]
    generalize hN : (fun s => (drawsFor (seen + xs.length) blocks).countP fun d => slotAfter s blocks d == some x) = N
    have hN' : ∀ s, (drawsFor (seen + xs.length) blocks).countP (fun d => slotAfter s blocks d == some x) = N s := by
      intro s; rw [← hN]
    simp only [hN']
    generalize hD : (drawsFor (seen + xs.length) blocks).length = D
    have ih' : ∀ s, N s * (seen + xs.length + blocks.flatten.length) =
        ((if s == some x then seen + xs.length else 0) + blocks.flatten.count x) * D := by
      intro s
      rw [← hN, ← hD]
      exact ih s _
    rw [List.flatten_cons, List.length_append, List.count_append, ← Nat.add_assoc]
    generalize blocks.flatten.count x = C at *
    generalize seen + xs.length + blocks.flatten.length = T at *
    have hsum : (xs.map fun y => N (some y)).sum * T = (xs.count x * (seen + xs.length) + xs.length * C) * D := by
      rw [Nat.mul_comm, ← sum_map_mul]
      have : xs.map (fun y => T * N (some y)) = xs.map fun y => D * ((if y == x then seen + xs.length else 0) + C) := by
        apply List.map_congr_left
        intro y _
        rw [Nat.mul_comm, ih', Nat.mul_comm]
        congr 2
      rw [this, sum_map_mul, sum_eq_count, Nat.mul_comm]
    rw [Nat.add_mul, Nat.mul_assoc, hsum, Nat.mul_assoc, Nat.mul_assoc, ih' s]
    generalize xs.count x = K
    generalize xs.length = w
    by_cases h : (s == some x) = true
    · simp only [h, if_true]; grind
    · simp only [h]; grind

/-- A loop over the slots that changes slot `i` only in round `i`. -/
theorem slots_loop {α σ : Type} (F : List α × σ → Nat → Option (List α × σ)) (P : Nat → Option α → Option α → Prop)
    (hF : ∀ (o : List α) (s : σ) (i : Nat), i < o.length → ∃ a s', F (o, s) i = some (o.set i a, s') ∧ P i o[i]? (some a)) (out : List α) (s : σ) :
    ∃ out' s', (List.range out.length).foldlM F (out, s) = some (out', s') ∧ out'.length = out.length ∧
      ∀ i, i < out.length → P i out[i]? out'[i]? := by
  suffices ∀ n, n ≤ out.length → ∃ out' s', (List.range n).foldlM F (out, s) = some (out', s') ∧ out'.length = out.length ∧
      (∀ i, i < n → P i out[i]? out'[i]?) ∧ ∀ i, n ≤ i → out'[i]? = out[i]? by
    obtain ⟨o, s', h1, h2, h3, -⟩ := this _ (Nat.le_refl _)
    exact ⟨o, s', h1, h2, h3⟩
  intro n
  induction n with
  | zero => intro _; exact ⟨out, s, rfl, rfl, by simp, fun _ _ => rfl⟩
  | succ n ih =>
    intro hn
    obtain ⟨o, s1, h1, h2, h3, h4⟩ := ih (by omega)
    obtain ⟨a, s2, h5, h6⟩ := hF o s1 n (by omega)
    refine ⟨o.set n a, s2, ?_, by simpa using h2, ?_, ?_⟩
    · rw [List.range_succ, List.foldlM_append, h1]
      simp [h5]
    · intro i hi
      rw [List.getElem?_set]
      split
      · rename_i e
        subst e
        rw [if_pos (by omega), ← h4 _ (Nat.le_refl _)]
        exact h6
      · exact h3 i (by omega)
    · intro i hi
      rw [List.getElem?_set, if_neg (by omega)]
      exact h4 i (by omega)

/-- What one block does to a slot. -/
def Offered {α} (seen : Nat) (xs : List α) (a b : Option α) : Prop :=
  ∃ c d, c < seen + xs.length ∧ d < xs.length ∧ b = if c < xs.length then xs[d]? else a

theorem set_self {α} {o : List α} {i : Nat} (h : i < o.length) : o = o.set i o[i] := by
  apply List.ext_getElem
  · simp
  · intro j h1 h2
    rw [List.getElem_set]
    split
    · subst_vars; rfl
    · rfl

theorem with_offered {α : Type} (R : Draws) {xs : List α} (hx : xs ≠ []) (out : List α) (seen s : Nat) :
    ∃ out' s', withReplacementAdd R (store xs) out.length xs.length (out, seen, s) = some (out', seen + xs.length, s') ∧
      out'.length = out.length ∧ ∀ i, i < out.length → Offered seen xs out[i]? out'[i]? := by
  have hp : 0 < xs.length := List.length_pos_iff.2 hx
  obtain ⟨o, s', h1, h2, h3⟩ := slots_loop (fun (x : List α × Nat) i =>
      if 0 < xs.length ∧ (xs.length = seen + xs.length ∨ R x.2 % 2 = 0) then
        (store xs x.1 i (R (x.2 + 1) % xs.length)).map fun o => (o, x.2 + 2)
      else some (x.1, x.2 + 1)) (fun _ => Offered seen xs) (by
    intro o s i hi
    have hlt := Nat.mod_lt (R (s + 1)) hp
    by_cases hc : 0 < xs.length ∧ (xs.length = seen + xs.length ∨ R s % 2 = 0)
    · refine ⟨xs[R (s + 1) % xs.length], s + 2, by rw [if_pos hc, store_some hi hlt]; rfl, 0, _, Nat.lt_of_lt_of_le hp (Nat.le_add_left ..), hlt, ?_⟩
      rw [if_pos hp, List.getElem?_eq_getElem hlt]
    · refine ⟨o[i], s + 1, by rw [if_neg hc, ← set_self hi], xs.length, 0, by omega, hp, ?_⟩
      rw [if_neg (Nat.lt_irrefl _), List.getElem?_eq_getElem hi]) out s
  exact ⟨o, s', by simp only [withReplacementAdd]; rw [h1]; rfl, h2, h3⟩

/-- The slots after all blocks, for an implementation `add` of the offer of one block. -/
theorem offered_run {α} (add : List α → List α × Nat × Nat → Option (List α × Nat × Nat)) (k : Nat)
    (blocks : List (List α)) (hadd : ∀ xs ∈ blocks, ∀ (out : List α) (seen s : Nat), out.length = k → ∃ out' s', add xs (out, seen, s) = some (out', seen + xs.length, s') ∧
      out'.length = k ∧ ∀ i, i < k → Offered seen xs out[i]? out'[i]?) :
    ∀ (out : List α) (seen s : Nat), out.length = k → ∃ out' s',
      blocks.foldlM (fun st xs => add xs st) (out, seen, s) = some (out', seen + blocks.flatten.length, s') ∧ out'.length = k ∧
      ∀ i, i < k → ∃ d ∈ drawsFor seen blocks, slotAfter out[i]? blocks d = out'[i]? := by
  induction blocks with
  | nil => intro out seen s hk; exact ⟨out, s, rfl, hk, fun i _ => ⟨[], by simp [drawsFor], rfl⟩⟩
  | cons xs blocks ih =>
    intro out seen s hk
    obtain ⟨o1, s1, h1, h2, h3⟩ := hadd xs List.mem_cons_self out seen s hk
    obtain ⟨o2, s2, h4, h5, h6⟩ := ih (fun ys hy => hadd ys (List.mem_cons_of_mem _ hy)) o1 (seen + xs.length) s1 h2
    refine ⟨o2, s2, ?_, h5, ?_⟩
    · rw [List.foldlM_cons, h1]
      simp only [Option.bind_eq_bind, Option.bind_some]
      rw [h4, List.flatten_cons, List.length_append, Nat.add_assoc]
    · intro i hi
      obtain ⟨c, d, hc, hd, e⟩ := h3 i hi
      obtain ⟨ds, h7, h8⟩ := h6 i hi
      refine ⟨(c, d) :: ds, ?_, ?_⟩
      · simp only [drawsFor, List.mem_flatMap, List.mem_map]
        exact ⟨c, List.mem_range.2 hc, d, List.mem_range.2 hd, ds, h7, rfl⟩
      · rw [slotAfter, ← e, h8]

/-- The first block fills every slot. -/
theorem slotAfter_start {α} (a : Option α) {blocks : List (List α)} (hb : blocks ≠ []) {d : List (Nat × Nat)} (hd : d ∈ drawsFor 0 blocks) :
    slotAfter a blocks d = slotAfter none blocks d := by
  match blocks, hb with
  | xs :: blocks, _ =>
    simp only [drawsFor, List.mem_flatMap, List.mem_map] at hd
    obtain ⟨c, hc, e, -, ds, -, rfl⟩ := hd
    have := List.mem_range.1 hc
    simp only [slotAfter]
    rw [if_pos (by omega)]
    rw [if_pos (by omega)]

/-! The rate -/

theorem round24_pos {a : Nat} (h : 0 < a) : 0 < round24 a := by
  have := (round24_near a).2
  omega

/-- The quotient before it is rounded. -/
def sticky (a b : Nat) : Nat := 2 * (a * 2 ^ 63 / b) + if a * 2 ^ 63 % b = 0 then 0 else 1

theorem sticky_near {a b : Nat} (hb : 0 < b) : sticky a b * b ≤ a * 2 ^ 64 + b ∧ a * 2 ^ 64 ≤ sticky a b * b + b := by
  unfold sticky
  have h1 := Nat.div_add_mod (a * 2 ^ 63) b
  have h2 := Nat.mod_lt (a * 2 ^ 63) hb
  rw [Nat.mul_comm b] at h1
  generalize a * 2 ^ 63 / b = q at *
  generalize hr : a * 2 ^ 63 % b = r at *
  have e : a * 2 ^ 64 = 2 * (a * 2 ^ 63) := by omega
  rw [e, ← h1, Nat.add_mul, Nat.mul_assoc]
  generalize q * b = y at *
  split
  · omega
  · omega

theorem sticky_le {a b : Nat} (hb : 0 < b) (h : a ≤ b) : sticky a b ≤ 2 ^ 64 := by
  rcases Nat.lt_or_eq_of_le h with h | h
  · have : a * 2 ^ 63 / b < 2 ^ 63 := by
      rw [Nat.div_lt_iff_lt_mul hb, Nat.mul_comm]
      exact Nat.mul_lt_mul_of_pos_left h (by decide)
    unfold sticky
    split <;> omega
  · subst h
    unfold sticky
    rw [Nat.mul_comm a (2 ^ 63), Nat.mul_div_cancel _ hb, Nat.mul_mod_left, if_pos rfl]
    omega

theorem rate_le {w seen : Nat} (hw : w ≤ seen) (hs : 0 < seen) : rate w seen ≤ 2 ^ 64 := by
  have h := sticky_le (round24_pos hs) (round24_mono hw)
  have := round24_mono h
  have e : round24 (2 ^ 64) = 2 ^ 64 := by decide +kernel
  rw [e] at this
  exact this

theorem rate_one {w seen : Nat} (hs : 0 < seen) (h : round24 w = round24 seen) : rate w seen = 2 ^ 64 := by
  have hp := round24_pos hs
  have e : sticky (round24 seen) (round24 seen) = 2 ^ 64 := by
    generalize round24 seen = b at *
    unfold sticky
    rw [Nat.mul_comm b (2 ^ 63), Nat.mul_div_cancel _ hp, Nat.mul_mod_left, if_pos rfl]
  show round24 (sticky (round24 w) (round24 seen)) = 2 ^ 64
  rw [h, e]
  decide +kernel

/-- Below 2^24 elements the rate is 1 only for the first block. -/
theorem rate_kept {w seen : Nat} (hw : w < seen) (hs : seen ≤ 2 ^ 24) : rate w seen ≤ 2 ^ 64 - 2 ^ 40 := by
  have f : ∀ {n : Nat}, n ≤ 2 ^ 24 → round24 n = n := by
    intro n hn
    have := round24_float (q := n) (e := 0) hn
    simpa using this
  unfold rate
  rw [f hs, f (show w ≤ 2 ^ 24 by omega)]
  have h : sticky w seen ≤ 2 ^ 64 - 2 ^ 40 := by
    have h1 := Nat.div_add_mod (w * 2 ^ 63) seen
    unfold sticky
    generalize w * 2 ^ 63 / seen = q at *
    generalize w * 2 ^ 63 % seen = r at *
    have hq : seen * q + r + 2 ^ 63 ≤ seen * 2 ^ 63 := by
      rw [h1]
      have := Nat.mul_le_mul_right (2 ^ 63) (show w + 1 ≤ seen from hw)
      rw [Nat.add_mul] at this
      omega
    have hle : q + 2 ^ 39 ≤ 2 ^ 63 ∧ (r ≠ 0 → q + 2 ^ 39 + 1 ≤ 2 ^ 63) := by
      constructor
      · refine Nat.le_of_mul_le_mul_left (c := seen) ?_ (by omega)
        rw [Nat.mul_add]
        omega
      · intro hr
        apply Nat.succ_le_of_lt
        apply Nat.lt_of_mul_lt_mul_left (a := seen)
        rw [Nat.mul_add]
        omega
    split
    · omega
    · rename_i hr
      have := hle.2 hr
      omega
  have h2 := round24_mono h
  have e : round24 (2 ^ 64 - 2 ^ 40) = 2 ^ 64 - 2 ^ 40 := by decide +kernel
  rw [e] at h2
  exact h2

theorem rate_pos {w seen : Nat} (hw : 0 < w) (hs : 0 < seen) (h63 : seen < 2 ^ 62) : 0 < rate w seen := by
  apply round24_pos
  have h := (sticky_near (a := round24 w) (round24_pos hs)).2
  show 0 < sticky (round24 w) (round24 seen)
  have h1 : round24 seen ≤ 2 ^ 62 := by
    have := round24_mono (Nat.le_of_lt h63)
    have e : round24 (2 ^ 62) = 2 ^ 62 := by decide +kernel
    rw [e] at this
    exact this
  have h2 := round24_pos hw
  rcases Nat.eq_zero_or_pos (sticky (round24 w) (round24 seen)) with h0 | h0
  · rw [h0] at h; omega
  · exact h0

theorem replaces_iff {w seen x : Nat} (hw : w ≤ seen) (hs : 0 < seen) :
    (toss x).any (replaces w seen) = true ↔ round24 x < rate w seen := by
  have hr := rate_le hw hs
  have key : ∀ t, replaces w seen t = true ↔ (rate w seen = 2 ^ 64 ∨ t < rate w seen) := by
    intro t
    unfold replaces
    rw [Bool.or_eq_true, beq_iff_eq, decide_eq_true_iff]
  unfold toss
  split
  · rename_i h
    rw [Option.any_some, key]
    omega
  · rename_i h
    constructor
    · intro h; cases h
    · intro h; omega

theorem ceil_spec {a d : Nat} (hd : 0 < d) : ∃ q, a ≤ q * d ∧ q * d < a + d ∧ ∀ x, x < q → x * d < a := by
  refine ⟨(a + d - 1) / d, ?_, ?_, ?_⟩
  · have := Nat.lt_div_mul_add (a := a + d - 1) (b := d) hd; omega
  · have := Nat.div_mul_le_self (a + d - 1) d; omega
  · intro x hx
    have h1 := Nat.mul_le_mul_right d (show x + 1 ≤ _ from hx)
    have h2 := Nat.div_mul_le_self (a + d - 1) d
    rw [Nat.add_mul] at h1
    omega

theorem replacing_bounds {w seen : Nat} (hw : w ≤ seen) (hs : 0 < seen) :
    (2 ^ 24 - 1) * Spec.replacingNumbers w seen < 2 ^ 24 * rate w seen + (2 ^ 24 - 1) ∧
      2 ^ 24 * rate w seen ≤ (2 ^ 24 + 1) * Spec.replacingNumbers w seen := by
  have hr := rate_le hw hs
  unfold Spec.replacingNumbers
  constructor
  · obtain ⟨B, b1, b2, b3⟩ := ceil_spec (a := 2 ^ 24 * rate w seen) (d := 2 ^ 24 - 1) (by decide)
    have : (List.range (2 ^ 64)).countP (fun x => (toss x).any (replaces w seen)) ≤ B := by
      apply countP_range_le
      intro x hx
      rw [replaces_iff hw hs] at hx
      have := (round24_near x).2
      apply Nat.lt_of_mul_lt_mul_right (a := 2 ^ 24 - 1)
      clear b2 b3 hr
      generalize rate w seen = r at *
      generalize round24 x = t at *
      omega
    generalize List.countP _ _ = c at *
    omega
  · obtain ⟨A, a1, a2, a3⟩ := ceil_spec (a := 2 ^ 24 * rate w seen) (d := 2 ^ 24 + 1) (by decide)
    have : A ≤ (List.range (2 ^ 64)).countP (fun x => (toss x).any (replaces w seen)) := by
      apply countP_range_ge
      · intro x hx
        rw [replaces_iff hw hs]
        have := (round24_near x).1
        have := a3 x hx
        omega
      · omega
    generalize List.countP _ _ = c at *
    omega

theorem replacing_close {w seen : Nat} (hw : w ≤ seen) (hs : 0 < seen) :
    seen * Spec.replacingNumbers w seen ≤ w * 2 ^ 64 + w * 2 ^ 43 + 4 * seen ∧
      w * 2 ^ 64 ≤ seen * Spec.replacingNumbers w seen + w * 2 ^ 43 + 4 * seen := by
  obtain ⟨c1, c2⟩ := replacing_bounds hw hs
  generalize Spec.replacingNumbers w seen = c at *
  have hr : rate w seen = round24 (sticky (round24 w) (round24 seen)) := rfl
  obtain ⟨r1, r2⟩ := round24_near (sticky (round24 w) (round24 seen))
  rw [hr] at c1 c2
  obtain ⟨q1, q2⟩ := sticky_near (a := round24 w) (round24_pos hs)
  obtain ⟨a1, a2⟩ := round24_near w
  obtain ⟨b1, b2⟩ := round24_near seen
  generalize round24 (sticky (round24 w) (round24 seen)) = r at *
  generalize sticky (round24 w) (round24 seen) = Q at *
  generalize round24 w = a at *
  generalize round24 seen = b at *
  constructor
  · have e1 : (2 ^ 24 - 1) * c ≤ (2 ^ 24 + 1) * Q + (2 ^ 24 - 1) := by omega
    have e2 := Nat.mul_le_mul_right b e1
    have e3 := Nat.mul_le_mul_left c b2
    rw [Nat.add_mul, Nat.mul_assoc, Nat.mul_assoc] at e2
    rw [Nat.mul_left_comm, Nat.mul_left_comm c (2 ^ 24) b] at e3
    rw [Nat.mul_comm c seen] at e3
    generalize c * b = cb at *
    generalize seen * c = sc at *
    generalize Q * b = Qb at *
    clear e1 c1 c2 r1 r2
    omega
  · have e1 : (2 ^ 24 - 1) * Q ≤ (2 ^ 24 + 1) * c := by omega
    have e2 := Nat.mul_le_mul_right b e1
    have e3 := Nat.mul_le_mul_left c b1
    rw [Nat.mul_assoc, Nat.mul_assoc] at e2
    rw [Nat.mul_left_comm, Nat.mul_left_comm c (2 ^ 24 + 1) seen] at e3
    rw [Nat.mul_comm c seen] at e3
    generalize c * b = cb at *
    generalize seen * c = sc at *
    generalize Q * b = Qb at *
    clear e1 c1 c2 r1 r2
    have f1 : (2 ^ 24 - 1) * (w * 2 ^ 64) ≤ 2 ^ 24 * (Qb + b) := by omega
    clear a1 a2 q1 q2 b2
    have f2 : (2 ^ 24 - 1) * ((2 ^ 24 - 1) * (w * 2 ^ 64)) ≤ (2 ^ 24 + 1) * (2 ^ 24 * cb) + (2 ^ 24 - 1) * (2 ^ 24 * b) := by omega
    have f3 : (2 ^ 24 - 1) * ((2 ^ 24 - 1) * (w * 2 ^ 64)) ≤ (2 ^ 24 + 1) * ((2 ^ 24 + 1) * sc) + (2 ^ 24 - 1) * ((2 ^ 24 + 1) * seen) := by omega
    have hv : w * 2 ^ 64 = 2 ^ 21 * (w * 2 ^ 43) := by omega
    obtain ⟨v, hv2⟩ : ∃ v, w * 2 ^ 43 = v := ⟨_, rfl⟩
    rw [hv, hv2] at f3 ⊢
    clear f1 f2 hv e2 e3 b1
    refine Nat.le_of_mul_le_mul_left (c := 281475010265089) ?_ (by decide)
    have g1 : 590295739989963571200 * v ≤ 281475010265089 * sc + 281474976710655 * seen := by
      have : (2 ^ 24 - 1) * ((2 ^ 24 - 1) * (2 ^ 21 * v)) = 590295739989963571200 * v := by
        rw [← Nat.mul_assoc, ← Nat.mul_assoc]
      rw [this, ← Nat.mul_assoc, ← Nat.mul_assoc] at f3
      exact f3
    have g2 : 281475010265089 * (2 ^ 21 * v) ≤ 590295739989963571200 * v + 281475010265089 * v := by
      rw [← Nat.mul_assoc, ← Nat.add_mul]
      exact Nat.mul_le_mul_right v (by decide)
    have g3 : 281474976710655 * seen ≤ 281475010265089 * (4 * seen) := by
      rw [← Nat.mul_assoc]
      exact Nat.mul_le_mul_right seen (by decide)
    rw [Nat.mul_add, Nat.mul_add]
    generalize 281475010265089 * (2 ^ 21 * v) = x1 at *
    generalize 590295739989963571200 * v = x2 at *
    generalize 281475010265089 * v = x3 at *
    generalize 281475010265089 * sc = x4 at *
    generalize 281474976710655 * seen = x5 at *
    generalize 281475010265089 * (4 * seen) = x6 at *
    clear f3
    omega

/-- One block in single precision: the slots are replaced or kept, and all replaced if the rate is 1. -/
theorem rounded_offered {α : Type} (T : Nat → Nat) (hT : ∀ i, T i ≤ 2 ^ 64 - 2 ^ 40) {xs : List α} (hx : xs ≠ []) (out : List α) (seen s : Nat) :
    ∃ out' s', addRounded T (store xs) out.length xs.length (out, seen, s) = some (out', seen + xs.length, s') ∧
      out'.length = out.length ∧ ∀ i, i < out.length → Offered seen xs out[i]? out'[i]? ∧
        (rate xs.length (seen + xs.length) = 2 ^ 64 → ∃ x ∈ xs, out'[i]? = some x) := by
  have hp : 0 < xs.length := List.length_pos_iff.2 hx
  have hone : seen = 0 → rate xs.length (seen + xs.length) = 2 ^ 64 := by
    intro h
    rw [h, Nat.zero_add]
    exact rate_one hp rfl
  obtain ⟨o, s', h1, h2, h3⟩ := slots_loop (fun (x : List α × Nat) i =>
      if rate xs.length (seen + xs.length) = 2 ^ 64 then (store xs x.1 i (index xs.length (T x.2))).map fun o => (o, x.2 + 1)
      else if replaces xs.length (seen + xs.length) (T x.2) then (store xs x.1 i (index xs.length (T (x.2 + 1)))).map fun o => (o, x.2 + 2)
      else some (x.1, x.2 + 1)) (fun _ a b => Offered seen xs a b ∧ (rate xs.length (seen + xs.length) = 2 ^ 64 → ∃ x ∈ xs, b = some x)) (by
    intro o s i hi
    by_cases hc : rate xs.length (seen + xs.length) = 2 ^ 64
    · have hlt := index_lt hp (hT s)
      refine ⟨xs[index xs.length (T s)], s + 1, by rw [if_pos hc, store_some hi hlt]; rfl,
        ⟨0, _, Nat.lt_of_lt_of_le hp (Nat.le_add_left ..), hlt, ?_⟩, fun _ => ⟨_, List.getElem_mem _, rfl⟩⟩
      rw [if_pos hp, List.getElem?_eq_getElem hlt]
    · by_cases hr : replaces xs.length (seen + xs.length) (T s) = true
      · have hlt := index_lt hp (hT (s + 1))
        refine ⟨xs[index xs.length (T (s + 1))], s + 2, by rw [if_neg hc, if_pos hr, store_some hi hlt]; rfl,
          ⟨0, _, Nat.lt_of_lt_of_le hp (Nat.le_add_left ..), hlt, ?_⟩, fun h => absurd h hc⟩
        rw [if_pos hp, List.getElem?_eq_getElem hlt]
      · have h0 : 0 < seen := Nat.pos_of_ne_zero fun h => hc (hone h)
        refine ⟨o[i], s + 1, by rw [if_neg hc, if_neg hr, ← set_self hi], ⟨xs.length, 0, Nat.lt_add_of_pos_left h0, hp, ?_⟩, fun h => absurd h hc⟩
        rw [if_neg (Nat.lt_irrefl _), List.getElem?_eq_getElem hi]) out s
  exact ⟨o, s', by simp only [addRounded]; rw [h1]; rfl, h2, h3⟩

end DeepGNN.Toss

namespace DeepGNN

variable {C : WeightCodec} {m : Meta} {g : Graph} {parts : List (List (List Rec))} {items : List Item} {p : Partition} {k : Nat}
  {edges : List GEdge} {xs : List ((Int × List PEdge) × Nat)}

/-- The groups of edges that a query at no timestamp offers, one block for each. -/
def walkBlocks (edges : List GEdge) (types : List Int) : List (List (Int × Int)) :=
  (walk (·.1) (runs GEdge.typ edges) types).map fun x => x.2.map edgePair

theorem NodeTables.visited_blocks (h : NodeTables m p k edges xs) (types : List Int) :
    (visited xs types).map (fun x => x.1.2.map fun e => edgePair e.1) = walkBlocks edges types := by
  obtain ⟨o, ho⟩ := h.xruns
  have h1 : (visited xs types).map (·.1) = walk (·.1) (xs.map (·.1)) types := by
    rw [walk_map]; rfl
  have h2 : runs GEdge.typ edges = (runs ptyp (withOffs nfeats o edges)).map
      (fun g => (g.1, g.2.map (·.1))) := by
    conv => lhs; rw [← map_fst_withOffs nfeats o edges]
    rw [runs_map]; rfl
  rw [walkBlocks, h2, walk_map, ← ho]
  have h3 : walk (fun a : Int × List PEdge => a.1) (xs.map (·.1)) types = (visited xs types).map (·.1) :=
    h1.symm
  rw [h3, List.map_map, List.map_map]
  apply List.map_congr_left
  intro x _
  simp

theorem NodeTables.sampleBlocks_eq (h : NodeTables m p k edges xs) (w : Bool) (types : List Int) :
    p.sampleBlocks w k none types = some (walkBlocks edges types) := by
  simp only [Partition.sampleBlocks, h.groups, Option.bind_eq_bind, Option.bind_some, sampleGroups_walk,
    walk_toGroup, List.map_map]
  obtain ⟨bs, h1, h2⟩ := mapM_flat
    (fun x : (Int × List PEdge) × Nat => (p.pieces w none (toGroup x)).bind fun ps =>
      ps.mapM fun y => (p.dstSpan y.1 y.2).map fun l => l.map fun d => (d, x.1.1))
    (fun bs => bs) (fun x => [x.1.2.map fun e => edgePair e.1])
    (visited xs types) (by
      intro x hx
      have hxm := mem_visited hx
      refine ⟨_, ?_, rfl⟩
      have hs := h.dstSpan hxm 0 x.1.2.length (by omega)
      simp only [Partition.pieces, toGroup, Option.bind_some, List.mapM_cons, List.mapM_nil]
      rw [show x.2 + x.1.2.length - x.2 = x.1.2.length by omega]
      rw [Nat.add_zero, List.drop_zero, List.take_length] at hs
      rw [hs]
      simp only [Option.map_some, Option.bind_eq_bind, Option.bind_some, Option.pure_def, List.map_map]
      congr 2
      apply List.map_congr_left
      intro e he
      have := (h.typ_of_mem hxm).2 e he
      simp [edgePair, this])
  have e : ∀ x : (Int × List PEdge) × Nat, ((fun x : Group × Int => match x with
        | (g, e) => (p.pieces w none g).bind fun ps => ps.mapM fun x => (p.dstSpan x.1 x.2).map fun l =>
            l.map fun d => (d, if w = true then e else g.typ)) ∘ (fun g : Group => (g, g.typ)) ∘ toGroup) x =
        (p.pieces w none (toGroup x)).bind fun ps =>
      ps.mapM fun y => (p.dstSpan y.1 y.2).map fun l => l.map fun d => (d, x.1.1) := by
    intro x
    simp [Function.comp, toGroup]
  rw [List.mapM_map, show (_ : (Int × List PEdge) × Nat → Option (List (List (Int × Int)))) = _ from funext e, h1]
  rw [← h.visited_blocks types]
  simp only [Option.bind_some, Option.pure_def]
  rw [show bs.flatten = bs.flatMap fun bs => bs by simp [List.flatMap_def], h2]
  exact congrArg some List.map_eq_flatMap.symm

/-- The blocks that the sampling of node `n` is offered. -/
def foundBlocks (items : List Item) (n : Int) (types : List Int) : List (List (Int × Int)) :=
  items.flatMap fun it => (it.blks.filter (fun b => b.id = n)).flatMap fun b => walkBlocks b.edges types

theorem GraphOk.sampleBlocks_eq (h : GraphOk C m g items parts) (n : Int) (w : Bool) (types : List Int) :
    ∃ es bs, g.entries n = some es ∧
      es.mapM (fun x : Partition × Nat => x.1.sampleBlocks w x.2 none types) = some bs ∧ bs.flatten = foundBlocks items n types := by
  obtain ⟨es, bs, h1, h2, h3⟩ := h.mapEntries_flat n (fun x => x.1.sampleBlocks w x.2 none types)
    (fun b => b) (fun b => walkBlocks b.edges types) (by
      intro it hit x hx _
      obtain ⟨xs, ht⟩ := (h.ok it hit).tables hx
      exact ⟨_, ht.sampleBlocks_eq w types, rfl⟩)
  refine ⟨es, bs, h1, h2, ?_⟩
  rw [show bs.flatten = bs.flatMap fun bs => bs by simp [List.flatMap_def], h3]
  rfl

theorem foundBlocks_ne (items : List Item) (n : Int) (types : List Int) : ∀ xs ∈ foundBlocks items n types, xs ≠ [] := by
  intro xs hx
  simp only [foundBlocks, List.mem_flatMap, walkBlocks, List.mem_map] at hx
  obtain ⟨it, -, b, -, x, hx, rfl⟩ := hx
  have := (runs_mem GEdge.typ b.edges x (walk_subset _ _ _ x hx)).1
  simpa using this

theorem foundBlocks_flatten (items : List Item) (n : Int) (types : List Int) :
    (foundBlocks items n types).flatten = (foundEdges items n types).map edgePair := by
  have e : ∀ b : Blk, (walkBlocks b.edges types).flatten = (walkEdges b.edges types).map edgePair := by
    intro b
    rw [walkBlocks, walkEdges, List.map_flatMap, List.flatMap_def]
  rw [foundBlocks, foundEdges, List.map_flatMap, List.flatMap_def, List.flatten_flatten, List.map_map, List.flatMap_def]
  congr 1
  apply List.map_congr_left
  intro it _
  rw [Function.comp, List.map_flatMap, List.flatMap_def, List.flatten_flatten, List.map_map, List.flatMap_def]
  congr 1
  apply List.map_congr_left
  intro b _
  exact e b

end DeepGNN
