import Verif.Model.Ppr
import Verif.Spec.Ppr
import Verif.Proofs.RandomWalk

namespace DeepGNN.Ppr

open Spec (mass score received)

variable {C : WeightCodec} {wm : Option Nat} {m : Meta} {parts : List (List (List Rec))} {g : Graph}

theorem mass_nil : mass [] = 0 := rfl

theorem mass_cons (x : Int × Rat) (l : List (Int × Rat)) : mass (x :: l) = x.2 + mass l := rfl

theorem mass_add (k : Int) (x : Rat) : ∀ l, mass (add k x l) = mass l + x
  | [] => by simp only [add, mass_cons, mass_nil]; grind
  | (a, y) :: l => by
    rw [add]
    split
    · simp only [mass_cons]; grind
    · simp only [mass_cons, mass_add k x l]; grind

theorem value_nil (k : Int) : value [] k = 0 := rfl

theorem value_cons (a : Int) (y : Rat) (l : List (Int × Rat)) (k : Int) : value ((a, y) :: l) k = if k = a then y else value l k := by
  rw [value, List.lookup_cons]
  by_cases h : k = a
  · subst h; simp
  · rw [beq_false_of_ne h, if_neg h]; rfl

theorem value_add (k : Int) (x : Rat) (w : Int) : ∀ l, value (add k x l) w = value l w + (if w = k then x else 0)
  | [] => by
    rw [add, value_cons]
    split
    · rw [value_nil]; grind
    · rw [value_nil]; grind
  | (a, y) :: l => by
    rw [add]
    split
    · rename_i h
      subst h
      rw [value_cons, value_cons]
      split <;> grind
    · rename_i h
      rw [value_cons, value_cons, value_add k x w l]
      split
      · rename_i h'; rw [if_neg (by rw [h']; exact fun e => h e.symm)]; grind
      · rfl

theorem value_clear (k w : Int) : ∀ l, value (clear k l) w = if w = k then 0 else value l w
  | [] => by
    rw [clear, value_cons]
  | (a, y) :: l => by
    rw [clear]
    split
    · rename_i h
      subst h
      rw [value_cons, value_cons]
      split <;> rfl
    · rename_i h
      rw [value_cons, value_cons, value_clear k w l]
      split
      · rename_i h'; rw [if_neg (by rw [h']; exact fun e => h e.symm)]
      · rfl

theorem mass_clear (k : Int) : ∀ l, mass (clear k l) = mass l - value l k
  | [] => by simp only [clear, mass_cons, mass_nil, value_nil]; grind
  | (a, y) :: l => by
    rw [clear, value_cons]
    split
    · simp only [mass_cons]; grind
    · simp only [mass_cons, mass_clear k l]; grind

theorem mass_nonneg : ∀ {l : List (Int × Rat)}, (∀ x ∈ l, 0 ≤ x.2) → 0 ≤ mass l
  | [], _ => by rw [mass_nil]; exact Rat.le_refl
  | x :: l, h => by
    rw [mass_cons]
    exact Rat.add_nonneg (h x List.mem_cons_self) (mass_nonneg fun y hy => h y (List.mem_cons_of_mem _ hy))

theorem value_le_mass : ∀ {l : List (Int × Rat)} (k : Int), (∀ x ∈ l, 0 ≤ x.2) → 0 ≤ value l k ∧ value l k ≤ mass l
  | [], _, _ => by rw [value_nil, mass_nil]; exact ⟨Rat.le_refl, Rat.le_refl⟩
  | (a, y) :: l, k, h => by
    have h0 := h (a, y) List.mem_cons_self
    have h1 := mass_nonneg (l := l) fun y hy => h y (List.mem_cons_of_mem _ hy)
    have h2 := value_le_mass (l := l) k fun y hy => h y (List.mem_cons_of_mem _ hy)
    rw [value_cons, mass_cons]
    simp only at h0
    split
    · constructor <;> grind
    · constructor <;> grind

theorem nonneg_add {k : Int} {x : Rat} (hx : 0 ≤ x) : ∀ {l : List (Int × Rat)}, (∀ y ∈ l, 0 ≤ y.2) → ∀ y ∈ add k x l, 0 ≤ y.2
  | [], _, y, hy => by
    rw [add, List.mem_singleton] at hy; subst hy; exact hx
  | (a, z) :: l, h, y, hy => by
    have h0 := h (a, z) List.mem_cons_self
    rw [add] at hy
    split at hy
    · rcases List.mem_cons.1 hy with rfl | hy
      · exact Rat.add_nonneg h0 hx
      · exact h y (List.mem_cons_of_mem _ hy)
    · rcases List.mem_cons.1 hy with rfl | hy
      · exact h0
      · exact nonneg_add hx (fun y hy => h y (List.mem_cons_of_mem _ hy)) y hy

theorem nonneg_clear {k : Int} : ∀ {l : List (Int × Rat)}, (∀ y ∈ l, 0 ≤ y.2) → ∀ y ∈ clear k l, 0 ≤ y.2
  | [], _, y, hy => by
    rw [clear, List.mem_singleton] at hy; subst hy; exact Rat.le_refl
  | (a, z) :: l, h, y, hy => by
    rw [clear] at hy
    split at hy
    · rcases List.mem_cons.1 hy with rfl | hy
      · exact Rat.le_refl
      · exact h y (List.mem_cons_of_mem _ hy)
    · rcases List.mem_cons.1 hy with rfl | hy
      · exact h (a, z) List.mem_cons_self
      · exact nonneg_clear (fun y hy => h y (List.mem_cons_of_mem _ hy)) y hy

theorem keys_add (k : Int) (x : Rat) : ∀ l : List (Int × Rat),
    (add k x l).map (·.1) = if k ∈ l.map (·.1) then l.map (·.1) else l.map (·.1) ++ [k]
  | [] => by simp [add]
  | (a, y) :: l => by
    rw [add]
    split
    · rename_i h; subst h; simp
    · rename_i h
      rw [List.map_cons, keys_add k x l, List.map_cons]
      by_cases h' : k ∈ l.map (·.1)
      · rw [if_pos h', if_pos (List.mem_cons_of_mem _ h')]
      · rw [if_neg h', if_neg (fun e => (List.mem_cons.1 e).elim h h')]; rfl

theorem nodup_add {k : Int} {x : Rat} {l : List (Int × Rat)} (h : (l.map (·.1)).Nodup) : ((add k x l).map (·.1)).Nodup := by
  rw [keys_add]
  split
  · exact h
  · rename_i hk
    rw [List.nodup_append]
    refine ⟨h, by simp, ?_⟩
    intro a ha b hb e
    rw [List.mem_singleton] at hb
    exact hk (hb ▸ e ▸ ha)

theorem score_value : ∀ {l : List (Int × Rat)} (u : Int), (l.map (·.1)).Nodup → score l u = value l u
  | [], u, _ => rfl
  | (a, y) :: l, u, h => by
    rw [List.map_cons, List.nodup_cons] at h
    rw [value_cons, score, List.filter_cons]
    by_cases e : u = a
    · subst e
      rw [if_pos (by simp), if_pos rfl, mass_cons]
      have : l.filter (fun x => x.1 = u) = [] := by
        rw [List.filter_eq_nil_iff]
        intro x hx he
        have he' : x.1 = u := of_decide_eq_true he
        exact h.1 (List.mem_map.2 ⟨x, hx, he'⟩)
      rw [this, mass_nil]
      simp only [Rat.add_zero]
    · rw [if_neg (by simpa using fun e' => e e'.symm), if_neg e, ← score_value u h.2]
      rfl

theorem received_cons (N : Int → List Int) (x : Int × Rat) (l : List (Int × Rat)) (u : Int) :
    received N (x :: l) u = x.2 * ((N x.1).count u : Nat) / ((N x.1).length : Nat) + received N l u := rfl

theorem received_add (N : Int → List Int) (k : Int) (x : Rat) (w : Int) : ∀ l,
    received N (add k x l) w = received N l w + x * ((N k).count w : Nat) / ((N k).length : Nat)
  | [] => by
    rw [add, received_cons]
    show _ + received N [] w = _
    grind
  | (a, y) :: l => by
    rw [add]
    split
    · rename_i h
      subst h
      rw [received_cons, received_cons]
      simp only [Rat.div_def, Rat.add_mul]
      grind
    · rw [received_cons, received_cons, received_add N k x w l]
      grind

/-- The loop over the neighbours with the right counts. -/
def relaxN (N : Int → List Int) (alpha eps val : Rat) (s : Push) (v : Int) : Push :=
  let r := add v val s.r
  if value r v ≥ alpha * eps * (((N v).length : Nat) : Rat) ∧ v ∉ s.q then ⟨s.p, r, v :: s.q⟩ else ⟨s.p, r, s.q⟩

/-- The loop over the input nodes with the right neighbours. -/
def stepN (N : Int → List Int) (alpha eps : Rat) (s : Push) : Push :=
  match s.q with
  | [] => s
  | u :: q =>
    let res := value s.r u
    (N u).foldl (relaxN N alpha eps ((1 - alpha) * res / ((N u).length : Rat))) ⟨add u res s.p, clear u s.r, q⟩

/-- A node outside of the queue has little left. -/
def Small (N : Int → List Int) (alpha eps : Rat) (s : Push) : Prop :=
  ∀ w, w ∉ s.q → value s.r w = 0 ∨ value s.r w < alpha * eps * ((N w).length : Nat)

/-- A node in the queue has enough left, if it has neighbours. -/
def Enough (N : Int → List Int) (least : Rat) (s : Push) : Prop :=
  ∀ w ∈ s.q, N w = [] ∨ least ≤ value s.r w

theorem natCast_le_one {n : Nat} (h : n ≠ 0) : (1 : Rat) ≤ (n : Nat) := by
  have : ((1 : Nat) : Rat) ≤ (n : Nat) := by
    rw [Rat.natCast_le_natCast]; omega
  exact this

theorem relaxN_spec {N : Int → List Int} {alpha eps val least : Rat} (hv : 0 ≤ val) (ha : 0 ≤ alpha * eps) (hl : least ≤ alpha * eps) :
    ∀ (nbs : List Int) (s : Push), (∀ y ∈ s.r, 0 ≤ y.2) → s.q.Nodup → Small N alpha eps s → Enough N least s →
    let s' := nbs.foldl (relaxN N alpha eps val) s
    s'.p = s.p ∧ (∀ w, value s'.r w = value s.r w + val * (nbs.count w : Nat)) ∧ mass s'.r = mass s.r + val * (nbs.length : Nat) ∧
      (∀ y ∈ s'.r, 0 ≤ y.2) ∧ s'.q.Nodup ∧ Small N alpha eps s' ∧ Enough N least s'
  | [], s, h1, h2, h3, h4 => by
    refine ⟨rfl, fun w => ?_, ?_, h1, h2, h3, h4⟩
    · show value s.r w = _
      simp only [List.count_nil]
      have : ((0 : Nat) : Rat) = 0 := rfl
      rw [this]; grind
    · show mass s.r = _
      simp only [List.length_nil]
      have : ((0 : Nat) : Rat) = 0 := rfl
      rw [this]; grind
  | v :: nbs, s, h1, h2, h3, h4 => by
    have hr : (relaxN N alpha eps val s v).r = add v val s.r := by rw [relaxN]; split <;> rfl
    have hp : (relaxN N alpha eps val s v).p = s.p := by rw [relaxN]; split <;> rfl
    have h1' : ∀ y ∈ (relaxN N alpha eps val s v).r, 0 ≤ y.2 := by rw [hr]; exact nonneg_add hv h1
    have h2' : (relaxN N alpha eps val s v).q.Nodup := by
      rw [relaxN]; split
      · rename_i h; exact List.nodup_cons.2 ⟨h.2, h2⟩
      · exact h2
    have h3' : Small N alpha eps (relaxN N alpha eps val s v) := by
      intro w hw
      rw [hr]
      by_cases e : w = v
      · subst e
        right
        rw [relaxN] at hw
        split at hw
        · exact absurd List.mem_cons_self hw
        · rename_i h
          simp only at hw
          apply Rat.not_le.1
          intro h'
          exact h ⟨h', hw⟩
      · rw [value_add, if_neg e, Rat.add_zero]
        apply h3
        intro hq
        apply hw
        rw [relaxN]; split
        · exact List.mem_cons_of_mem _ hq
        · exact hq
    have h4' : Enough N least (relaxN N alpha eps val s v) := by
      have old : ∀ w ∈ s.q, N w = [] ∨ least ≤ value (add v val s.r) w := by
        intro w hw
        rcases h4 w hw with h | h
        · exact Or.inl h
        · right
          rw [value_add]
          split <;> grind
      intro w hw
      rw [hr]
      rw [relaxN] at hw
      split at hw
      · rename_i h
        rcases List.mem_cons.1 hw with rfl | hw
        · by_cases hn : N w = []
          · exact Or.inl hn
          · right
            have h5 : (N w).length ≠ 0 := fun e => hn (List.length_eq_zero_iff.1 e)
            have h6 := Rat.mul_le_mul_of_nonneg_left (natCast_le_one h5) ha
            rw [Rat.mul_one] at h6
            have h7 := h.1
            grind
        · exact old w hw
      · exact old w hw
    obtain ⟨a, b, c, d, e, f, k⟩ := relaxN_spec hv ha hl nbs (relaxN N alpha eps val s v) h1' h2' h3' h4'
    rw [hr] at b c
    refine ⟨a.trans hp, fun w => ?_, ?_, d, e, f, k⟩
    · rw [List.foldl_cons, b w, value_add, List.count_cons]
      by_cases e : w = v
      · subst e
        rw [if_pos rfl, if_pos (by simp), Rat.natCast_add]
        have : ((1 : Nat) : Rat) = 1 := rfl
        rw [this]; grind
      · rw [if_neg e, if_neg (by simpa using fun e' => e e'.symm), Nat.add_zero]; grind
    · rw [List.foldl_cons, c, mass_add, List.length_cons, Rat.natCast_add]
      have : ((1 : Nat) : Rat) = 1 := rfl
      rw [this]; grind

/-- What holds for the state of one input node in all rounds. -/
structure Inv (N : Int → List Int) (s : Int) (alpha eps least : Rat) (x : Push) : Prop where
  keys : (x.p.map (·.1)).Nodup
  pos : ∀ y ∈ x.p, 0 ≤ y.2
  rest : ∀ y ∈ x.r, 0 ≤ y.2
  queue : x.q.Nodup
  small : Small N alpha eps x
  enough : Enough N least x
  rank : ∀ u, value x.p u + value x.r u = (if u = s then alpha else 0) + (1 - alpha) * received N x.p u
  total : alpha * mass x.p + mass x.r ≤ alpha

theorem inv_init {N : Int → List Int} {s : Int} {alpha eps least : Rat} (ha : 0 ≤ alpha) (hl : least ≤ alpha) :
    Inv N s alpha eps least ⟨[], [(s, alpha)], [s]⟩ := by
  refine ⟨by simp, by simp, by simpa using ha, by simp, ?_, ?_, ?_, ?_⟩
  · intro w hw
    simp only [List.mem_singleton] at hw
    left
    rw [value_cons, if_neg hw, value_nil]
  · intro w hw
    simp only [List.mem_singleton] at hw
    right
    rw [value_cons, if_pos hw]
    exact hl
  · intro u
    rw [value_cons, value_nil]
    show _ = _ + _ * 0
    grind
  · simp only [mass_cons, mass_nil]; grind

theorem inv_step {N : Int → List Int} {s : Int} {alpha eps least : Rat} {x : Push} (ha : 0 ≤ alpha) (ha1 : alpha ≤ 1) (he : 0 ≤ eps)
    (hl : least ≤ alpha * eps) (h : Inv N s alpha eps least x) {u : Int} {q : List Int} (hq : x.q = u :: q) :
    Inv N s alpha eps least (stepN N alpha eps x) ∧ mass (stepN N alpha eps x).p = mass x.p + value x.r u ∧
      (N u = [] → (stepN N alpha eps x).q = q) := by
  obtain ⟨hr0, hr1⟩ := value_le_mass (l := x.r) u h.rest
  have hval : (0 : Rat) ≤ (1 - alpha) * value x.r u / ((N u).length : Rat) := by
    rw [Rat.div_def]
    apply Rat.mul_nonneg
    · exact Rat.mul_nonneg (by grind) hr0
    · by_cases h0 : (N u).length = 0
      · rw [h0]; decide +kernel
      · exact Rat.le_of_lt (Rat.inv_pos.2 (by have := natCast_le_one h0; grind))
  have hqn := h.queue
  rw [hq, List.nodup_cons] at hqn
  have h1 : ∀ y ∈ clear u x.r, 0 ≤ y.2 := nonneg_clear h.rest
  have h3 : Small N alpha eps ⟨add u (value x.r u) x.p, clear u x.r, q⟩ := by
    intro w hw
    simp only [value_clear] at hw ⊢
    by_cases e : w = u
    · rw [if_pos e]; exact Or.inl rfl
    · rw [if_neg e]
      exact h.small w (by rw [hq]; exact fun e' => (List.mem_cons.1 e').elim e hw)
  have h4 : Enough N least ⟨add u (value x.r u) x.p, clear u x.r, q⟩ := by
    intro w hw
    simp only [value_clear] at hw ⊢
    rw [if_neg (fun e : w = u => hqn.1 (e ▸ hw))]
    exact h.enough w (by rw [hq]; exact List.mem_cons_of_mem _ hw)
  have hst : stepN N alpha eps x = (N u).foldl (relaxN N alpha eps ((1 - alpha) * value x.r u / ((N u).length : Rat)))
      ⟨add u (value x.r u) x.p, clear u x.r, q⟩ := by
    rw [stepN, hq]
  obtain ⟨a, b, c, d, e, f, k⟩ := relaxN_spec (N := N) (alpha := alpha) (eps := eps) hval (Rat.mul_nonneg ha he) hl (N u)
    ⟨add u (value x.r u) x.p, clear u x.r, q⟩ h1 hqn.2 h3 h4
  rw [← hst] at a b c d e f k
  simp only at a b c
  refine ⟨⟨?_, ?_, d, e, f, k, ?_, ?_⟩, ?_, ?_⟩
  · rw [a]; exact nodup_add h.keys
  · rw [a]; exact nonneg_add hr0 h.pos
  · intro w
    rw [a, b w, value_add, value_clear, received_add]
    have := h.rank w
    by_cases e : w = u
    · subst e
      rw [if_pos rfl, if_pos rfl]
      simp only [Rat.div_def]
      grind
    · rw [if_neg e, if_neg e]
      simp only [Rat.div_def]
      grind
  · rw [a, mass_add, c, mass_clear]
    have ht := h.total
    by_cases h0 : (N u).length = 0
    · rw [h0]
      have : ((0 : Nat) : Rat) = 0 := rfl
      rw [this, Rat.mul_zero]
      have := Rat.mul_le_mul_of_nonneg_left ha1 hr0
      grind
    · have h2 : (0 : Rat) < ((N u).length : Nat) := by have := natCast_le_one h0; grind
      have h5 : (1 - alpha) * value x.r u / ((N u).length : Rat) * ((N u).length : Nat) = (1 - alpha) * value x.r u :=
        Rat.div_mul_cancel (by grind)
      rw [h5]
      grind
  · rw [a, mass_add]
  · intro hn
    rw [hst, hn]
    rfl

theorem stepN_nil {N : Int → List Int} {alpha eps : Rat} {x : Push} (h : x.q = []) : stepN N alpha eps x = x := by
  rw [stepN, h]

/-- Rounds of one input node. -/
def iterN (N : Int → List Int) (alpha eps : Rat) : Nat → Push → Push
  | 0, x => x
  | k + 1, x => iterN N alpha eps k (stepN N alpha eps x)

theorem iterN_nil {N : Int → List Int} {alpha eps : Rat} {x : Push} (h : x.q = []) : ∀ k, iterN N alpha eps k x = x
  | 0 => rfl
  | k + 1 => by rw [iterN, stepN_nil h, iterN_nil h k]

theorem iterN_add {N : Int → List Int} {alpha eps : Rat} : ∀ (j k : Nat) (x : Push),
    iterN N alpha eps (j + k) x = iterN N alpha eps k (iterN N alpha eps j x)
  | 0, k, x => by rw [Nat.zero_add]; rfl
  | j + 1, k, x => by
    rw [show j + 1 + k = (j + k) + 1 by omega, iterN, iterN, iterN_add]

theorem inv_iterN {N : Int → List Int} {s : Int} {alpha eps least : Rat} (ha : 0 ≤ alpha) (ha1 : alpha ≤ 1) (he : 0 ≤ eps)
    (hl : least ≤ alpha * eps) : ∀ (k : Nat) {x : Push}, Inv N s alpha eps least x → Inv N s alpha eps least (iterN N alpha eps k x)
  | 0, _, h => h
  | k + 1, x, h => by
    rw [iterN]
    apply inv_iterN ha ha1 he hl k
    cases hq : x.q with
    | nil => rw [stepN_nil hq]; exact h
    | cons u q => exact (inv_step ha ha1 he hl h hq).1

theorem iterN_ends {N : Int → List Int} {s : Int} {alpha eps least : Rat} (ha : 0 < alpha) (ha1 : alpha ≤ 1) (he : 0 ≤ eps)
    (hl : least ≤ alpha * eps) (h0 : 0 < least) : ∀ (k n : Nat) {x : Push}, x.q.length = n → Inv N s alpha eps least x →
    1 ≤ mass x.p + least * (k : Nat) → ∃ j, (iterN N alpha eps j x).q = []
  | k, n, x, hn, h, hm => by
    cases hq : x.q with
    | nil => exact ⟨0, hq⟩
    | cons u q =>
      obtain ⟨h1, h2, h3⟩ := inv_step (Rat.le_of_lt ha) ha1 he hl h hq
      have hr := value_le_mass (l := x.r) u h.rest
      by_cases hN : N u = []
      · obtain ⟨n', rfl⟩ : ∃ n', n = n' + 1 := ⟨q.length, by rw [← hn, hq, List.length_cons]⟩
        obtain ⟨j, hj⟩ := iterN_ends ha ha1 he hl h0 k n' (x := stepN N alpha eps x) (by
          rw [h3 hN]; rw [hq, List.length_cons] at hn; omega) h1 (by rw [h2]; have := hr.1; grind)
        exact ⟨j + 1, hj⟩
      · have h4 : least ≤ value x.r u := (h.enough u (by rw [hq]; exact List.mem_cons_self)).resolve_left hN
        cases k with
        | zero =>
          exfalso
          have : ((0 : Nat) : Rat) = 0 := rfl
          rw [this, Rat.mul_zero, Rat.add_zero] at hm
          have h5 := h.total
          have h6 := Rat.mul_le_mul_of_nonneg_left hm (Rat.le_of_lt ha)
          have h7 := hr.2
          grind
        | succ k =>
          obtain ⟨j, hj⟩ := iterN_ends ha ha1 he hl h0 k _ (x := stepN N alpha eps x) rfl h1 (by
            rw [h2]
            rw [Rat.natCast_add] at hm
            have : ((1 : Nat) : Rat) = 1 := rfl
            rw [this] at hm
            grind)
          exact ⟨j + 1, hj⟩
termination_by k n => (k, n)

theorem archimedes {x : Rat} (h : 0 < x) : ∃ k : Nat, 1 ≤ x * (k : Nat) := by
  refine ⟨x.den, ?_⟩
  have h1 : x * ((x.den : Nat) : Rat) = x.num := by
    have h1 : ((x.den : Nat) : Rat) ≠ 0 := by
      have := natCast_le_one x.den_nz
      grind
    have h2 : x = (x.num : Rat) / ((x.den : Nat) : Rat) := by
      conv => lhs; rw [← Rat.num_divInt_den x, Rat.divInt_eq_div]
      rfl
    conv => lhs; arg 1; rw [h2]
    exact Rat.div_mul_cancel h1
  rw [h1]
  have h2 : 0 < x.num := by
    have := (Rat.lt_iff 0 x).1 h
    simpa using this
  have h3 : ((1 : Int) : Rat) ≤ (x.num : Int) := by
    rw [Rat.intCast_le_intCast]; omega
  exact h3

theorem iterN_init {N : Int → List Int} {s : Int} {alpha eps : Rat} (ha : 0 < alpha) (ha1 : alpha ≤ 1) (he : 0 < eps) :
    ∃ j, (iterN N alpha eps j ⟨[], [(s, alpha)], [s]⟩).q = [] := by
  obtain ⟨least, h0, h1, h2⟩ : ∃ least : Rat, 0 < least ∧ least ≤ alpha ∧ least ≤ alpha * eps := by
    have hm : 0 < alpha * eps := Rat.mul_pos ha he
    by_cases h : alpha ≤ alpha * eps
    · exact ⟨alpha, ha, Rat.le_refl, h⟩
    · exact ⟨alpha * eps, hm, by grind, Rat.le_refl⟩
  obtain ⟨k, hk⟩ := archimedes h0
  exact iterN_ends ha ha1 (Rat.le_of_lt he) h2 h0 k _ rfl (inv_init (Rat.le_of_lt ha) h1) (by rw [mass_nil, Rat.zero_add]; exact hk)

/-! Caches -/

theorem foldl_unique {α : Type} [DecidableEq α] (x : α) : ∀ (l acc : List α),
    x ∈ l.foldl (fun acc x => if x ∈ acc then acc else acc ++ [x]) acc ↔ x ∈ acc ∨ x ∈ l
  | [], acc => by simp
  | y :: l, acc => by
    rw [List.foldl_cons, foldl_unique x l]
    split
    · rename_i h
      constructor
      · rintro (h' | h')
        · exact Or.inl h'
        · exact Or.inr (List.mem_cons_of_mem _ h')
      · rintro (h' | h')
        · exact Or.inl h'
        · rcases List.mem_cons.1 h' with rfl | h'
          · exact Or.inl h
          · exact Or.inr h'
    · rw [List.mem_append, List.mem_singleton, List.mem_cons, or_assoc]

theorem mem_unique {α : Type} [DecidableEq α] {x : α} {l : List α} : x ∈ unique l ↔ x ∈ l := by
  rw [unique, foldl_unique]; simp

theorem splitLists_eq (N : Int → List Int) : ∀ ns : List Int,
    splitLists ns (ns.flatMap N) (ns.map fun n => (N n).length) = ns.map fun n => (n, N n)
  | [] => rfl
  | n :: ns => by
    rw [List.flatMap_cons, List.map_cons, splitLists, List.take_left, List.drop_left, splitLists_eq N ns, List.map_cons]

theorem zip_map_self {α β : Type} (f : α → β) : ∀ l : List α, l.zip (l.map f) = l.map fun x => (x, f x)
  | [] => rfl
  | x :: l => by rw [List.map_cons, List.zip_cons_cons, zip_map_self f l, List.map_cons]

theorem lookup_map_append {β : Type} (f : Int → β) (k : Int) (rest : List (Int × β)) : ∀ l : List Int,
    ((l.map fun x => (x, f x)) ++ rest).lookup k = if k ∈ l then some (f k) else rest.lookup k
  | [] => by simp
  | x :: l => by
    rw [List.map_cons, List.cons_append, List.lookup_cons]
    by_cases h : k = x
    · subst h; simp
    · rw [beq_false_of_ne h]
      simp only [List.mem_cons, h, false_or]
      exact lookup_map_append f k rest l

/-- The graph answers with the neighbours `N`. -/
structure Answers (g : Graph) (types : List Int) (N : Int → List Int) : Prop where
  lists : ∀ ns, ∃ l, Multihop.clientNeighbors g ns types = some (l, ns.map fun n => (N n).length) ∧ l.map (·.dst) = ns.flatMap N
  counts : ∀ ns, g.neighborCount ns (sortUnique types) = some (ns.map fun n => (N n).length)

structure CacheOk (N : Int → List Int) (c : Cache) : Prop where
  lists : ∀ n l, c.lists.lookup n = some l → l = N n
  counts : ∀ n k, c.counts.lookup n = some k → k = (N n).length
  closed : ∀ n l, c.lists.lookup n = some l → ∀ v ∈ l, (c.counts.lookup v).isSome

theorem lookupCounts_spec {types : List Int} {N : Int → List Int} (h : Answers g types N) {counts : List (Int × Nat)}
    (hc : ∀ n k, counts.lookup n = some k → k = (N n).length) (nbs : List Int) :
    ∃ counts', lookupCounts g types counts nbs = some counts' ∧ (∀ n k, counts'.lookup n = some k → k = (N n).length) ∧
      (∀ n, (counts.lookup n).isSome → (counts'.lookup n).isSome) ∧ ∀ n ∈ nbs, (counts'.lookup n).isSome := by
  rw [lookupCounts]
  split
  · rename_i h0
    refine ⟨counts, rfl, hc, fun _ h => h, ?_⟩
    intro n hn
    cases hl : counts.lookup n with
    | some k => rfl
    | none =>
      have : n ∈ unique (nbs.filter fun n => (counts.lookup n).isNone) := mem_unique.2 (List.mem_filter.2 ⟨hn, by rw [hl]; rfl⟩)
      rw [h0] at this
      cases this
  · rw [h.counts, Option.map_some, zip_map_self]
    refine ⟨_, rfl, ?_, ?_, ?_⟩
    · intro n k hk
      rw [lookup_map_append] at hk
      split at hk
      · cases hk; rfl
      · exact hc n k hk
    · intro n hn
      rw [lookup_map_append]
      split
      · rfl
      · exact hn
    · intro n hn
      rw [lookup_map_append]
      split
      · rfl
      · rename_i h1
        cases hl : counts.lookup n with
        | some k => rfl
        | none => exact absurd (mem_unique.2 (List.mem_filter.2 ⟨hn, by rw [hl]; rfl⟩)) h1

theorem lookupLists_spec {types : List Int} {N : Int → List Int} (h : Answers g types N) {c : Cache} (hc : CacheOk N c)
    (input : List Int) : ∃ c', lookupLists g types c input = some c' ∧ CacheOk N c' ∧ ∀ n ∈ input, c'.lists.lookup n = some (N n) := by
  obtain ⟨new, hnew⟩ : ∃ new, new = input.filter fun n => (c.lists.lookup n).isNone := ⟨_, rfl⟩
  obtain ⟨l, h1, h2⟩ : ∃ l : List Nbr, (if new = [] then some ([], []) else Multihop.clientNeighbors g new types) =
      some (l, new.map fun n => (N n).length) ∧ l.map (·.dst) = new.flatMap N := by
    split
    · rename_i h0; subst h0; exact ⟨[], rfl, rfl⟩
    · exact h.lists new
  have h3 : ∀ n k, ((new.map fun n => (n, (N n).length)) ++ c.counts).lookup n = some k → k = (N n).length := by
    intro n k hk
    rw [lookup_map_append] at hk
    split at hk
    · cases hk; rfl
    · exact hc.counts n k hk
  obtain ⟨counts', h4, h5, h6, h7⟩ := lookupCounts_spec h h3 (unique ((new.map fun n => (n, N n)).flatMap (·.2)))
  have key : lookupLists g types c input = some ⟨counts', (new.map fun n => (n, N n)) ++ c.lists⟩ := by
    rw [lookupLists]
    simp only
    rw [← hnew, h1, Option.bind_some, h2, splitLists_eq, zip_map_self, h4]
    rfl
  refine ⟨_, key, ⟨?_, h5, ?_⟩, ?_⟩
  · intro n l hl
    simp only [lookup_map_append] at hl
    split at hl
    · cases hl; rfl
    · exact hc.lists n l hl
  · intro n l hl v hv
    simp only [lookup_map_append] at hl
    split at hl
    · rename_i hn
      cases hl
      apply h7
      rw [mem_unique, List.mem_flatMap]
      exact ⟨(n, N n), List.mem_map.2 ⟨n, hn, rfl⟩, hv⟩
    · apply h6
      rw [lookup_map_append]
      split
      · rfl
      · exact hc.closed n l hl v hv
  · intro n hn
    simp only [lookup_map_append]
    split
    · rfl
    · rename_i h8
      cases hl : c.lists.lookup n with
      | some l => rw [hc.lists n l hl]
      | none => exact absurd (by rw [hnew]; exact List.mem_filter.2 ⟨hn, by rw [hl]; rfl⟩) h8

theorem foldl_relax {N : Int → List Int} {alpha eps val : Rat} {counts : List (Int × Nat)} : ∀ (nbs : List Int) (s : Push),
    (∀ v ∈ nbs, counts.lookup v = some (N v).length) →
    nbs.foldl (relax alpha eps counts val) s = nbs.foldl (relaxN N alpha eps val) s
  | [], _, _ => rfl
  | v :: nbs, s, h => by
    rw [List.foldl_cons, List.foldl_cons]
    have : relax alpha eps counts val s v = relaxN N alpha eps val s v := by
      rw [relax, relaxN, h v List.mem_cons_self]
      rfl
    rw [this]
    exact foldl_relax nbs _ fun w hw => h w (List.mem_cons_of_mem _ hw)

theorem step_eq {N : Int → List Int} {alpha eps : Rat} {c : Cache} {x : Push} (hc : CacheOk N c)
    (h : ∀ n ∈ x.q, c.lists.lookup n = some (N n)) : step alpha eps c x = stepN N alpha eps x := by
  cases hq : x.q with
  | nil => rw [step, stepN, hq]
  | cons u q =>
    have h1 := h u (by rw [hq]; exact List.mem_cons_self)
    rw [step, stepN, hq]
    simp only
    rw [h1, Option.getD_some]
    apply foldl_relax
    intro v hv
    cases hl : c.counts.lookup v with
    | none => have := hc.closed u _ h1 v hv; rw [hl] at this; cases this
    | some k => rw [hc.counts v k hl]

theorem loop_sound {types : List Int} {N : Int → List Int} {alpha eps : Rat} (h : Answers g types N) : ∀ {fuel : Nat} {c : Cache}
    {ss ss' : List Push}, CacheOk N c → loop g types alpha eps fuel c ss = some ss' →
    (∃ j, ss' = ss.map (iterN N alpha eps j)) ∧ ∀ x ∈ ss', x.q = []
  | 0, c, ss, ss', hc, hl => by
    rw [loop] at hl
    split at hl
    · rename_i h0
      cases hl
      exact ⟨⟨0, by simp [iterN]⟩, by simpa using h0⟩
    · cases hl
  | fuel + 1, c, ss, ss', hc, hl => by
    rw [loop] at hl
    split at hl
    · rename_i h0
      cases hl
      exact ⟨⟨0, by simp [iterN]⟩, by simpa using h0⟩
    · obtain ⟨c', h1, h2, h3⟩ := lookupLists_spec h hc (unique (ss.flatMap (·.q)))
      rw [h1, Option.bind_some] at hl
      have h4 : ss.map (step alpha eps c') = ss.map (stepN N alpha eps) := by
        apply List.map_congr_left
        intro x hx
        exact step_eq h2 fun n hn => h3 n (mem_unique.2 (List.mem_flatMap.2 ⟨x, hx, hn⟩))
      rw [h4] at hl
      obtain ⟨⟨j, hj⟩, h5⟩ := loop_sound h h2 hl
      refine ⟨⟨j + 1, ?_⟩, h5⟩
      rw [hj, List.map_map]
      rfl

theorem loop_complete {types : List Int} {N : Int → List Int} {alpha eps : Rat} (h : Answers g types N) : ∀ (fuel : Nat) {c : Cache}
    {ss : List Push}, CacheOk N c → (∀ x ∈ ss, (iterN N alpha eps fuel x).q = []) → ∃ ss', loop g types alpha eps fuel c ss = some ss'
  | 0, c, ss, hc, hs => by
    rw [loop, if_pos (by simpa [iterN] using hs)]
    exact ⟨ss, rfl⟩
  | fuel + 1, c, ss, hc, hs => by
    rw [loop]
    split
    · exact ⟨ss, rfl⟩
    · obtain ⟨c', h1, h2, h3⟩ := lookupLists_spec h hc (unique (ss.flatMap (·.q)))
      rw [h1, Option.bind_some]
      have h4 : ss.map (step alpha eps c') = ss.map (stepN N alpha eps) := by
        apply List.map_congr_left
        intro x hx
        exact step_eq h2 fun n hn => h3 n (mem_unique.2 (List.mem_flatMap.2 ⟨x, hx, hn⟩))
      rw [h4]
      apply loop_complete h fuel h2
      intro x hx
      obtain ⟨y, hy, rfl⟩ := List.mem_map.1 hx
      exact hs y hy

/-- One number of rounds is enough for all input nodes. -/
theorem iterN_all {N : Int → List Int} {alpha eps : Rat} (ha : 0 < alpha) (ha1 : alpha ≤ 1) (he : 0 < eps) : ∀ nodes : List Int,
    ∃ j, ∀ n ∈ nodes, (iterN N alpha eps j ⟨[], [(n, alpha)], [n]⟩).q = []
  | [] => ⟨0, by simp⟩
  | n :: nodes => by
    obtain ⟨j, hj⟩ := iterN_all ha ha1 he nodes
    obtain ⟨k, hk⟩ := iterN_init (N := N) (s := n) ha ha1 he
    refine ⟨j + k, ?_⟩
    intro x hx
    rcases List.mem_cons.1 hx with rfl | hx
    · rw [Nat.add_comm, iterN_add, iterN_nil hk]; exact hk
    · rw [iterN_add, iterN_nil (hj x hx)]; exact hj x hx

/-! Selection -/

theorem insert_perm (x : Rat × Int) : ∀ l, (insert x l).Perm (x :: l)
  | [] => .refl _
  | y :: l => by
    rw [insert]
    split
    · exact .refl _
    · exact ((insert_perm x l).cons y).trans (.swap x y l)

theorem insert_sorted (x : Rat × Int) : ∀ {l : List (Rat × Int)}, l.Pairwise (fun a b => a.1 ≤ b.1) →
    (insert x l).Pairwise (fun a b => a.1 ≤ b.1)
  | [], _ => by simp [insert]
  | y :: l, h => by
    rw [List.pairwise_cons] at h
    rw [insert]
    split
    · rename_i hb
      have hb' : x.1 ≤ y.1 := by
        rw [before, decide_eq_true_eq] at hb
        rcases hb with hb | hb
        · exact Rat.le_of_lt hb
        · rw [hb.1]; exact Rat.le_refl
      rw [List.pairwise_cons, List.pairwise_cons]
      refine ⟨?_, h⟩
      intro z hz
      rcases List.mem_cons.1 hz with rfl | hz
      · exact hb'
      · exact Rat.le_trans hb' (h.1 z hz)
    · rename_i hb
      have hb' : y.1 ≤ x.1 := by
        rw [before, decide_eq_true_eq] at hb
        apply Rat.not_lt.1
        intro h'
        exact hb (Or.inl h')
      rw [List.pairwise_cons]
      refine ⟨?_, insert_sorted x h.2⟩
      intro z hz
      rcases List.mem_cons.1 ((insert_perm x l).subset hz) with rfl | hz
      · exact hb'
      · exact h.1 z hz

/-- `pq` holds the best of the entries `done`, the others are `out`. -/
structure Best (count : Nat) (done : List (Int × Rat)) (pq : List (Rat × Int)) (out : List (Int × Rat)) : Prop where
  perm : ((pq.map fun x => (x.2, x.1)) ++ out).Perm done
  sorted : pq.Pairwise (fun a b => a.1 ≤ b.1)
  best : ∀ c ∈ pq, ∀ x ∈ out, x.2 ≤ c.1
  length : pq.length = min count done.length

theorem select_spec {count : Nat} (hc : 0 < count) : ∀ (l : List (Int × Rat)) {done : List (Int × Rat)} {pq : List (Rat × Int)}
    {out : List (Int × Rat)}, Best count done pq out → ∃ pq' out', select count pq l = some pq' ∧ Best count (done ++ l) pq' out'
  | [], done, pq, out, h => ⟨pq, out, rfl, by rw [List.append_nil]; exact h⟩
  | (n, x) :: l, done, pq, out, h => by
    have e : done ++ (n, x) :: l = (done ++ [(n, x)]) ++ l := by simp
    rw [e, select.eq_def]
    simp only
    have hlen := h.perm.length_eq
    rw [List.length_append, List.length_map] at hlen
    split
    · rename_i hlt
      have hl := h.length
      have ho : out = [] := by
        rw [← List.length_eq_zero_iff]; omega
      subst ho
      apply select_spec hc l (out := [])
      refine ⟨?_, insert_sorted _ h.sorted, by simp, ?_⟩
      · have h1 := (insert_perm (x, n) pq).map fun x => (x.2, x.1)
        rw [List.append_nil]
        refine h1.trans ?_
        rw [List.map_cons]
        have h2 := h.perm
        rw [List.append_nil] at h2
        exact (h2.cons _).trans (List.perm_append_comm (l₁ := [(n, x)]))
      · rw [(insert_perm _ _).length_eq, List.length_cons, List.length_append, List.length_singleton]
        omega
    · rename_i hlt
      have hl := h.length
      cases pq with
      | nil => simp only [List.length_nil] at hlt hl; omega
      | cons top rest =>
        simp only
        have hs := List.pairwise_cons.1 h.sorted
        split
        · rename_i hgt
          apply select_spec hc l (out := out ++ [(n, x)])
          refine ⟨?_, h.sorted, ?_, ?_⟩
          · rw [← List.append_assoc]
            exact h.perm.append_right _
          · intro c hcm y hy
            rcases List.mem_append.1 hy with hy | hy
            · exact h.best c hcm y hy
            · rw [List.mem_singleton] at hy
              subst hy
              rcases List.mem_cons.1 hcm with rfl | hcm
              · exact Rat.le_of_lt hgt
              · exact Rat.le_trans (Rat.le_of_lt hgt) (hs.1 c hcm)
          · rw [List.length_append, List.length_singleton]
            omega
        · rename_i hgt
          have hle : top.1 ≤ x := Rat.not_lt.1 hgt
          apply select_spec hc l (out := (top.2, top.1) :: out)
          refine ⟨?_, insert_sorted _ hs.2, ?_, ?_⟩
          · have h1 := (insert_perm (x, n) rest).map fun x => (x.2, x.1)
            refine (h1.append_right _).trans ?_
            rw [List.map_cons, List.cons_append]
            have h2 := h.perm
            rw [List.map_cons, List.cons_append] at h2
            have h3 : ((rest.map fun x => (x.2, x.1)) ++ (top.2, top.1) :: out).Perm done := List.perm_middle.trans h2
            exact (h3.cons _).trans (List.perm_append_comm (l₁ := [(n, x)]))
          · intro c hcm y hy
            have hy' : y.2 ≤ top.1 := by
              rcases List.mem_cons.1 hy with rfl | hy
              · exact Rat.le_refl
              · exact h.best top List.mem_cons_self y hy
            rcases List.mem_cons.1 ((insert_perm _ _).subset hcm) with rfl | hcm
            · exact Rat.le_trans hy' hle
            · exact Rat.le_trans hy' (hs.1 c hcm)
          · rw [(insert_perm _ _).length_eq, List.length_append, List.length_singleton]
            simp only [List.length_cons] at hl ⊢
            omega

theorem row_spec {count : Nat} (hc : 0 < count) (default : Int × Rat) (p : List (Int × Rat)) :
    ∃ l, row count default p = some l ∧ Spec.BestRow count default p l := by
  obtain ⟨pq, out, h1, h2⟩ := select_spec hc p (done := []) (pq := []) (out := []) ⟨by simp, by simp, by simp, by simp⟩
  rw [List.nil_append] at h2
  refine ⟨_, by rw [row, h1]; rfl, pq.map fun x => (x.2, x.1), out, h2.perm, by rw [List.length_map, h2.length], ?_, ?_, ?_⟩
  · intro c hcm x hx
    obtain ⟨y, hy, rfl⟩ := List.mem_map.1 hcm
    exact h2.best y hy x hx
  · rw [List.pairwise_map]
    exact h2.sorted
  · show _ ++ List.replicate (count - pq.length) default = _
    rw [h2.length, show count - min count p.length = count - p.length by omega]

theorem answers (h : Built C wm m parts g) (types : List Int) (hgap : ∀ n, Spec.NoGap parts n types) :
    Answers g types fun n => (Spec.neighbors parts n types).map (·.dst) := by
  refine ⟨?_, ?_⟩
  · intro ns
    obtain ⟨l, h1, h2⟩ := SubGraph.neighborsAll_dst h types hgap ns
    exact ⟨l, by simpa using h1, h2⟩
  · intro ns
    have h1 : ∀ n, g.neighborCount1 (sortUnique types) n = some ((Spec.neighbors parts n types).map (·.dst)).length := by
      intro n
      obtain ⟨items, hg, -⟩ := h.graphOk
      rw [hg.neighborCount1]
      obtain ⟨l, h2, h3⟩ := SubGraph.neighbors1_dst h types n (hgap n)
      rw [hg.fullNeighbor1] at h2
      simp only [Option.some.injEq, Prod.mk.injEq] at h2
      have h4 := congrArg List.length (foundSeen_noWeight items n (sortUnique types))
      rw [List.length_map, List.length_map] at h4
      rw [List.length_map]
      exact congrArg some (h4.symm.trans h2.2)
    rw [Graph.neighborCount]
    induction ns with
    | nil => rfl
    | cons n ns ih => rw [List.mapM_cons, h1, ih]; rfl

end DeepGNN.Ppr
