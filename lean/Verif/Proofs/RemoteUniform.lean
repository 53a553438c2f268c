import Verif.Proofs.EachReply
import Verif.Proofs.Sampling
import Verif.Props.C18
import Verif.Spec.RemoteSampling

namespace DeepGNN

open Spec

/-! Callbacks that succeed more often. -/

theorem foldlM_mono {σ β : Type} {f f' : σ → β → Option σ} (h : ∀ o x o', f o x = some o' → f' o x = some o')
    (l : List β) (o o' : σ) (hr : l.foldlM f o = some o') : l.foldlM f' o = some o' := by
  induction l generalizing o with
  | nil => exact hr
  | cons x l ih =>
    rw [List.foldlM_cons] at hr ⊢
    obtain ⟨o1, h1, h2⟩ := Option.bind_eq_some_iff.1 hr
    rw [h _ _ _ h1]
    exact ih o1 h2

theorem replaceSlots_mono {σ : Type} {up up' : σ → Nat → Nat → Option σ}
    (h : ∀ o p q o', up o p q = some o' → up' o p q = some o') (is kept new : List Nat) (o o' : σ)
    (hr : replaceSlots up is kept new o = some o') : replaceSlots up' is kept new o = some o' := by
  induction is generalizing kept new o with
  | nil => exact hr
  | cons i is ih =>
    simp only [replaceSlots] at hr ⊢
    split
    · rename_i hk; rw [if_pos hk] at hr; exact ih _ _ _ hr
    · rename_i hk
      rw [if_neg hk] at hr
      cases new with
      | nil => cases hr
      | cons j js =>
        simp only [] at hr ⊢
        obtain ⟨o1, h1, h2⟩ := Option.bind_eq_some_iff.1 hr
        rw [h _ _ _ _ h1, Option.bind_some]
        exact ih _ _ _ h2

theorem mergeAdd_mono {σ : Type} (R : Draws) {up up' : σ → Nat → Nat → Option σ}
    (h : ∀ o p q o', up o p q = some o' → up' o p q = some o') (k n : Nat) (st st' : σ × Nat × Nat)
    (hr : mergeAdd R up k n st = some st') : mergeAdd R up' k n st = some st' := by
  obtain ⟨o, seen, s⟩ := st
  simp only [mergeAdd] at hr ⊢
  split
  · rename_i hk
    rw [if_pos hk] at hr
    obtain ⟨o1, h1, h2⟩ := Option.map_eq_some_iff.1 hr
    rw [foldlM_mono (fun o i o' => h o (seen + i) i o') _ _ _ h1, Option.map_some, h2]
  · rename_i hk
    rw [if_neg hk] at hr
    obtain ⟨x, h1, h2⟩ := Option.bind_eq_some_iff.1 hr
    rw [h1, Option.bind_some]
    obtain ⟨y, h3, h4⟩ := Option.bind_eq_some_iff.1 h2
    simp only [h3, Option.bind_some]
    obtain ⟨o1, h5, h6⟩ := Option.map_eq_some_iff.1 h4
    rw [replaceSlots_mono h _ _ _ _ _ h5, Option.map_some, h6]

theorem withReplacementAdd_mono {σ : Type} (R : Draws) {up up' : σ → Nat → Nat → Option σ} (k n : Nat)
    (h : 0 < k → ∀ o p q o', up o p q = some o' → up' o p q = some o') (st st' : σ × Nat × Nat)
    (hr : withReplacementAdd R up k n st = some st') : withReplacementAdd R up' k n st = some st' := by
  cases k with
  | zero => exact hr
  | succ k =>
    simp only [withReplacementAdd] at hr ⊢
    obtain ⟨x, h1, h2⟩ := Option.map_eq_some_iff.1 hr
    rw [foldlM_mono ?_ _ _ _ h1, Option.map_some, h2]
    intro o i o' ho
    split
    · rename_i hc
      rw [if_pos hc] at ho
      obtain ⟨o1, h3, h4⟩ := Option.map_eq_some_iff.1 ho
      rw [h (by omega) _ _ _ _ h3, Option.map_some, h4]
    · rename_i hc
      rw [if_neg hc] at ho
      exact ho

/-! One server. -/

variable {α : Type}

/-- A callback for one row. -/
def rowUpdate (count : Nat) (row : List α) (out : List α) (pick off : Nat) : Option (List α) :=
  if pick < out.length then row[off % count]?.map (out.set pick) else none

theorem knownNodes_nil (as : List (Option α)) : knownNodes [] as = [] := rfl

theorem knownNodes_none (n : Int) (ns : List Int) (as : List (Option α)) :
    knownNodes (n :: ns) (none :: as) = knownNodes ns as := rfl

theorem knownNodes_some (n : Int) (ns : List Int) (a : α) (as : List (Option α)) :
    knownNodes (n :: ns) (some a :: as) = (n, a) :: knownNodes ns as := rfl

theorem known_tail {n : Int} {ns : List Int} {a : Option α} {as : List (Option α)}
    (h : Answers (n :: ns) (a :: as)) : Answers ns as :=
  ⟨by simpa using h.length, fun x hx y hy => h.known x (by simp [hx]) y (by simp [hy])⟩

theorem known_head {n : Int} {ns : List Int} {as : List (Option α)}
    (h : Answers (n :: ns) (none :: as)) : ∀ x ∈ knownNodes ns as, x.1 ≠ n := by
  intro x hx hxn
  obtain ⟨y, hy, h1⟩ := List.mem_filterMap.1 hx
  obtain ⟨a, h2, h3⟩ := Option.map_eq_some_iff.1 h1
  have := h.known (n, none) (by simp) y (by simp [hy]) (by rw [← hxn, ← h3])
  rw [h2] at this
  simp at this

/-- A server: what it has already been asked (`pre`), and the answers for the remaining nodes. -/
structure Srv (α : Type) where
  pre : List (Int × (Nat × List α))
  as : List (Option (Nat × List α))

/-- Its reply and the position of the iterator. -/
def Srv.state (v : Srv α) (ns : List Int) : UReply α × Nat :=
  let k := v.pre ++ knownNodes ns v.as
  ({ nodes := k.map (·.1), counts := k.map (·.2.1), nbrs := k.flatMap (·.2.2) }, v.pre.length)

/-- All rows have `count` elements. -/
def Srv.Ok (count : Nat) (ns : List Int) (v : Srv α) : Prop :=
  Answers ns v.as ∧ (∀ x ∈ v.pre, x.2.2.length = count) ∧ ∀ x, some x ∈ v.as → x.2.length = count

/-- The server after node `n` has been handled. -/
def Srv.next (v : Srv α) (n : Int) : Srv α :=
  match v.as with
  | [] => v
  | none :: as => { v with as := as }
  | some a :: as => { pre := v.pre ++ [(n, a)], as := as }

theorem length_flatMap_eq_mul {α β : Type} (f : α → List β) (c : Nat) (l : List α) (h : ∀ x ∈ l, (f x).length = c) :
    (l.flatMap f).length = l.length * c := by
  induction l with
  | nil => simp
  | cons x l ih =>
    rw [List.flatMap_cons, List.length_append, h x (by simp), ih (fun y hy => h y (by simp [hy])), List.length_cons,
      Nat.add_mul]
    omega

theorem knownNodes_rows {count : Nat} {ns : List Int} {as : List (Option (Nat × List α))}
    (h : ∀ x, some x ∈ as → x.2.length = count) : ∀ x ∈ knownNodes ns as, x.2.2.length = count := by
  intro x hx
  obtain ⟨y, hy, h1⟩ := List.mem_filterMap.1 hx
  obtain ⟨a, h2, h3⟩ := Option.map_eq_some_iff.1 h1
  have := (List.of_mem_zip hy).2
  rw [h2] at this
  rw [← h3]
  exact h a this

/-- The body of the loop for one server: nothing if it does not know the node, and else its answer for this node. -/
theorem uniformReply_eq (R : Draws) (wr : Bool) (count : Nat) (n : Int) (ns : List Int) (v : Srv α) (hv : v.Ok count (n :: ns))
    (st : List α × Nat × Nat) :
    uniformReply R wr count n (v.state (n :: ns)) st =
      (match (v.as[0]?).join with
        | none => some st
        | some a => if wr then mergeAdd R (rowUpdate count a.2) count a.1 st
            else withReplacementAdd R (rowUpdate count a.2) count a.1 st).map fun st => ((v.next n).state ns, st) := by
  obtain ⟨h1, h2, h3⟩ := hv
  obtain ⟨pre, as⟩ := v
  simp only [] at h1 h2 h3
  cases as with
  | nil => have := h1.length; simp at this
  | cons a as =>
    cases a with
    | none =>
      have hne : ¬ ((pre ++ knownNodes ns as).map (·.1))[pre.length]? = some n := by
        rw [List.getElem?_map, List.getElem?_append_right (by omega), Nat.sub_self]
        intro hh
        obtain ⟨x, hx, hxn⟩ := Option.map_eq_some_iff.1 hh
        exact known_head h1 x (List.mem_of_getElem? hx) hxn
      simp only [uniformReply, Srv.state, knownNodes_none, Srv.next, List.getElem?_cons_zero, Option.join_some,
        Option.map_some]
      exact if_neg hne
    | some a =>
      have hget : (pre ++ knownNodes (n :: ns) (some a :: as))[pre.length]? = some (n, a) := by
        rw [List.getElem?_append_right (by omega), Nat.sub_self, knownNodes_some]; rfl
      have hn : ((pre ++ knownNodes (n :: ns) (some a :: as)).map (·.1))[pre.length]? = some n := by
        rw [List.getElem?_map, hget]; rfl
      have hc : ((pre ++ knownNodes (n :: ns) (some a :: as)).map (·.2.1))[pre.length]? = some a.1 := by
        rw [List.getElem?_map, hget]; rfl
      have hrow : a.2.length = count := h3 a (by simp)
      have hup : replyUpdate count ⟨(pre ++ knownNodes (n :: ns) (some a :: as)).map (·.1),
          (pre ++ knownNodes (n :: ns) (some a :: as)).map (·.2.1),
          (pre ++ knownNodes (n :: ns) (some a :: as)).flatMap (·.2.2)⟩ pre.length = rowUpdate count a.2 := by
        funext out pick off
        simp only [replyUpdate, rowUpdate]
        split
        · congr 1
          have hpre : (pre.flatMap (·.2.2)).length = count * pre.length := by
            rw [length_flatMap_eq_mul _ count _ h2, Nat.mul_comm]
          rw [knownNodes_some, List.flatMap_append, List.flatMap_cons, List.getElem?_append_right (by omega), hpre]
          rw [show count * pre.length + off % count - count * pre.length = off % count by omega]
          by_cases hc0 : count = 0
          · have h4 : (knownNodes ns as).flatMap (·.2.2) = [] := by
              apply List.eq_nil_of_length_eq_zero
              rw [length_flatMap_eq_mul _ count _ (knownNodes_rows fun x hx => h3 x (by simp [hx])), hc0, Nat.mul_zero]
            rw [h4, List.append_nil]
          · rw [List.getElem?_append_left]
            rw [hrow]
            exact Nat.mod_lt _ (by omega)
        · rfl
      have hst : (Srv.next ⟨pre, some a :: as⟩ n).state ns =
          ({ nodes := (pre ++ knownNodes (n :: ns) (some a :: as)).map (·.1),
             counts := (pre ++ knownNodes (n :: ns) (some a :: as)).map (·.2.1),
             nbrs := (pre ++ knownNodes (n :: ns) (some a :: as)).flatMap (·.2.2) }, pre.length + 1) := by
        simp [Srv.next, Srv.state, knownNodes_some]
      rw [hst]
      simp only [uniformReply, Srv.state, hn, if_true, hc, Option.bind_some, hup, List.getElem?_cons_zero, Option.join_some]

theorem Srv.next_ok {count : Nat} {n : Int} {ns : List Int} {v : Srv α} (hv : v.Ok count (n :: ns)) : (v.next n).Ok count ns := by
  obtain ⟨h1, h2, h3⟩ := hv
  obtain ⟨pre, as⟩ := v
  cases as with
  | nil => have := h1.length; simp at this
  | cons a as =>
    cases a with
    | none => exact ⟨known_tail h1, h2, fun x hx => h3 x (List.mem_cons_of_mem _ hx)⟩
    | some a =>
      refine ⟨known_tail h1, ?_, fun x hx => h3 x (List.mem_cons_of_mem _ hx)⟩
      intro x hx
      simp only [Srv.next, List.mem_append, List.mem_singleton] at hx
      rcases hx with hx | rfl
      · exact h2 x hx
      · exact h3 a (by simp)

/-- One merge step. -/
def addRow (R : Draws) (wr : Bool) (count : Nat) (st : List α × Nat × Nat) (a : Nat × List α) :
    Option (List α × Nat × Nat) :=
  if wr then mergeAdd R (rowUpdate count a.2) count a.1 st else withReplacementAdd R (rowUpdate count a.2) count a.1 st

/-- The loop over the replies merges exactly the answers for the node. -/
theorem uniformReplies_eq (R : Draws) (wr : Bool) (count : Nat) (n : Int) (ns : List Int) (vs : List (Srv α))
    (hv : ∀ v ∈ vs, v.Ok count (n :: ns)) (st : List α × Nat × Nat) :
    uniformReplies R wr count n (vs.map (·.state (n :: ns))) st =
      ((vs.filterMap fun v => (v.as[0]?).join).foldlM (addRow R wr count) st).map fun st =>
        (vs.map fun v => (v.next n).state ns, st) := by
  induction vs generalizing st with
  | nil => rfl
  | cons v vs ih =>
    rw [List.map_cons, uniformReplies, uniformReply_eq R wr count n ns v (hv v (by simp)), List.filterMap_cons]
    cases h : (v.as[0]?).join with
    | none =>
      simp only [Option.map_some, Option.bind_some, ih (fun w hw => hv w (by simp [hw]))]
      cases (vs.filterMap fun v => (v.as[0]?).join).foldlM (addRow R wr count) st <;> rfl
    | some a =>
      simp only [List.foldlM_cons]
      rw [show (if wr then mergeAdd R (rowUpdate count a.2) count a.1 st
        else withReplacementAdd R (rowUpdate count a.2) count a.1 st) = addRow R wr count st a from rfl]
      cases addRow R wr count st a with
      | none => rfl
      | some st1 =>
        simp only [Option.map_some, Option.bind_some, ih (fun w hw => hv w (by simp [hw])), Option.bind_eq_bind]
        cases (vs.filterMap fun v => (v.as[0]?).join).foldlM (addRow R wr count) st1 <;> rfl

theorem next_as (v : Srv α) (n : Int) (p : Nat) : ((v.next n).as[p]?).join = (v.as[p + 1]?).join := by
  obtain ⟨pre, as⟩ := v
  cases as with
  | nil => simp [Srv.next]
  | cons a as => cases a <;> simp [Srv.next]

/-- The loop over the nodes: row after row. -/
theorem uniformNodes_eq (R : Draws) (wr : Bool) (count : Nat) (default : α) (P : List (Nat × List α) → List α → Prop)
    (ns : List Int) (vs : List (Srv α)) (hv : ∀ v ∈ vs, v.Ok count ns) (s : Nat)
    (hP : ∀ p < ns.length, ∀ s, ∃ out seen s', (vs.filterMap fun v => (v.as[p]?).join).foldlM (addRow R wr count)
      (List.replicate count default, 0, s) = some (out, seen, s') ∧ P (vs.filterMap fun v => (v.as[p]?).join) out) :
    ∃ outs s', uniformNodes R wr count default ns (vs.map (·.state ns)) s = some (outs, s') ∧ outs.length = ns.length ∧
      ∀ (p : Nat) (out : List α), outs[p]? = some out → P (vs.filterMap fun v => (v.as[p]?).join) out := by
  induction ns generalizing vs s with
  | nil => exact ⟨[], s, rfl, rfl, by simp⟩
  | cons n ns ih =>
    obtain ⟨out, seen, s1, h1, h2⟩ := hP 0 (by simp) s
    have hshift : ∀ p, ((vs.map (·.next n)).filterMap fun v => (v.as[p]?).join) =
        vs.filterMap fun v => (v.as[p + 1]?).join := by
      intro p
      rw [List.filterMap_map]
      congr 1
      funext v
      exact next_as v n p
    obtain ⟨outs, s2, h3, h4, h5⟩ := ih (vs.map (·.next n)) (by
        intro v hvm
        obtain ⟨w, hw, rfl⟩ := List.mem_map.1 hvm
        exact Srv.next_ok (hv w hw)) s1 (by
        intro p hp s
        rw [hshift p]
        exact hP (p + 1) (by simpa using hp) s)
    refine ⟨out :: outs, s2, ?_, by simp [h4], ?_⟩
    · rw [uniformNodes, uniformReplies_eq R wr count n ns vs hv, h1]
      simp only [Option.map_some, Option.bind_some]
      rw [List.map_map] at h3
      rw [show (vs.map fun v => (v.next n).state ns) = vs.map ((fun v => v.state ns) ∘ fun v => v.next n) from rfl, h3]
      rfl
    · intro p o hp
      cases p with
      | zero =>
        simp only [List.getElem?_cons_zero, Option.some.injEq] at hp
        subst hp
        exact h2
      | succ p =>
        have := h5 p o (by simpa using hp)
        rwa [hshift p] at this

end DeepGNN
