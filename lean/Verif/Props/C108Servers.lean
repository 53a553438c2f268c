import Verif.Spec.ServerUniform
import Verif.Props.C108

/-
C108 for several servers.
-/

namespace DeepGNN

open Toss
open DeepGNN.Spec (slotHits choices serverDraws mergedHits)

namespace Toss

theorem choices_length {δ : Type} (l : List δ) (ls : List (List δ)) : (choices (l :: ls)).length = l.length * (choices ls).length := by
  simp only [choices, List.length_flatMap, List.length_map]
  rw [List.map_const', List.sum_replicate_nat]

theorem choices_at {δ : Type} (P : δ → Bool) (ls : List (List δ)) : ∀ (p : Nat) (l : List δ), ls[p]? = some l →
    (choices ls).countP (fun D => (D[p]?).any P) * l.length = l.countP P * (choices ls).length := by
  induction ls with
  | nil => intro p l h; simp at h
  | cons a ls ih =>
    intro p l h
    rw [choices_length]
    simp only [choices, countP_flatMap_sum, List.countP_map]
    cases p with
    | zero =>
      obtain rfl : a = l := by simpa using h
      have : ∀ k : List δ, (k.map fun d => (choices ls).countP ((fun D : List δ => (D[0]?).any P) ∘ fun x => d :: x)).sum =
          k.countP P * (choices ls).length := by
        intro k
        induction k with
        | nil => simp
        | cons d k ihk =>
          rw [List.map_cons, List.sum_cons, ihk, List.countP_cons]
          by_cases hd : P d = true
          · have : (choices ls).countP ((fun D : List δ => (D[0]?).any P) ∘ fun x => d :: x) = (choices ls).length := by
              rw [List.countP_eq_length]
              intro D _
              simpa using hd
            rw [this, if_pos hd, Nat.add_mul]; omega
          · have : (choices ls).countP ((fun D : List δ => (D[0]?).any P) ∘ fun x => d :: x) = 0 := by
              rw [List.countP_eq_zero]
              intro D _
              simpa using hd
            rw [this, if_neg hd, Nat.zero_add, Nat.add_zero]
      rw [this, Nat.mul_assoc, Nat.mul_comm (choices ls).length]
    | succ p =>
      have hl : ls[p]? = some l := by simpa using h
      have hc : (a.map fun d => (choices ls).countP ((fun D : List δ => (D[p + 1]?).any P) ∘ fun x => d :: x)) =
          a.map fun _ => (choices ls).countP fun D => (D[p]?).any P := by
        apply List.map_congr_left
        intro d _
        apply List.countP_congr
        intro D _
        simp
      rw [hc, List.map_const', List.sum_replicate_nat, Nat.mul_assoc, ih p l hl]
      rw [← Nat.mul_assoc, Nat.mul_comm a.length, Nat.mul_assoc]

/-- A sum over draws, by results. -/
theorem sum_by_result {ε β : Type} [BEq β] [LawfulBEq β] (E : List ε) (val : ε → Option β) (G : Option β → Nat) (L : List β) (hL : L.Nodup)
    (h0 : G none = 0) (hv : ∀ e ∈ E, ∀ v, val e = some v → v ∈ L) :
    (E.map fun e => G (val e)).sum = (L.map fun v => (E.countP fun e => val e == some v) * G (some v)).sum := by
  induction E with
  | nil =>
    simp only [List.map_nil, List.sum_nil, List.countP_nil, Nat.zero_mul]
    rw [List.map_const', List.sum_replicate_nat, Nat.mul_zero]
  | cons e E ih =>
    rw [List.map_cons, List.sum_cons, ih fun e he => hv e (by simp [he])]
    have key : ∀ L : List β, L.Nodup → (L.map fun v => ((e :: E).countP fun e => val e == some v) * G (some v)).sum =
        (match val e with | some v => if v ∈ L then G (some v) else 0 | none => 0) +
          (L.map fun v => (E.countP fun e => val e == some v) * G (some v)).sum := by
      intro L
      induction L with
      | nil => intro _; cases val e <;> simp
      | cons v L ihL =>
        intro hnd
        obtain ⟨hn1, hn2⟩ := List.nodup_cons.1 hnd
        simp only [List.map_cons, List.sum_cons]
        rw [ihL hn2, List.countP_cons]
        cases hve : val e with
        | none => simp
        | some w =>
          by_cases hw : w = v
          · subst hw
            simp only [beq_self_eq_true, if_true, List.mem_cons, true_or, hn1, if_false, Nat.add_mul]
            omega
          · have : (some w == some v) = false := by simpa using hw
            simp only [this, Bool.false_eq_true, if_false, List.mem_cons, hw, false_or, Nat.add_zero]
            omega
    rw [key L hL]
    congr 1
    cases hve : val e with
    | none => rw [h0]
    | some v => simp only [if_pos (hv e (by simp) v hve)]

theorem drawsFor_pos {α : Type} (blocks : List (List α)) (seen : Nat) (h : ∀ b ∈ blocks, b ≠ []) : 0 < (drawsFor seen blocks).length := by
  induction blocks generalizing seen with
  | nil => simp [drawsFor]
  | cons b blocks ih =>
    rw [drawsFor_length]
    have hb : 0 < b.length := List.length_pos_iff.2 (h b (by simp))
    exact Nat.mul_pos (by omega) (Nat.mul_pos hb (ih _ fun c hc => h c (by simp [hc])))

theorem slotAfter_in {α : Type} (blocks : List (List α)) : ∀ (s : Option α) (d : List (Nat × Nat)) (v : α), slotAfter s blocks d = some v →
    s = some v ∨ v ∈ blocks.flatten := by
  induction blocks with
  | nil => intro s d v h; left; simpa [slotAfter] using h
  | cons xs blocks ih =>
    intro s d v h
    cases d with
    | nil => left; simpa [slotAfter] using h
    | cons c d =>
      rw [slotAfter] at h
      rcases ih _ _ _ h with h | h
      · split at h
        · right; rw [List.flatten_cons]; exact List.mem_append_left _ (List.mem_of_getElem? h)
        · left; exact h
      · right; rw [List.flatten_cons]; exact List.mem_append_right _ h

theorem flatMap_replicate_at {β γ : Type} (f : β → γ) (count : Nat) (l : List β) : ∀ (i j : Nat) (b : β), l[i]? = some b → j < count →
    (l.flatMap fun b => List.replicate count (f b))[i * count + j]? = some (f b) := by
  induction l with
  | nil => intro i j b h; simp at h
  | cons a l ih =>
    intro i j b h hj
    rw [List.flatMap_cons]
    cases i with
    | zero =>
      obtain rfl : a = b := by simpa using h
      rw [List.getElem?_append_left (by simp; omega), Nat.zero_mul, Nat.zero_add]
      simp [hj]
    | succ i =>
      rw [List.getElem?_append_right (by rw [List.length_replicate, Nat.add_mul]; omega), List.length_replicate]
      rw [show (i + 1) * count + j - count = i * count + j by rw [Nat.add_mul]; omega]
      exact ih i j b (by simpa using h) hj

theorem sum_offsets {α : Type} (K : Nat → Nat → Nat) (F : List (List α) → Nat) (servers : List (List (List α))) : ∀ k,
    (∀ i blocks, servers[i]? = some blocks → ((List.range blocks.flatten.length).map (K (k + i))).sum = F blocks) →
    (((servers.zipIdx k).map fun x => (List.range x.1.flatten.length).map (x.2, ·)).flatten.map fun v => K v.1 v.2).sum = (servers.map F).sum := by
  induction servers with
  | nil => intro k _; rfl
  | cons b servers ih =>
    intro k h
    rw [List.zipIdx_cons, List.map_cons, List.flatten_cons, List.map_append, List.sum_append_nat, List.map_cons, List.sum_cons]
    have h1 := h 0 b rfl
    rw [ih (k + 1) fun i bs hi => by rw [show k + 1 + i = k + (i + 1) by omega]; exact h (i + 1) bs (by simpa using hi)]
    congr 1
    rw [← h1, List.map_map]
    rfl

end Toss

/-- Several servers, each with its neighbours of the node split into blocks in any way, and `count` samples per server and in the result: over all
draws of servers and client, a slot of the result holds `x` with the share of `x` among the neighbours on all servers. -/
theorem C108_servers {α : Type} [BEq α] [LawfulBEq α] (count : Nat) (hc : 0 < count) (servers : List (List (List α)))
    (hne : ∀ blocks ∈ servers, ∀ b ∈ blocks, b ≠ []) (x : α) :
    mergedHits count servers x * (servers.flatMap List.flatten).length =
      (servers.flatMap List.flatten).count x * ((drawsFor 0 (offsets servers)).length * (serverDraws count servers).length) := by
  obtain ⟨G, hG⟩ : ∃ G : Option (Nat × Nat) → Nat, G = fun v => (serverDraws count servers).countP fun D => (v.bind fun v =>
      servers[v.1]?.bind fun blocks => D[v.1 * count + v.2 % count]?.bind fun d => slotAfter none blocks d) == some x := ⟨_, rfl⟩
  have hsum : mergedHits count servers x = ((drawsFor 0 (offsets servers)).map fun e => G (slotAfter none (offsets servers) e)).sum := by
    rw [mergedHits]
    congr 1
    apply List.map_congr_left
    intro e _
    rw [hG]
    rfl
  have hmem : ∀ v : Nat × Nat, v ∈ (offsets servers).flatten ↔ ∃ blocks, servers[v.1]? = some blocks ∧ v.2 < blocks.flatten.length := by
    intro v
    simp only [offsets, List.mem_flatten, List.mem_map]
    constructor
    · rintro ⟨l, ⟨y, hy, rfl⟩, hv⟩
      obtain ⟨o, ho, rfl⟩ := List.mem_map.1 hv
      refine ⟨y.1, ?_, List.mem_range.1 ho⟩
      have := List.mem_zipIdx_iff_getElem?.1 hy
      exact this
    · rintro ⟨blocks, h1, h2⟩
      refine ⟨_, ⟨(blocks, v.1), List.mem_zipIdx_iff_getElem?.2 h1, rfl⟩, ?_⟩
      exact List.mem_map.2 ⟨v.2, List.mem_range.2 h2, rfl⟩
  have hnd : (offsets servers).flatten.Nodup := by
    have key : ∀ (l : List (List (List α))) (k : Nat), ((l.zipIdx k).map fun x => (List.range x.1.flatten.length).map (x.2, ·)).flatten.Nodup ∧
        ∀ v ∈ ((l.zipIdx k).map fun x => (List.range x.1.flatten.length).map (x.2, ·)).flatten, k ≤ v.1 := by
      intro l
      induction l with
      | nil => intro k; simp
      | cons b l ih =>
        intro k
        obtain ⟨h1, h2⟩ := ih (k + 1)
        rw [List.zipIdx_cons, List.map_cons, List.flatten_cons]
        refine ⟨List.nodup_append.2 ⟨?_, h1, ?_⟩, ?_⟩
        · refine List.pairwise_map.2 (List.nodup_range.imp ?_)
          intro a b hab he
          exact hab (Prod.mk.inj he).2
        · intro a ha b hb he
          obtain ⟨o, -, rfl⟩ := List.mem_map.1 ha
          have := h2 b hb
          rw [← he] at this
          dsimp only at this
          omega
        · intro v hv
          rcases List.mem_append.1 hv with hv | hv
          · obtain ⟨o, -, rfl⟩ := List.mem_map.1 hv
            exact Nat.le_refl _
          · have := h2 v hv; omega
    exact (key servers 0).1
  have h0 : G none = 0 := by rw [hG]; simp
  have htot : (offsets servers).flatten.length = (servers.flatMap List.flatten).length := by
    have := sum_offsets (fun _ _ => 1) (fun b => b.flatten.length) servers 0 (by
      intro i b _
      rw [List.map_const', List.sum_replicate_nat, List.length_range, Nat.mul_one])
    rw [List.map_const', List.sum_replicate_nat, Nat.mul_one] at this
    rw [List.length_flatMap]
    exact this
  rw [hsum, sum_by_result _ _ G (offsets servers).flatten hnd h0 (by
    intro e _ v hv
    rcases slotAfter_in _ _ _ _ hv with h | h
    · cases h
    · exact h)]
  have hfair : ∀ v ∈ (offsets servers).flatten, ((drawsFor 0 (offsets servers)).countP fun e => slotAfter none (offsets servers) e == some v) *
      (servers.flatMap List.flatten).length = (drawsFor 0 (offsets servers)).length := by
    intro v hv
    have := C108_fair (offsets servers) v
    rw [hnd.count, if_pos hv, Nat.one_mul, htot] at this
    exact this
  have hmul : ∀ L : List (Nat × Nat), (∀ v ∈ L, v ∈ (offsets servers).flatten) →
      (L.map fun v => ((drawsFor 0 (offsets servers)).countP fun e => slotAfter none (offsets servers) e == some v) * G (some v)).sum *
        (servers.flatMap List.flatten).length = (drawsFor 0 (offsets servers)).length * (L.map fun v => G (some v)).sum := by
    intro L
    induction L with
    | nil => intro _; simp
    | cons v L ih =>
      intro hL
      rw [List.map_cons, List.sum_cons, List.map_cons, List.sum_cons, Nat.add_mul, Nat.mul_add, ih fun w hw => hL w (by simp [hw]),
        ← hfair v (hL v (by simp))]
      congr 1
      rw [Nat.mul_assoc, Nat.mul_comm (G (some v)), ← Nat.mul_assoc]
  rw [hmul _ fun _ h => h]
  have hS : ((offsets servers).flatten.map fun v => G (some v)).sum = (servers.flatMap List.flatten).count x * (serverDraws count servers).length := by
    have h1 := sum_offsets (fun i o => G (some (i, o))) (fun b => b.flatten.count x * (serverDraws count servers).length) servers 0 (by
      intro i blocks hi
      rw [Nat.zero_add]
      have hG1 : ∀ o, G (some (i, o)) * blocks.flatten.length = blocks.flatten.count x * (serverDraws count servers).length := by
        intro o
        have hat := flatMap_replicate_at (fun b => drawsFor 0 b) count servers i (o % count) blocks hi (Nat.mod_lt _ hc)
        have h2 := choices_at (fun d => slotAfter none blocks d == some x) _ _ _ hat
        have h3 := C108_fair blocks x
        have hD : 0 < (drawsFor 0 blocks).length := drawsFor_pos blocks 0 (hne blocks (List.mem_of_getElem? hi))
        have hGe : G (some (i, o)) = (choices (servers.flatMap fun b => List.replicate count (drawsFor 0 b))).countP
            fun D => (D[i * count + o % count]?).any fun d => slotAfter none blocks d == some x := by
          rw [hG]
          apply List.countP_congr
          intro D _
          simp only [Option.bind_some, hi]
          cases D[i * count + o % count]? <;> simp
        rw [← hGe] at h2
        rw [slotHits] at h3
        apply Nat.eq_of_mul_eq_mul_right hD
        rw [Nat.mul_right_comm, h2, serverDraws, Nat.mul_right_comm, h3, Nat.mul_right_comm]
      rcases Nat.eq_zero_or_pos blocks.flatten.length with hz | hz
      · rw [hz]
        have : blocks.flatten = [] := List.eq_nil_of_length_eq_zero hz
        simp [this]
      · have hv : ∀ o, G (some (i, o)) = G (some (i, 0)) := fun o => Nat.eq_of_mul_eq_mul_right hz (by rw [hG1, hG1])
        simp only [hv]
        rw [List.map_const', List.sum_replicate_nat, List.length_range, Nat.mul_comm, hG1])
    have h2 : ∀ l : List (List (List α)), (l.map fun b => b.flatten.count x * (serverDraws count servers).length).sum =
        (l.flatMap List.flatten).count x * (serverDraws count servers).length := by
      intro l
      induction l with
      | nil => simp
      | cons b l ih => rw [List.map_cons, List.sum_cons, ih, List.flatMap_cons, List.count_append, Nat.add_mul]
    rw [← h2]
    exact h1
  rw [hS, ← Nat.mul_assoc, ← Nat.mul_assoc, Nat.mul_comm (drawsFor 0 (offsets servers)).length]

/-- Non-vacuity: three neighbours, two of them on one server, two samples: each has one third of the draws. -/
example : (mergedHits 2 [[[10], [11]], [[20]]] 10, mergedHits 2 [[[10], [11]], [[20]]] 20,
    (drawsFor 0 (offsets [[[10], [11]], [[20]]])).length * (serverDraws 2 [[[10], [11]], [[20]]]).length) = (16, 16, 48) := by decide +kernel

end DeepGNN
