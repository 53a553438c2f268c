import Verif.Proofs.EachReply
import Verif.Proofs.Sampler
import Verif.Spec.RemoteSampler

namespace DeepGNN

open Spec

/-! The requests -/

theorem binomial_facts (R : Draws) (n w rest s : Nat) (h : 0 < w + rest ∨ n = 0) :
    binomial R n w (w + rest) s ≤ n ∧ (binomial R n w (w + rest) s ≠ 0 → 0 < w) ∧
      (rest = 0 → n - binomial R n w (w + rest) s = 0) := by
  have hle := binomial_le R n w (w + rest) s
  refine ⟨hle, ?_, ?_⟩
  · intro hc
    rcases h with h | h
    · rcases Nat.eq_zero_or_pos w with hw | hw
      · subst hw
        exfalso
        apply hc
        simp only [binomial]
        rw [if_neg (by omega), if_pos trivial]
      · exact hw
    · omega
  · intro hr
    rcases h with h | h
    · have : binomial R n w (w + rest) s = n := by
        simp only [binomial]
        rw [if_neg (by omega), if_neg (by omega), if_pos (by omega)]
      omega
    · omega

/-- Consecutive ranges from `position` on. -/
def DividesFrom (position n : Nat) (calls : List SampleCall) : Prop :=
  (calls.map (·.count)).sum = n ∧ ∀ i c, calls[i]? = some c → c.position = position + ((calls.take i).map (·.count)).sum

theorem DividesFrom.cons {position n c : Nat} {x : SampleCall} {calls : List SampleCall} (hx : x.position = position)
    (hc : x.count = c) (hcn : c ≤ n) (h : DividesFrom (position + c) (n - c) calls) : DividesFrom position n (x :: calls) := by
  refine ⟨by rw [List.map_cons, List.sum_cons, h.1, hc]; omega, ?_⟩
  intro i y hy
  cases i with
  | zero => simp at hy; subst hy; simp [hx]
  | succ i =>
    rw [List.getElem?_cons_succ] at hy
    rw [h.2 i y hy, List.take_succ_cons, List.map_cons, List.sum_cons, hc]
    omega

/-- Requests to servers with something to sample only. -/
def AsksWeighted {α} (servers : List (SamplerServer α)) (shard : Nat) (calls : List SampleCall) : Prop :=
  ∀ c ∈ calls, ∃ v, shard ≤ c.server ∧ servers[c.server - shard]? = some v ∧ v.empty = false ∧ (c.count ≠ 0 → 0 < v.weight)

theorem AsksWeighted.shift {α} {v : SamplerServer α} {vs : List (SamplerServer α)} {shard : Nat} {calls : List SampleCall}
    (h : AsksWeighted vs (shard + 1) calls) : AsksWeighted (v :: vs) shard calls := by
  intro c hc
  obtain ⟨w, h1, h2, h3⟩ := h c hc
  refine ⟨w, by omega, ?_, h3⟩
  rw [show c.server - shard = (c.server - (shard + 1)) + 1 by omega, List.getElem?_cons_succ]
  exact h2

theorem nodeCalls_spec {α} (R : Draws) (vs : List (SamplerServer α)) (he : ∀ v ∈ vs, v.empty = true → v.weight = 0)
    (shard left position s : Nat) (h : 0 < serverWeights vs ∨ left = 0) :
    DividesFrom position left (nodeCalls R vs shard left position s) ∧
      AsksWeighted vs shard (nodeCalls R vs shard left position s) := by
  induction vs generalizing shard left position s with
  | nil =>
    have : left = 0 := by simpa [serverWeights] using h
    subst this
    exact ⟨⟨rfl, by simp [nodeCalls]⟩, by simp [AsksWeighted, nodeCalls]⟩
  | cons v vs ih =>
    have he' := fun w hw => he w (List.mem_cons_of_mem _ hw)
    have hsw : serverWeights (v :: vs) = v.weight + serverWeights vs := by simp [serverWeights]
    rw [hsw] at h
    rw [nodeCalls]
    split
    · rename_i hv
      have hw := he v (by simp) hv
      obtain ⟨h1, h2⟩ := ih he' (shard + 1) left position s (by omega)
      exact ⟨h1, h2.shift⟩
    · rename_i hv
      obtain ⟨h1, h2, h3⟩ := binomial_facts R left v.weight (serverWeights vs) s h
      simp only []
      generalize binomial R left v.weight (v.weight + serverWeights vs) s = c at h1 h2 h3
      obtain ⟨h4, h5⟩ := ih he' (shard + 1) (left - c) (position + c) (s + 2) (by omega)
      refine ⟨DividesFrom.cons rfl rfl h1 h4, ?_⟩
      intro x hx
      rcases List.mem_cons.1 hx with rfl | hx
      · exact ⟨v, by simp, by simp, by simpa using hv, h2⟩
      · exact h5.shift x hx

theorem edgeCalls_spec {α} (R : Draws) (vs : List (SamplerServer α)) (he : ∀ v ∈ vs, v.empty = false)
    (shard left position s : Nat) (h : 0 < serverWeights vs ∨ left = 0) :
    DividesFrom position left (edgeCalls R vs shard left position s) ∧
      AsksWeighted vs shard (edgeCalls R vs shard left position s) := by
  induction vs generalizing shard left position s with
  | nil =>
    have : left = 0 := by simpa [serverWeights] using h
    subst this
    exact ⟨⟨rfl, by simp [edgeCalls]⟩, by simp [AsksWeighted, edgeCalls]⟩
  | cons v vs ih =>
    have he' := fun w hw => he w (List.mem_cons_of_mem _ hw)
    have hsw : serverWeights (v :: vs) = v.weight + serverWeights vs := by simp [serverWeights]
    rw [hsw] at h
    rw [edgeCalls]
    split
    · rename_i hl
      subst hl
      exact ⟨⟨rfl, by simp⟩, by simp [AsksWeighted]⟩
    · obtain ⟨h1, h2, h3⟩ := binomial_facts R left v.weight (serverWeights vs) s h
      simp only []
      generalize binomial R left v.weight (v.weight + serverWeights vs) s = c at h1 h2 h3
      obtain ⟨h4, h5⟩ := ih he' (shard + 1) (left - c) (position + c) (s + 2) (by omega)
      refine ⟨DividesFrom.cons rfl rfl h1 h4, ?_⟩
      intro x hx
      rcases List.mem_cons.1 hx with rfl | hx
      · exact ⟨v, by simp, by simp, he v (by simp), h2⟩
      · exact h5.shift x hx

/-! The callbacks -/

theorem writeAt_length {β} (out : List β) (p : Nat) (xs : List β) (h : p + xs.length ≤ out.length) :
    (writeAt out p xs).length = out.length := by
  simp [writeAt]; omega

theorem writeAt_get {β} (out : List β) (p : Nat) (xs : List β) (h : p + xs.length ≤ out.length) (q : Nat) :
    (writeAt out p xs)[q]? = if p ≤ q ∧ q < p + xs.length then xs[q - p]? else out[q]? := by
  simp only [writeAt]
  by_cases h1 : q < p
  · rw [List.append_assoc, List.getElem?_append_left (by simp; omega), List.getElem?_take, if_pos h1, if_neg (by omega)]
  · by_cases h2 : q < p + xs.length
    · rw [List.append_assoc, List.getElem?_append_right (by simp; omega), List.getElem?_append_left (by simp; omega),
        if_pos ⟨by omega, h2⟩, List.length_take, Nat.min_eq_left (by omega)]
    · rw [List.getElem?_append_right (by simp; omega), if_neg (by omega), List.getElem?_drop]
      simp only [List.length_append, List.length_take]
      congr 1
      omega

/-- Where the parts of a concatenation are. -/
theorem getElem?_flatMap_part {α β} (f : α → List β) (l : List α) (i : Nat) (x : α) (hi : l[i]? = some x) (q : Nat)
    (hq : q < (f x).length) : (l.flatMap f)[((l.take i).map fun y => (f y).length).sum + q]? = (f x)[q]? := by
  induction l generalizing i with
  | nil => simp at hi
  | cons a l ih =>
    cases i with
    | zero =>
      simp at hi
      subst hi
      rw [List.flatMap_cons, List.getElem?_append_left (by simpa using hq)]
      simp
    | succ i =>
      rw [List.getElem?_cons_succ] at hi
      rw [List.flatMap_cons, List.take_succ_cons, List.map_cons, List.sum_cons, List.getElem?_append_right (by omega),
        ← ih i hi]
      congr 1
      omega

/-- Every position is in one part. -/
theorem exists_part (cs : List Nat) (q : Nat) (h : q < cs.sum) :
    ∃ i c, cs[i]? = some c ∧ (cs.take i).sum ≤ q ∧ q < (cs.take i).sum + c := by
  induction cs generalizing q with
  | nil => simp at h
  | cons a cs ih =>
    by_cases hq : q < a
    · exact ⟨0, a, by simp, by simp, by simpa using hq⟩
    · rw [List.sum_cons] at h
      obtain ⟨i, c, h1, h2, h3⟩ := ih (q - a) (by omega)
      refine ⟨i + 1, c, by simpa using h1, ?_, ?_⟩ <;> rw [List.take_succ_cons, List.sum_cons] <;> omega

/-- Two parts with a common position are the same. -/
theorem part_unique (cs : List Nat) (q i j a b : Nat) (hi : cs[i]? = some a) (hj : cs[j]? = some b)
    (h1 : (cs.take i).sum ≤ q) (h2 : q < (cs.take i).sum + a) (h3 : (cs.take j).sum ≤ q) (h4 : q < (cs.take j).sum + b) :
    i = j := by
  have key : ∀ {i j a : Nat}, cs[i]? = some a → i < j → (cs.take i).sum + a ≤ (cs.take j).sum := by
    intro i j a hi hij
    obtain ⟨hl, rfl⟩ := List.getElem?_eq_some_iff.1 hi
    have h5 : (cs.take (i + 1)).sum = (cs.take i).sum + cs[i] := by
      rw [List.take_succ_eq_append_getElem hl, List.sum_append]
      simp
    have h6 : cs.take j = cs.take (i + 1) ++ (cs.drop (i + 1)).take (j - (i + 1)) := by
      rw [← List.take_add, show i + 1 + (j - (i + 1)) = j by omega]
    rw [h6, List.sum_append, h5]
    omega
  rcases Nat.lt_trichotomy i j with h | h | h
  · have := key hi h; omega
  · exact h
  · have := key hj h; omega

/-- Parts written in any order: afterwards the parts that were written are in place. -/
theorem writes_get {β} (ls : List (List β)) (order : List Nat) (ho : ∀ i ∈ order, i < ls.length) (out : List β)
    (hl : out.length = (ls.map (·.length)).sum) :
    (order.foldl (fun o i => writeAt o ((ls.take i).map (·.length)).sum (ls.getD i [])) out).length = out.length ∧
    ∀ (i : Nat) (l : List β), ls[i]? = some l → ∀ q < l.length,
      (i ∈ order ∨ out[((ls.take i).map (·.length)).sum + q]? = l[q]?) →
      (order.foldl (fun o i => writeAt o ((ls.take i).map (·.length)).sum (ls.getD i [])) out)[
        ((ls.take i).map (·.length)).sum + q]? = l[q]? := by
  induction order generalizing out with
  | nil =>
    refine ⟨rfl, ?_⟩
    intro i l _ q _ h
    simpa using h
  | cons j order ih =>
    have hj := ho j (by simp)
    have hlj : ls[j]? = some ls[j] := List.getElem?_eq_getElem hj
    have hfit : ((ls.take j).map (·.length)).sum + ls[j].length ≤ out.length := by
      have h5 : ((ls.take (j + 1)).map (·.length)).sum = ((ls.take j).map (·.length)).sum + ls[j].length := by
        rw [List.take_succ_eq_append_getElem hj, List.map_append, List.sum_append]
        simp
      have h6 : (ls.map (·.length)).sum = ((ls.take (j + 1)).map (·.length)).sum + ((ls.drop (j + 1)).map (·.length)).sum := by
        rw [← List.sum_append, ← List.map_append, List.take_append_drop]
      omega
    have hget : ls.getD j [] = ls[j] := by rw [List.getD_eq_getElem?_getD, hlj]; rfl
    obtain ⟨h1, h2⟩ := ih (fun i hi => ho i (by simp [hi])) (writeAt out ((ls.take j).map (·.length)).sum (ls.getD j []))
      (by rw [hget, writeAt_length _ _ _ hfit, hl])
    refine ⟨by rw [List.foldl_cons, h1, hget, writeAt_length _ _ _ hfit], ?_⟩
    intro i l hi q hq h
    rw [List.foldl_cons]
    apply h2 i l hi q hq
    rw [hget, writeAt_get _ _ _ hfit]
    by_cases hij : i = j
    · subst hij
      rw [hlj, Option.some.injEq] at hi
      subst hi
      right
      rw [if_pos ⟨by omega, by omega⟩, Nat.add_sub_cancel_left]
    · rw [if_neg]
      · rcases h with h | h
        · simp only [List.mem_cons] at h
          rcases h with h | h
          · exact absurd h hij
          · exact Or.inl h
        · exact Or.inr h
      · rintro ⟨h3, h4⟩
        apply hij
        refine part_unique (ls.map (·.length)) (((ls.take i).map (·.length)).sum + q) i j l.length ls[j].length
          (by simp [hi]) (by simp [hlj]) ?_ ?_ ?_ ?_
        · rw [← List.map_take]; omega
        · rw [← List.map_take]; omega
        · rw [← List.map_take]; omega
        · rw [← List.map_take]; omega

/-- All parts written in any order make up the concatenation. -/
theorem writes_all {β} (ls : List (List β)) (order : List Nat) (ho : ∀ i, i ∈ order ↔ i < ls.length) (out : List β)
    (hl : out.length = (ls.map (·.length)).sum) :
    order.foldl (fun o i => writeAt o ((ls.take i).map (·.length)).sum (ls.getD i [])) out = ls.flatten := by
  obtain ⟨h1, h2⟩ := writes_get ls order (fun i hi => (ho i).1 hi) out hl
  apply List.ext_getElem?
  intro q
  by_cases hq : q < (ls.map (·.length)).sum
  · obtain ⟨i, c, h3, h4, h5⟩ := exists_part _ q hq
    rw [List.getElem?_map] at h3
    obtain ⟨l, h6, h7⟩ := Option.map_eq_some_iff.1 h3
    rw [← List.map_take] at h4 h5
    have := h2 i l h6 (q - ((ls.take i).map (·.length)).sum) (by omega) (Or.inl ((ho i).2 (List.getElem?_eq_some_iff.1 h6).1))
    rw [show ((ls.take i).map (·.length)).sum + (q - ((ls.take i).map (·.length)).sum) = q by omega] at this
    rw [this]
    have h8 := getElem?_flatMap_part id ls i l h6 (q - ((ls.take i).map (·.length)).sum)
      (by show _ < l.length; omega)
    simp only [id] at h8
    rw [show ((ls.take i).map (·.length)).sum + (q - ((ls.take i).map (·.length)).sum) = q by omega] at h8
    rw [← h8]
    simp
  · rw [List.getElem?_eq_none (by omega), List.getElem?_eq_none (by rw [List.length_flatten]; exact Nat.le_of_not_lt hq)]

/-- The callbacks in any order. -/
theorem copyReply_fold {α} (calls : List SampleCall) (rs : List (List Int × List α)) (hsz : RightSizes calls rs)
    (hd : ∀ i c, calls[i]? = some c → c.position = ((calls.take i).map (·.count)).sum)
    (order : List ((List Int × List α) × Nat)) (ho : ∀ x ∈ order, rs[x.2]? = some x.1) (st : List Int × List α) :
    order.foldlM (fun a x => copyReply calls x.2 x.1 a) st = some
      ((order.map (·.2)).foldl (fun o i => writeAt o (((rs.map (·.1)).take i).map (·.length)).sum ((rs.map (·.1)).getD i [])) st.1,
       (order.map (·.2)).foldl (fun o i => writeAt o (((rs.map (·.2)).take i).map (·.length)).sum ((rs.map (·.2)).getD i [])) st.2) := by
  obtain ⟨hlen, hsz⟩ := hsz
  have hcounts : ∀ i, (((rs.map (·.1)).take i).map (·.length)).sum = ((calls.take i).map (·.count)).sum ∧
      (((rs.map (·.2)).take i).map (·.length)).sum = ((calls.take i).map (·.count)).sum := by
    intro i
    have h1 : (rs.map fun r => r.1.length) = calls.map (·.count) := by
      apply List.ext_getElem (by simp [hlen])
      intro k h2 h3
      simp only [List.length_map] at h2 h3
      simpa using (hsz (calls[k], rs[k]) (by
        rw [List.mem_iff_getElem]; exact ⟨k, by simp; omega, by simp⟩)).1
    have h2 : (rs.map fun r => r.2.length) = calls.map (·.count) := by
      apply List.ext_getElem (by simp [hlen])
      intro k h2 h3
      simp only [List.length_map] at h2 h3
      simpa using (hsz (calls[k], rs[k]) (by
        rw [List.mem_iff_getElem]; exact ⟨k, by simp; omega, by simp⟩)).2
    constructor
    · rw [List.map_take, List.map_take, List.map_map, ← h1]; rfl
    · rw [List.map_take, List.map_take, List.map_map, ← h2]; rfl
  induction order generalizing st with
  | nil => rfl
  | cons x order ih =>
    have hx := ho x (by simp)
    have hlt : x.2 < rs.length := (List.getElem?_eq_some_iff.1 hx).1
    have hc : calls[x.2]? = some calls[x.2] := List.getElem?_eq_getElem (by omega)
    have hs := hsz (calls[x.2], x.1) (by
      rw [List.mem_iff_getElem?]
      exact ⟨x.2, List.getElem?_zip_eq_some.2 ⟨hc, hx⟩⟩)
    have hcopy : copyReply calls x.2 x.1 st = some (writeAt st.1 (((rs.map (·.1)).take x.2).map (·.length)).sum ((rs.map (·.1)).getD x.2 []),
        writeAt st.2 (((rs.map (·.2)).take x.2).map (·.length)).sum ((rs.map (·.2)).getD x.2 [])) := by
      simp only [copyReply, hc, Option.bind_some]
      rw [if_pos (by simp only [] at hs; omega), hd _ _ hc, (hcounts x.2).1, (hcounts x.2).2]
      simp [List.getD_eq_getElem?_getD, hx]
    rw [List.foldlM_cons, hcopy]
    exact ih (fun y hy => ho y (by simp [hy])) _

/-- All replies copied, in any order. -/
theorem remoteSample_eq {α} (calls : List SampleCall) (n : Nat) (hd : Divides n calls) (rs : List (List Int × List α))
    (hsz : RightSizes calls rs) (st : List Int × List α) (h1 : st.1.length = n) (h2 : st.2.length = n)
    (evs : List (Ev (List Int × List α))) (hev : Schedule rs evs) :
    remoteSample calls st evs = some (rs.flatMap (·.1), rs.flatMap (·.2)) := by
  obtain ⟨order, h3, h4, -⟩ := eachReply_eq (copyReply calls) ([], []) st rs evs hev
  rw [remoteSample, ← hsz.1, h4]
  rw [copyReply_fold calls rs hsz hd.position order (fun x hx => List.mem_zipIdx_iff_getElem?.1 (h3.subset hx)) st]
  have hmem : ∀ i, i ∈ order.map (·.2) ↔ i < rs.length := by
    intro i
    have := (h3.map (·.2)).mem_iff (a := i)
    rw [this, List.zipIdx_map_snd]
    simp
  have hsum : ∀ (f : List Int × List α → Nat), (∀ x ∈ calls.zip rs, f x.2 = x.1.count) → (rs.map f).sum = n := by
    intro f hf
    rw [← hd.sum]
    congr 1
    apply List.ext_getElem (by simp [hsz.1])
    intro k h2 h3
    simp only [List.length_map] at h2 h3
    simpa using hf (calls[k], rs[k]) (by
      rw [List.mem_iff_getElem]; exact ⟨k, by simp; omega, by simp⟩)
  rw [writes_all _ _ (by simpa using hmem), writes_all _ _ (by simpa using hmem)]
  · rfl
  · rw [h2, List.map_map]
    exact (hsum _ fun x hx => (hsz.2 x hx).2).symm
  · rw [h1, List.map_map]
    exact (hsum _ fun x hx => (hsz.2 x hx).1).symm

end DeepGNN
