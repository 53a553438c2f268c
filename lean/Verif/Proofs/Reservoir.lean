import Verif.Model.Reservoir

namespace DeepGNN

/-- The first `c` places of `out` hold the elements of `all` at the positions `ps`. -/
structure Picked {α} (all : List α) (out0 out : List α) (ps : List Nat) : Prop where
  len : out.length = out0.length
  nodup : ps.Nodup
  vals : ps.map (fun p => all[p]?) = (out.take ps.length).map some
  rest : out.drop ps.length = out0.drop ps.length

theorem Picked.mono {α} {all more out0 out : List α} {ps : List Nat} (h : Picked all out0 out ps) :
    Picked (all ++ more) out0 out ps := by
  refine ⟨h.len, h.nodup, ?_, h.rest⟩
  rw [← h.vals]
  apply List.map_congr_left
  intro p hp
  have h1 : all[p]? ∈ (out.take ps.length).map some := by
    rw [← h.vals]; exact List.mem_map_of_mem hp
  obtain ⟨x, -, hx⟩ := List.mem_map.1 h1
  rw [← hx]
  rw [List.getElem?_append_left]
  · exact hx.symm
  · exact (List.getElem?_eq_some_iff.1 hx.symm).1

theorem Picked.length_le {α} {all out0 out : List α} {ps : List Nat} (h : Picked all out0 out ps) :
    ps.length ≤ out.length := by
  have := congrArg List.length h.vals
  simp at this; omega

/-- Filling the next place. -/
theorem Picked.push {α} {all out0 out : List α} {ps : List Nat} (h : Picked all out0 out ps)
    (hlt : ps.length < out.length) {p : Nat} {x : α} (hp : p ∉ ps) (hx : all[p]? = some x) :
    Picked all out0 (out.set ps.length x) (ps ++ [p]) := by
  refine ⟨by simp [h.len], ?_, ?_, ?_⟩
  · rw [List.nodup_append]
    refine ⟨h.nodup, by simp, ?_⟩
    intro a ha b hb he
    rw [List.mem_singleton] at hb
    subst hb; subst he; exact hp ha
  · rw [List.map_append, h.vals]
    simp only [List.map_cons, List.map_nil, List.length_append, List.length_cons, List.length_nil, hx]
    rw [List.take_succ_eq_append_getElem (by simpa using hlt), List.map_append]
    simp [List.take_set_of_le]
  · simp only [List.length_append, List.length_cons, List.length_nil]
    rw [List.drop_set_of_lt (by omega)]
    have := congrArg (List.drop 1) h.rest
    simpa [List.drop_drop, Nat.add_comm] using this

/-- Replacing one of the places. -/
theorem Picked.replace {α} {all out0 out : List α} {ps : List Nat} (h : Picked all out0 out ps)
    {i : Nat} (hi : i < ps.length) {p : Nat} {x : α} (hp : p ∉ ps) (hx : all[p]? = some x) :
    Picked all out0 (out.set i x) (ps.set i p) := by
  refine ⟨by simp [h.len], ?_, ?_, ?_⟩
  · refine List.pairwise_iff_getElem.2 ?_
    intro a b ha hb hab
    rw [List.length_set] at ha hb
    have hnd := List.pairwise_iff_getElem.1 h.nodup a b ha hb hab
    rw [List.getElem_set, List.getElem_set]
    by_cases ha' : i = a
    · rw [if_pos ha', if_neg (by omega)]
      intro he
      exact hp (by rw [he]; exact List.getElem_mem _)
    · rw [if_neg ha']
      by_cases hb' : i = b
      · rw [if_pos hb']
        intro he
        exact hp (by rw [← he]; exact List.getElem_mem _)
      · rw [if_neg hb']; exact hnd
  · rw [List.map_set, h.vals, hx, List.length_set, ← List.map_set, List.take_set]
  · rw [List.length_set, List.drop_set_of_lt (by omega), h.rest]

theorem store_some {α} {xs out : List α} {pick off : Nat} (h1 : pick < out.length) (h2 : off < xs.length) :
    store xs out pick off = some (out.set pick xs[off]) := by
  simp [store, h1, h2]

/-- State of the reservoir after the stream `all`. -/
structure AlgLInv {α} (k : Nat) (all out0 out : List α) (a : AlgL) : Prop where
  k_eq : a.k = k
  size : out0.length = k
  seen : a.seen = all.length
  next : (a.seen ≤ k ∧ a.next = a.seen) ∨ (k < a.seen ∧ a.seen < a.next)
  picked : ∃ ps, ps.length = min k all.length ∧ (∀ p ∈ ps, p < all.length) ∧ Picked all out0 out ps

theorem AlgL.fill_spec {α} (k : Nat) (all xs out0 : List α) (hk : out0.length = k)
    (i : Nat) (a : AlgL) (out : List α) (ha : a.k = k) (hi : i ≤ xs.length)
    (hseen : a.seen = all.length + i ∨ (i = 0 ∧ k ≤ a.seen)) (hn : a.seen ≤ k → a.next = a.seen)
    (ps : List Nat) (hps : ps.length = min k a.seen) (hlt : ∀ p ∈ ps, p < all.length + i)
    (hp : Picked (all ++ xs) out0 out ps) :
    ∃ out' i' a' ps', AlgL.fill (store xs) xs.length i a out = some (out', i', a') ∧ a'.k = k ∧
      i' ≤ xs.length ∧ i ≤ i' ∧ a'.seen + i = a.seen + i' ∧ (a'.seen ≤ k → a'.next = a'.seen) ∧
      (a'.seen > k → a' = a) ∧ (k ≤ a'.seen ∨ i' = xs.length) ∧
      ps'.length = min k a'.seen ∧ (∀ p ∈ ps', p < all.length + i') ∧
      Picked (all ++ xs) out0 out' ps' := by
  induction hm : xs.length - i generalizing i a out ps with
  | zero =>
    rw [AlgL.fill, if_neg (by omega)]
    exact ⟨out, i, a, ps, rfl, ha, hi, Nat.le_refl _, rfl, hn, fun _ => rfl, by omega, hps, hlt, hp⟩
  | succ d ih =>
    rw [AlgL.fill]
    split
    · rename_i hc
      rw [ha] at hc
      have hs : a.seen = all.length + i := by omega
      have hpl : ps.length = a.seen := by omega
      have hol : out.length = k := by rw [hp.len, hk]
      rw [store_some (by omega) hc.2, Option.bind_some]
      have hnew : all.length + i ∉ ps := fun hmem => by have := hlt _ hmem; omega
      have hval : (all ++ xs)[all.length + i]? = some xs[i] := by
        rw [List.getElem?_append_right (by omega)]; simp [hc.2]
      have hp' := hp.push (by omega) hnew hval
      rw [hpl] at hp'
      obtain ⟨out', i', a', ps', h1, h2, h3, h4, h5, h6, h7, h8, h9⟩ :=
        ih (i + 1) { a with seen := a.seen + 1, next := a.next + 1 } (out.set a.seen xs[i]) ha (by omega)
          (by simp; omega) (by
            intro _
            have := hn (by omega)
            simp only; omega) (ps ++ [all.length + i]) (by simp; omega) (by
              intro p hpm
              rcases List.mem_append.1 hpm with hpm | hpm
              · have := hlt p hpm; omega
              · rw [List.mem_singleton] at hpm; omega) hp' (by omega)
      refine ⟨out', i', a', ps', h1, h2, h3, by omega, by simp only at h5; omega, h6, ?_, h8, h9⟩
      intro hgt
      have := h7 hgt
      subst this
      simp only at hgt h5
      omega
    · rename_i hc
      rw [ha] at hc
      exact ⟨out, i, a, ps, rfl, ha, hi, Nat.le_refl _, rfl, hn, fun _ => rfl, by omega, hps, hlt, hp⟩

theorem AlgL.loop_spec {α} (R : Draws) (k : Nat) (hk0 : 0 < k) (all xs out0 : List α) (hk : out0.length = k)
    (i : Nat) (T : Int) (next : Nat) (seen left : Int) (s : Nat) (out : List α)
    (hT : seen + left = T) (hlow : T - next + i < xs.length) (ps : List Nat) (hpl : ps.length = k)
    (hlt : ∀ p ∈ ps, p < all.length + xs.length)
    (hfree : ∀ p ∈ ps, p < all.length + i ∨ (all.length : Int) + i + T < p + next)
    (hp : Picked (all ++ xs) out0 out ps) :
    ∃ out' next' s' ps', AlgL.loop R (store xs) k xs.length i next seen left s out =
        some (out', next', T, s') ∧ T < next' ∧
      ps'.length = k ∧ (∀ p ∈ ps', p < all.length + xs.length) ∧ Picked (all ++ xs) out0 out' ps' := by
  induction hm : (T + 1 - next).toNat using Nat.strongRecOn generalizing next seen left s out ps with
  | ind d ih =>
    rw [AlgL.loop]
    split
    · rename_i hc
      rw [hT] at hc ⊢
      have hnn : (0:Int) ≤ T - next + i := by omega
      obtain ⟨off, hoff⟩ := Int.eq_ofNat_of_zero_le hnn
      have hoffl : off < xs.length := by omega
      have hol : out.length = k := by rw [hp.len, hk]
      have hpick : R s % k < k := Nat.mod_lt _ hk0
      dsimp only
      rw [hoff, Int.toNat_natCast, store_some (by omega) hoffl, Option.bind_some]
      have hnew : all.length + off ∉ ps := by
        intro hmem
        rcases hfree _ hmem with h | h <;> omega
      have hval : (all ++ xs)[all.length + off]? = some xs[off] := by
        rw [List.getElem?_append_right (by omega)]; simp [hoffl]
      refine ih (T + 1 - (next + R (s + 2) + 1 : Nat)).toNat (by omega) (next + R (s + 2) + 1) _ _ _ _ (by omega)
        (by omega) (ps.set (R s % k) (all.length + off)) (by simpa using hpl) ?_ ?_
        (hp.replace (by omega) hnew hval) rfl
      · intro p hpm
        rcases List.mem_or_eq_of_mem_set hpm with h | h
        · exact hlt p h
        · omega
      · intro p hpm
        rcases List.mem_or_eq_of_mem_set hpm with h | h
        · rcases hfree p h with h | h
          · exact Or.inl h
          · right; omega
        · right; omega
    · rename_i hc
      rw [hT] at hc ⊢
      exact ⟨out, next, s, ps, rfl, by omega, hpl, hlt, hp⟩

theorem AlgL.add_inv {α} (R : Draws) (k : Nat) (hk0 : 0 < k) {all out0 out : List α} {a : AlgL}
    (h : AlgLInv k all out0 out a) (xs : List α) (s : Nat) :
    ∃ out' a' s', AlgL.add R (store xs) xs.length (out, a, s) = some (out', a', s') ∧
      AlgLInv k (all ++ xs) out0 out' a' := by
  obtain ⟨ps, hpl, hlt, hp⟩ := h.picked
  obtain ⟨out1, i, a1, ps1, h1, h2, h3, -, h5, h6, h7, h8, h9, h10, h11⟩ :=
    AlgL.fill_spec k all xs out0 h.size 0 a out h.k_eq (by omega) (by have := h.seen; omega) (by
      intro hle
      rcases h.next with hn | hn
      · exact hn.2
      · omega) ps (by rw [h.seen]; exact hpl) (by simpa using hlt) hp.mono
  have hseen := h.seen
  simp only [AlgL.add, h1, Option.bind_some]
  by_cases hl : xs.length - i = 0
  · rw [if_pos hl]
    refine ⟨out1, a1, s, rfl, h2, h.size, by simp; omega, ?_, ps1, by simp; omega, ?_, h11⟩
    · rcases h.next with hn | hn
      · by_cases hc : a1.seen ≤ k
        · exact Or.inl ⟨hc, h6 hc⟩
        · have := h7 (by omega); subst this; omega
      · have := h7 (by omega); subst this; exact Or.inr hn
    · intro p hpm; have := h10 p hpm; simp; omega
  · rw [if_neg hl]
    have hkseen : k ≤ a1.seen := by omega
    have hnext : ∃ next s1, (if a1.seen = a1.k then (a1.next + R (s + 1) + 1, s + 2) else (a1.next, s)) =
        (next, s1) ∧ a1.seen < next := by
      by_cases hc : a1.seen = a1.k
      · rw [if_pos hc]
        refine ⟨_, _, rfl, ?_⟩
        have := h6 (by omega); omega
      · rw [if_neg hc]
        refine ⟨_, _, rfl, ?_⟩
        have := h7 (by omega); subst this
        rcases h.next with hn | hn <;> omega
    obtain ⟨next, s1, hn1, hn2⟩ := hnext
    have hT : (a1.seen : Int) + ((xs.length - i : Nat) : Int) = ((all ++ xs).length : Int) := by
      simp; omega
    rw [hn1]
    dsimp only
    rw [h2]
    obtain ⟨out2, next2, s2, ps2, g1, g2, g3, g4, g5⟩ :=
      AlgL.loop_spec R k hk0 all xs out0 h.size i _ next a1.seen (xs.length - i : Nat) s1 out1 hT
        (by simp; omega) ps1 (by omega) (fun p hpm => by have := h10 p hpm; omega)
        (fun p hpm => Or.inl (h10 p hpm)) h11
    rw [g1]
    refine ⟨out2, _, s2, rfl, rfl, h.size, Int.toNat_natCast _, ?_, ps2, by simp; omega, by simpa using g4, g5⟩
    right
    simp at hT g2 ⊢
    omega

/-- A reservoir fed with several blocks. -/
def AlgL.run {α} (R : Draws) (blocks : List (List α)) (st : List α × AlgL × Nat) :
    Option (List α × AlgL × Nat) :=
  blocks.foldlM (fun st xs => AlgL.add R (store xs) xs.length st) st

theorem AlgL.run_inv {α} (R : Draws) (k : Nat) (hk0 : 0 < k) (blocks : List (List α)) {all out0 out : List α}
    {a : AlgL} (h : AlgLInv k all out0 out a) (s : Nat) :
    ∃ out' a' s', AlgL.run R blocks (out, a, s) = some (out', a', s') ∧
      AlgLInv k (all ++ blocks.flatten) out0 out' a' := by
  induction blocks generalizing all out a s with
  | nil => exact ⟨out, a, s, rfl, by simpa using h⟩
  | cons xs blocks ih =>
    obtain ⟨out1, a1, s1, h1, h2⟩ := AlgL.add_inv R k hk0 h xs s
    obtain ⟨out2, a2, s2, h3, h4⟩ := ih h2 s1
    refine ⟨out2, a2, s2, ?_, by simpa using h4⟩
    simp only [AlgL.run, List.foldlM_cons, h1, Option.bind_eq_bind, Option.bind_some] at h3 ⊢
    exact h3

theorem AlgLInv.init {α} (out : List α) : AlgLInv out.length [] out out { k := out.length } :=
  ⟨rfl, rfl, rfl, Or.inl ⟨Nat.zero_le _, rfl⟩, [], by simp, by simp, ⟨rfl, by simp, by simp, rfl⟩⟩

end DeepGNN
