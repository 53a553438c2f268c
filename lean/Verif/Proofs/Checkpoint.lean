import Verif.Model.Checkpoint
import Verif.Spec.Checkpoint
import Verif.Proofs.Files

namespace DeepGNN.Checkpoint

open Files

/-- The last `w` decimal digits. -/
def fixed : Nat → Nat → List Nat
  | 0, _ => []
  | w + 1, n => fixed w (n / 10) ++ [48 + n % 10]

theorem length_fixed : ∀ w n, (fixed w n).length = w
  | 0, _ => rfl
  | w + 1, n => by simp [fixed, length_fixed w]

theorem fixed_zero : ∀ w, fixed w 0 = List.replicate w 48
  | 0 => rfl
  | w + 1 => by rw [fixed, Nat.zero_div, fixed_zero w, List.replicate_succ']

theorem padded_eq : ∀ (w n : Nat), n < 10 ^ (w + 1) → padded (w + 1) n = fixed (w + 1) n ∧ (digits n).length ≤ w + 1
  | w, n, h => by
    rw [padded, digits]
    by_cases h1 : n < 10
    · rw [if_pos h1, fixed, Nat.div_eq_of_lt h1, Nat.mod_eq_of_lt h1, fixed_zero]
      simp
    · rw [if_neg h1]
      cases w with
      | zero => simp at h; omega
      | succ w =>
        obtain ⟨h2, h3⟩ := padded_eq w (n / 10) (by
          rw [Nat.pow_succ] at h
          exact Nat.div_lt_of_lt_mul (by omega))
        rw [padded] at h2
        rw [fixed, ← h2]
        constructor
        · rw [← List.append_assoc]
          refine congrArg (· ++ _) (congrArg (· ++ _) (congrArg (List.replicate · 48) ?_))
          simp
        · simp; omega

theorem le_append : ∀ (a b x y : List Nat), a.length = b.length → (le (a ++ x) (b ++ y) = true ↔
    (a ≠ b ∧ le a b = true) ∨ (a = b ∧ le x y = true))
  | [], [], x, y, _ => by simp
  | [], _ :: _, _, _, h => by simp at h
  | _ :: _, [], _, _, h => by simp at h
  | a :: as, b :: bs, x, y, h => by
    have ih := le_append as bs x y (by simpa using h)
    simp only [List.cons_append, le, Bool.or_eq_true, Bool.and_eq_true, decide_eq_true_eq, beq_iff_eq, List.cons.injEq, ne_eq] at *
    rw [ih]
    constructor
    · rintro (h1 | ⟨h1, h2 | h2⟩)
      · exact .inl ⟨by omega, .inl h1⟩
      · exact .inl ⟨fun e => h2.1 e.2, .inr ⟨h1, h2.2⟩⟩
      · exact .inr ⟨⟨h1, h2.1⟩, h2.2⟩
    · rintro (⟨h1, h2 | h2⟩ | ⟨h1, h2⟩)
      · exact .inl h2
      · exact .inr ⟨h2.1, .inl ⟨fun e => h1 ⟨h2.1, e⟩, h2.2⟩⟩
      · exact .inr ⟨h1.1, .inr ⟨h1.2, h2⟩⟩

theorem fixed_le : ∀ (w a b : Nat), a < 10 ^ w → b < 10 ^ w →
    ((fixed w a = fixed w b ↔ a = b) ∧ (le (fixed w a) (fixed w b) = true ↔ a ≤ b))
  | 0, a, b, ha, hb => by
    simp at ha hb
    subst ha hb
    simp [fixed, le]
  | w + 1, a, b, ha, hb => by
    rw [Nat.pow_succ] at ha hb
    obtain ⟨h1, h2⟩ := fixed_le w (a / 10) (b / 10) (Nat.div_lt_of_lt_mul (by omega)) (Nat.div_lt_of_lt_mul (by omega))
    have e1 : fixed (w + 1) a = fixed (w + 1) b ↔ a = b := by
      constructor
      · intro h
        rw [fixed, fixed] at h
        have := List.append_inj' h rfl
        have h3 := h1.1 this.1
        have h4 := List.cons.inj this.2
        omega
      · rintro rfl; rfl
    refine ⟨e1, ?_⟩
    rw [fixed, fixed, le_append _ _ _ _ (by rw [length_fixed, length_fixed]), ne_eq, h1, h2]
    simp only [le, Bool.or_eq_true, Bool.and_eq_true, decide_eq_true_eq, beq_iff_eq, and_true]
    omega

/-- Numbers that fit the format. -/
def Fits (x : Nat × Nat) : Prop := x.1 < 1000 ∧ x.2 < 1000000

theorem name_le {x y : Nat × Nat} (hx : Fits x) (hy : Fits y) :
    (name x = name y ↔ x = y) ∧ (le (name x) (name y) = true ↔ Spec.Older x y ∨ x = y) := by
  have ex := (padded_eq 2 x.1 hx.1).1
  have ey := (padded_eq 2 y.1 hy.1).1
  have ex' := (padded_eq 5 x.2 hx.2).1
  have ey' := (padded_eq 5 y.2 hy.2).1
  obtain ⟨a1, a2⟩ := fixed_le 3 x.1 y.1 hx.1 hy.1
  obtain ⟨b1, b2⟩ := fixed_le 6 x.2 y.2 hx.2 hy.2
  rw [name, name, ex, ey, ex', ey']
  have e : x = y ↔ x.1 = y.1 ∧ x.2 = y.2 := Prod.ext_iff
  constructor
  · constructor
    · intro h
      have := List.append_inj h (by rw [length_fixed, length_fixed])
      exact e.2 ⟨a1.1 this.1, b1.1 (List.cons.inj this.2).2⟩
    · rintro rfl; rfl
  · rw [le_append _ _ _ _ (by rw [length_fixed, length_fixed]), ne_eq, a1, a2, e]
    simp only [le, Nat.lt_irrefl, decide_false, Bool.false_or, beq_self_eq_true, Bool.true_and, b2, Spec.Older]
    constructor
    · rintro (⟨h1, h2⟩ | ⟨h1, h2⟩)
      · left; left; omega
      · rcases Nat.lt_or_ge x.2 y.2 with h3 | h3
        · left; right; exact ⟨h1, h3⟩
        · right; exact ⟨h1, by omega⟩
    · rintro ((h1 | h1) | h1)
      · left; omega
      · right; omega
      · right; omega

theorem rotate_spec {limit : Nat} (hl : 0 < limit) {folder : List Name} (hn : folder.Nodup) :
    (rotate limit folder).Nodup ∧ (∀ f ∈ rotate limit folder, f ∈ folder) ∧ (rotate limit folder).length ≤ limit ∧
      ∀ f ∈ folder, f ∉ rotate limit folder →
        (rotate limit folder).length = limit ∧ ∀ g ∈ rotate limit folder, le f g = true ∧ f ≠ g := by
  rw [rotate]
  split
  · rename_i h
    have hp : (sorted folder).Perm folder := sort_perm folder
    have hs := sort_sorted folder
    rw [← sorted] at hs
    have hnd := hp.nodup_iff.2 hn
    generalize hk : folder.length - limit = k
    have hsplit : (sorted folder).take k ++ (sorted folder).drop k = sorted folder := List.take_append_drop _ _
    rw [← hsplit, List.nodup_append] at hnd
    rw [← hsplit, List.pairwise_append] at hs
    have hmem : ∀ f, f ∈ folder.filter (fun f => f ∉ (sorted folder).take k) ↔ f ∈ (sorted folder).drop k := by
      intro f
      rw [List.mem_filter, ← hp.mem_iff, decide_eq_true_eq]
      constructor
      · rintro ⟨h1, h2⟩
        rw [← hsplit, List.mem_append] at h1
        exact h1.resolve_left h2
      · intro h1
        refine ⟨List.mem_of_mem_drop h1, fun h2 => hnd.2.2 f h2 f h1 rfl⟩
    have hnd2 : (folder.filter fun f => f ∉ (sorted folder).take k).Nodup := hn.sublist List.filter_sublist
    have hlen : (folder.filter fun f => f ∉ (sorted folder).take k).length = limit := by
      rw [((List.perm_ext_iff_of_nodup hnd2 hnd.2.1).2 hmem).length_eq, List.length_drop, hp.length_eq]
      omega
    refine ⟨hnd2, fun f hf => (List.mem_filter.1 hf).1, by rw [hlen]; exact Nat.le_refl _, ?_⟩
    intro f hf hf2
    refine ⟨hlen, fun g hg => ?_⟩
    rw [hmem] at hg hf2
    have h1 : f ∈ (sorted folder).take k := by
      have := hp.mem_iff.2 hf
      rw [← hsplit, List.mem_append] at this
      exact this.resolve_right hf2
    exact ⟨hs.2.2 f h1 g hg, hnd.2.2 f h1 g hg⟩
  · rename_i h
    exact ⟨hn, fun _ h => h, by omega, fun f hf hf2 => absurd hf hf2⟩

/-- What a sequence of saves leaves on disk. -/
theorem newest_save {limit : Nat} (hl : 0 < limit) {saved kept : List (Nat × Nat)} {x : Nat × Nat}
    (hs : ∀ y ∈ x :: saved, Fits y) (h : Spec.NewestCheckpoint limit saved kept) :
    ∃ kept', save limit (kept.map name) x = kept'.map name ∧ Spec.NewestCheckpoint limit (x :: saved) kept' := by
  have hfk : ∀ y ∈ kept, Fits y := fun y hy => hs y (by simp [h.subset y hy])
  let all := if x ∈ kept then kept else kept ++ [x]
  have hall : ∀ y, y ∈ all ↔ y = x ∨ y ∈ kept := by
    intro y
    simp only [all]
    split
    · rename_i hx
      constructor
      · exact .inr
      · rintro (rfl | h)
        · exact hx
        · exact h
    · simp [or_comm]
  have hfall : ∀ y ∈ all, Fits y := by
    intro y hy
    rcases (hall y).1 hy with rfl | hy
    · exact hs _ (by simp)
    · exact hfk y hy
  have halln : all.Nodup := by
    simp only [all]
    split
    · exact h.nodup
    · rename_i hx
      rw [List.nodup_append]
      refine ⟨h.nodup, by simp, ?_⟩
      intro a ha b hb e
      simp only [List.mem_cons, List.not_mem_nil, or_false] at hb
      subst e hb
      exact hx ha
  have hnm : ∀ (l : List (Nat × Nat)), (∀ y ∈ l, Fits y) → ∀ y, Fits y → (name y ∈ l.map name ↔ y ∈ l) := by
    intro l hl y hy
    rw [List.mem_map]
    constructor
    · rintro ⟨z, hz, e⟩
      rw [← (name_le (hl z hz) hy).1.1 e]; exact hz
    · intro hm; exact ⟨y, hm, rfl⟩
  have hfolder : (if name x ∈ kept.map name then kept.map name else kept.map name ++ [name x]) = all.map name := by
    simp only [all]
    by_cases hx : x ∈ kept
    · rw [if_pos ((hnm kept hfk x (hs x (by simp))).2 hx), if_pos hx]
    · rw [if_neg (fun hh => hx ((hnm kept hfk x (hs x (by simp))).1 hh)), if_neg hx, List.map_append]; rfl
  have hnd : (all.map name).Nodup := by
    rw [List.Nodup, List.pairwise_map]
    refine List.Pairwise.imp_of_mem ?_ halln
    intro a b ha hb hne e
    exact hne ((name_le (hfall a ha) (hfall b hb)).1.1 e)
  obtain ⟨r1, r2, r3, r4⟩ := rotate_spec hl hnd
  rw [save, hfolder]
  let kept' := all.filter fun y => name y ∈ rotate limit (all.map name)
  have hk' : rotate limit (all.map name) = kept'.map name := by
    have e : ∀ p : Name → Bool, (all.map name).filter p = (all.filter (p ∘ name)).map name := fun p => List.filter_map
    have h1 : rotate limit (all.map name) = (all.map name).filter fun f => f ∈ rotate limit (all.map name) := by
      generalize hr : rotate limit (all.map name) = r
      rw [rotate] at hr
      split at hr
      · rw [← hr]
        refine List.filter_congr fun f hf => ?_
        simp [List.mem_filter, hf]
      · rw [← hr]
        symm
        rw [List.filter_eq_self]
        simp
    rw [h1, e]
    simp only [kept']
    refine congrArg _ (List.filter_congr fun y _ => ?_)
    simp only [Function.comp_apply]
  have hmem : ∀ y, y ∈ all → (y ∈ kept' ↔ name y ∈ rotate limit (all.map name)) := by
    intro y hy
    simp only [kept', List.mem_filter, decide_eq_true_eq, hy, true_and]
  have hsub : ∀ y ∈ kept', y ∈ all := fun y hy => (List.mem_filter.1 hy).1
  have hlen : kept'.length = (rotate limit (all.map name)).length := by rw [hk', List.length_map]
  refine ⟨kept', hk', halln.sublist List.filter_sublist, ?_, by rw [hlen]; exact r3, ?_⟩
  · intro y hy
    rcases (hall y).1 (hsub y hy) with rfl | h1
    · simp
    · simp [h.subset y h1]
  · intro y hy hny
    have hyf := hs y hy
    by_cases hya : y ∈ all
    · obtain ⟨q1, q2⟩ := r4 (name y) (List.mem_map_of_mem hya) (fun hh => hny ((hmem y hya).2 hh))
      refine ⟨by rw [hlen, q1], fun z hz => ?_⟩
      have hza := hsub z hz
      obtain ⟨s1, s2⟩ := q2 (name z) ((hmem z hza).1 hz)
      rcases (name_le hyf (hfall z hza)).2.1 s1 with h3 | h3
      · exact h3
      · subst h3; exact absurd rfl s2
    · have hyk : y ∉ kept := fun hh => hya ((hall y).2 (.inr hh))
      have hyx : y ≠ x := fun hh => hya ((hall y).2 (.inl hh))
      have hys : y ∈ saved := by
        rcases List.mem_cons.1 hy with h1 | h1
        · exact absurd h1 hyx
        · exact h1
      obtain ⟨h1, h2⟩ := h.older y hys hyk
      -- the folder was full, so it is full again and only grew newer
      have hfull : kept'.length = limit := by
        rw [hlen]
        rcases Nat.lt_or_ge limit (all.map name).length with h3 | h3
        · rw [rotate, if_pos ⟨hl, h3⟩]
          have : ∃ f ∈ all.map name, f ∉ rotate limit (all.map name) := by
            refine Classical.byContradiction fun hc => ?_
            have hc' : ∀ f ∈ all.map name, f ∈ rotate limit (all.map name) := by
              intro f hf
              exact Classical.byContradiction fun hh => hc ⟨f, hf, hh⟩
            have h5 := List.Nodup.length_le_of_subset hnd hc'
            omega
          obtain ⟨f, hf, hf2⟩ := this
          have := (r4 f hf hf2).1
          rw [rotate, if_pos ⟨hl, h3⟩] at this
          exact this
        · rw [rotate, if_neg (by omega)]
          have : kept.length ≤ all.length := by
            simp only [all]; split <;> simp
          rw [List.length_map] at h3 ⊢
          omega
      refine ⟨hfull, fun z hz => ?_⟩
      rcases (hall z).1 (hsub z hz) with rfl | hzk
      · by_cases hxk : z ∈ kept
        · exact h2 z hxk
        · -- the new one was kept, so another one was deleted, which is newer than `y`
          have hlen2 : all.length = limit + 1 := by simp only [all]; rw [if_neg hxk]; simp [h1]
          have : ∃ u ∈ kept, u ∉ kept' := by
            refine Classical.byContradiction fun hc => ?_
            have hc' : ∀ u ∈ all, u ∈ kept' := by
              intro u hu
              rcases (hall u).1 hu with rfl | hu'
              · exact hz
              · exact Classical.byContradiction fun hh => hc ⟨u, hu', hh⟩
            have h5 := List.Nodup.length_le_of_subset halln hc'
            omega
          obtain ⟨u, hu, hu2⟩ := this
          have hua := (hall u).2 (.inr hu)
          obtain ⟨-, q2⟩ := r4 (name u) (List.mem_map_of_mem hua) (fun hh => hu2 ((hmem u hua).2 hh))
          obtain ⟨s1, s2⟩ := q2 (name z) ((hmem z (hsub z hz)).1 hz)
          have h6 := h2 u hu
          rcases (name_le (hfk u hu) (hfall z (hsub z hz))).2.1 s1 with h7 | h7
          · rcases h6 with h6 | h6 <;> rcases h7 with h7 | h7
            · exact .inl (by omega)
            · exact .inl (by omega)
            · exact .inl (by omega)
            · exact .inr ⟨by omega, by omega⟩
          · subst h7; exact absurd rfl s2
      · exact h2 z hzk

end DeepGNN.Checkpoint
