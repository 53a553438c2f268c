import Verif.Model.Sampler
import Verif.Proofs.Sampling
import Verif.Proofs.AliasFile

namespace DeepGNN

theorem binomial_le (R : Draws) (n w total s : Nat) : binomial R n w total s ≤ n := by
  simp only [binomial]
  have : R s % (n + 1) ≤ n := Nat.le_of_lt_succ (Nat.mod_lt _ (by omega))
  repeat' split
  all_goals omega

theorem weightSum_cons {α} (p : SamplerPart α) (ps : List (SamplerPart α)) :
    weightSum (p :: ps) = p.weight + weightSum ps := by simp [weightSum]

/-- What a partition with replacement has to do. -/
def PartWith {α} (p : SamplerPart α) (xs : List α) : Prop :=
  0 < p.weight → ∀ R s out, ∃ o s', p.sample R s out = some (o, s') ∧ o.length = out.length ∧ ∀ x ∈ o, x ∈ xs

theorem takeCount_with (R : Draws) (left w rest s : Nat) (ht : 0 < w + rest) :
    takeCount true R left w rest s ≤ left ∧ (takeCount true R left w rest s ≠ 0 → 0 < w) ∧
      (rest = 0 → takeCount true R left w rest s = left) := by
  simp only [takeCount, if_true]
  refine ⟨binomial_le _ _ _ _ _, ?_, ?_⟩
  · intro h
    rcases Nat.eq_zero_or_pos w with h0 | h0
    · exfalso; apply h; simp only [binomial]; rw [if_neg (by omega), if_pos h0]
    · exact h0
  · intro h
    simp only [binomial]; rw [if_neg (by omega), if_neg (by omega), if_pos (by omega)]

theorem samplePartitions_with {α} (R : Draws) : ∀ (ps : List (SamplerPart α × List α)) (left s : Nat) (rest : List α),
    (∀ p ∈ ps, PartWith p.1 p.2) → left ≤ rest.length → 0 < weightSum (ps.map (·.1)) ∨ left = 0 →
    ∃ o s', samplePartitions true R (ps.map (·.1)) left s rest = some (o, rest.drop left, s') ∧ o.length = left ∧
      ∀ x ∈ o, x ∈ ps.flatMap (·.2)
  | [], left, s, rest, _, _, hw => by
    have : left = 0 := by rcases hw with h | h; exact absurd h (by simp [weightSum]); exact h
    subst this
    exact ⟨[], s, by simp [samplePartitions], rfl, by simp⟩
  | p :: ps, left, s, rest, hp, hl, hw => by
    by_cases h0 : left = 0
    · subst h0; exact ⟨[], s, by simp [samplePartitions], rfl, by simp⟩
    have hw' : 0 < weightSum ((p :: ps).map (·.1)) := by rcases hw with h | h; exact h; exact absurd h h0
    rw [List.map_cons, weightSum_cons] at hw'
    obtain ⟨h1, h2, h3⟩ := takeCount_with R left p.1.weight (weightSum (ps.map (·.1))) s hw'
    simp only [List.map_cons, samplePartitions, if_neg h0]
    generalize hc : takeCount true R left p.1.weight (weightSum (ps.map (·.1))) s = c at *
    by_cases hc0 : c = 0
    · rw [if_pos hc0]
      have : 0 < weightSum (ps.map (·.1)) := by
        rcases Nat.eq_zero_or_pos (weightSum (ps.map (·.1))) with h | h
        · have := h3 h; omega
        · exact h
      obtain ⟨o, s', e1, e2, e3⟩ := samplePartitions_with R ps left (s + 1) rest
        (fun p hp' => hp p (by simp [hp'])) hl (Or.inl this)
      exact ⟨o, s', e1, e2, fun x hx => by rw [List.flatMap_cons]; exact List.mem_append_right _ (e3 x hx)⟩
    · rw [if_neg hc0, if_pos ⟨h1, by omega⟩]
      obtain ⟨o1, s1, e1, e2, e3⟩ := hp p (by simp) (h2 hc0) R (s + 1) (rest.take c)
      rw [e1, Option.bind_some]
      obtain ⟨o, s', f1, f2, f3⟩ := samplePartitions_with R ps (left - c) s1 (rest.drop c)
        (fun p hp' => hp p (by simp [hp'])) (by simp; omega) (by
          rcases Nat.eq_zero_or_pos (weightSum (ps.map (·.1))) with h | h
          · have := h3 h; right; omega
          · exact Or.inl h)
      simp only
      rw [f1]
      refine ⟨o1 ++ o, s', ?_, ?_, ?_⟩
      · simp only [Option.map_some, List.drop_drop]
        rw [show c + (left - c) = left by omega]
      · rw [List.length_append, e2, f2, List.length_take]; omega
      · intro x hx
        rw [List.flatMap_cons]
        rcases List.mem_append.1 hx with h | h
        · exact List.mem_append_left _ (e3 x h)
        · exact List.mem_append_right _ (f3 x h)

/-- A sampler with the elements of its partitions. -/
abbrev SamplerSpec (α : Type) := List (Int × List (SamplerPart α × List α))

/-- The sampler itself. -/
def SamplerSpec.sampler {α} (ts : SamplerSpec α) : List (Int × List (SamplerPart α)) :=
  ts.map fun t => (t.1, t.2.map (·.1))

/-- All elements with their types. -/
def SamplerSpec.population {α} (ts : SamplerSpec α) : List (Int × α) :=
  ts.flatMap fun t => (t.2.flatMap (·.2)).map fun x => (t.1, x)

/-- Total weight. -/
def SamplerSpec.total {α} (ts : SamplerSpec α) : Nat := (ts.map fun t => weightSum (t.2.map (·.1))).sum

theorem sampler_total {α} (ts : SamplerSpec α) :
    (ts.sampler.map fun x => weightSum x.2).sum = ts.total := by
  simp only [SamplerSpec.sampler, SamplerSpec.total, List.map_map]; rfl

theorem total_cons {α} (t : Int × List (SamplerPart α × List α)) (ts : SamplerSpec α) :
    SamplerSpec.total (t :: ts) = weightSum (t.2.map (·.1)) + SamplerSpec.total ts := by simp [SamplerSpec.total]

theorem zip_replicate_append {α} (t : Int) (o : List α) (tys : List Int) (os : List α) :
    (List.replicate o.length t ++ tys).zip (o ++ os) = (o.map fun x => (t, x)) ++ tys.zip os := by
  induction o with
  | nil => simp
  | cons a o ih => simp [List.replicate_succ, ih]

theorem sampleTypes_with {α} (R : Draws) : ∀ (ts : SamplerSpec α) (left s : Nat) (rest : List α),
    (∀ t ∈ ts, ∀ p ∈ t.2, PartWith p.1 p.2) → left ≤ rest.length → 0 < SamplerSpec.total ts ∨ left = 0 →
    ∃ tys o s', sampleTypes true R (SamplerSpec.sampler ts) left s rest = some (tys, o, rest.drop left, s') ∧
      tys.length = left ∧ o.length = left ∧ ∀ x ∈ tys.zip o, x ∈ SamplerSpec.population ts
  | [], left, s, rest, _, _, hw => by
    have : left = 0 := by rcases hw with h | h; exact absurd h (by simp [SamplerSpec.total]); exact h
    subst this
    exact ⟨[], [], s, by simp [sampleTypes, SamplerSpec.sampler], rfl, rfl, by simp⟩
  | t :: ts, left, s, rest, hp, hl, hw => by
    by_cases h0 : left = 0
    · subst h0; exact ⟨[], [], s, by simp [sampleTypes, SamplerSpec.sampler], rfl, rfl, by simp⟩
    have hw' : 0 < SamplerSpec.total (t :: ts) := by rcases hw with h | h; exact h; exact absurd h h0
    rw [total_cons] at hw'
    obtain ⟨h1, h2, h3⟩ := takeCount_with R left (weightSum (t.2.map (·.1))) (SamplerSpec.total ts) s hw'
    have ec : SamplerSpec.sampler (t :: ts) = (t.1, t.2.map (·.1)) :: SamplerSpec.sampler ts := rfl
    rw [ec]
    simp only [sampleTypes, if_neg h0, sampler_total]
    generalize hc : takeCount true R left (weightSum (t.2.map (·.1))) (SamplerSpec.total ts) s = c at *
    rw [if_pos h1]
    obtain ⟨o1, s1, e1, e2, e3⟩ := samplePartitions_with R t.2 c (s + 1) rest (fun p hp' => hp t (by simp) p hp')
      (by omega) (by
        by_cases hc0 : c = 0
        · exact Or.inr hc0
        · exact Or.inl (h2 hc0))
    rw [e1, Option.bind_some]
    obtain ⟨tys, o, s', f1, f2, f3, f4⟩ := sampleTypes_with R ts (left - c) s1 (rest.drop c)
      (fun t' ht' => hp t' (by simp [ht'])) (by simp; omega) (by
        rcases Nat.eq_zero_or_pos (SamplerSpec.total ts) with h | h
        · have := h3 h; right; omega
        · exact Or.inl h)
    simp only
    rw [f1]
    refine ⟨List.replicate c t.1 ++ tys, o1 ++ o, s', ?_, ?_, ?_, ?_⟩
    · simp only [Option.map_some, List.drop_drop]
      rw [show c + (left - c) = left by omega]
    · rw [List.length_append, List.length_replicate, f2]; omega
    · rw [List.length_append, e2, f3]; omega
    · intro x hx
      rw [← e2, zip_replicate_append] at hx
      simp only [SamplerSpec.population, List.flatMap_cons]
      rcases List.mem_append.1 hx with h | h
      · obtain ⟨y, hy, rfl⟩ := List.mem_map.1 h
        exact List.mem_append_left _ (List.mem_map_of_mem (e3 y hy))
      · exact List.mem_append_right _ (f4 x h)

/-! Without replacement -/

/-- What a partition without replacement has to do: `xs` are its elements. -/
def PartWithout {α} (p : SamplerPart α) (xs : List α) : Prop :=
  p.weight = xs.length ∧ (xs ≠ [] → ∀ R s out, 0 < out.length →
    ∃ o s', p.sample R s out = some (o, s') ∧ o.length = out.length ∧ Spec.Selection xs out o)

/-- Elements at distinct positions. -/
def Picks {α} (xs o : List α) : Prop :=
  ∃ ps : List Nat, ps.Nodup ∧ ps.map (fun p => xs[p]?) = o.map some

theorem Picks.nil {α} (xs : List α) : Picks xs [] := ⟨[], by simp, by simp⟩

theorem Picks.right {α} {xs o : List α} (ys : List α) (h : Picks xs o) : Picks (ys ++ xs) o := by
  obtain ⟨ps, h1, h2⟩ := h
  refine ⟨ps.map (ys.length + ·), ?_, ?_⟩
  · simp only [List.Nodup, List.pairwise_map]
    exact h1.imp fun hab h => hab (by omega)
  · rw [← h2, List.map_map]
    apply List.map_congr_left
    intro p _
    simp [List.getElem?_append_right]

theorem Picks.lt {α} {xs o : List α} {ps : List Nat} (h : ps.map (fun p => xs[p]?) = o.map some) :
    ∀ p ∈ ps, p < xs.length := by
  intro p hp
  have : xs[p]? ∈ o.map some := by rw [← h]; exact List.mem_map_of_mem (f := fun p => xs[p]?) hp
  obtain ⟨x, -, hx⟩ := List.mem_map.1 this
  exact (List.getElem?_eq_some_iff.1 hx.symm).1

theorem Picks.append {α} {xs ys o os : List α} (h : Picks xs o) (h' : Picks ys os) : Picks (xs ++ ys) (o ++ os) := by
  obtain ⟨ps, h1, h2⟩ := h
  obtain ⟨qs, h3, h4⟩ := h'
  have hlt := Picks.lt h2
  refine ⟨ps ++ qs.map (xs.length + ·), ?_, ?_⟩
  · refine List.nodup_append.2 ⟨h1, ?_, ?_⟩
    · simp only [List.Nodup, List.pairwise_map]
      exact h3.imp fun hab h => hab (by omega)
    · intro a ha b hb
      obtain ⟨c, -, rfl⟩ := List.mem_map.1 hb
      have := hlt a ha
      omega
  · rw [List.map_append, List.map_append, ← h2, ← h4, List.map_map]
    congr 1
    · apply List.map_congr_left
      intro p hp
      exact List.getElem?_append_left (hlt p hp)
    · apply List.map_congr_left
      intro p _
      simp [List.getElem?_append_right]

theorem Picks.map {α β} {xs o : List α} (f : α → β) (h : Picks xs o) : Picks (xs.map f) (o.map f) := by
  obtain ⟨ps, h1, h2⟩ := h
  refine ⟨ps, h1, ?_⟩
  have := congrArg (List.map (Option.map f)) h2
  simp only [List.map_map] at this ⊢
  refine Eq.trans (List.map_congr_left ?_) (this.trans (List.map_congr_left ?_))
  · intro p _; simp
  · intro x _; rfl

theorem selection_picks {α} {xs out o : List α} (h : Spec.Selection xs out o) (hl : out.length ≤ xs.length)
    : Picks xs o := by
  obtain ⟨chosen, ps, h1, h2, h3, h4⟩ := h
  rw [Nat.min_eq_left hl] at h2
  rw [h2, List.drop_length, List.append_nil] at h1
  exact ⟨ps, h3, by rw [h4, h1]⟩

theorem takeCount_without (R : Draws) (left w rest s : Nat) :
    let c := takeCount false R left w rest s
    c ≤ w ∧ (c ≤ left → (left - c ≤ rest ∨ c = w)) ∧ (w + rest ≤ left → c = w) := by
  have h := binomial_le R left w (w + rest) s
  simp only [takeCount, Bool.false_eq_true, if_false]
  generalize binomial R left w (w + rest) s = b at *
  have hm : min b w ≤ w := Nat.min_le_right _ _
  have hb : min b w ≤ b := Nat.min_le_left _ _
  generalize min b w = c at *
  by_cases hc : left - c > rest
  · rw [if_pos hc]; omega
  · rw [if_neg hc]; omega

theorem samplePartitions_without {α} (R : Draws) : ∀ (ps : List (SamplerPart α × List α)) (left s : Nat) (rest : List α),
    (∀ p ∈ ps, PartWithout p.1 p.2) → left ≤ rest.length → left ≤ (ps.flatMap (·.2)).length →
    (∀ r, samplePartitions false R (ps.map (·.1)) left s rest = some r → r.2.1 = rest.drop left ∧ r.1.length = left ∧
      Picks (ps.flatMap (·.2)) r.1) ∧
    (left = (ps.flatMap (·.2)).length → ∃ r, samplePartitions false R (ps.map (·.1)) left s rest = some r)
  | [], left, s, rest, _, _, hw => by
    have : left = 0 := by simpa using hw
    subst this
    simp [samplePartitions, Picks.nil]
  | p :: ps, left, s, rest, hp, hl, hw => by
    by_cases h0 : left = 0
    · subst h0; simp [samplePartitions, Picks.nil]
    obtain ⟨hpw, hps⟩ := hp p (by simp)
    have hsum : weightSum (ps.map (·.1)) = (ps.flatMap (·.2)).length := by
      clear hw h0 hl
      have : ∀ q ∈ ps, q.1.weight = q.2.length := fun q hq => (hp q (by simp [hq])).1
      clear hp hps hpw
      induction ps with
      | nil => rfl
      | cons q ps ih =>
        rw [List.map_cons, weightSum_cons, ih fun q hq => this q (by simp [hq]), List.flatMap_cons,
          List.length_append, this q (by simp)]
    rw [List.flatMap_cons, List.length_append] at hw ⊢
    obtain ⟨h1, h2, h3⟩ := takeCount_without R left p.1.weight (weightSum (ps.map (·.1))) s
    simp only [List.map_cons, samplePartitions, if_neg h0]
    generalize hc : takeCount false R left p.1.weight (weightSum (ps.map (·.1))) s = c at *
    by_cases hc0 : c = 0
    · rw [if_pos hc0]
      obtain ⟨g1, g2⟩ := samplePartitions_without R ps left (s + 1) rest (fun p hp' => hp p (by simp [hp'])) hl (by
        have := h2 (by omega); omega)
      refine ⟨fun r hr => ?_, fun h => g2 (by have := h3 (by omega); omega)⟩
      obtain ⟨e1, e2, e3⟩ := g1 r hr
      exact ⟨e1, e2, e3.right _⟩
    · rw [if_neg hc0]
      by_cases hcl : c ≤ left ∧ c ≤ rest.length
      · rw [if_pos hcl]
        have hne : p.2 ≠ [] := by intro h; rw [h] at hpw; simp at hpw; omega
        have hlen : (rest.take c).length = c := by rw [List.length_take]; omega
        obtain ⟨o1, s1, e1, e2, e3⟩ := hps hne R (s + 1) (rest.take c) (by omega)
        rw [e1, Option.bind_some]
        rw [hlen] at e2
        have e4 := selection_picks e3 (by omega)
        obtain ⟨g1, g2⟩ := samplePartitions_without R ps (left - c) s1 (rest.drop c)
          (fun p hp' => hp p (by simp [hp'])) (by simp; omega) (by have := h2 hcl.1; omega)
        refine ⟨fun r hr => ?_, fun h => ?_⟩
        · obtain ⟨r', hr', rfl⟩ := Option.map_eq_some_iff.1 hr
          obtain ⟨f1, f2, f3⟩ := g1 r' hr'
          refine ⟨?_, ?_, ?_⟩
          · simp only [f1, List.drop_drop]
            rw [show c + (left - c) = left by omega]
          · simp only [List.length_append, e2, f2]; omega
          · exact e4.append f3
        · obtain ⟨r, hr⟩ := g2 (by have := h3 (by omega); omega)
          exact ⟨_, by rw [hr]; rfl⟩
      · rw [if_neg hcl]
        refine ⟨by simp, fun h => ?_⟩
        exfalso
        have := h3 (by omega)
        omega

theorem sampleTypes_without {α} (R : Draws) : ∀ (ts : SamplerSpec α) (left s : Nat) (rest : List α),
    (∀ t ∈ ts, ∀ p ∈ t.2, PartWithout p.1 p.2) → left ≤ rest.length →
    (∀ r, sampleTypes false R (SamplerSpec.sampler ts) left s rest = some r →
      r.1.length = min left (SamplerSpec.population ts).length ∧ r.2.1.length = r.1.length ∧
      r.2.2.1 = rest.drop r.1.length ∧ Picks (SamplerSpec.population ts) (r.1.zip r.2.1)) ∧
    ((SamplerSpec.population ts).length ≤ left → ∃ r, sampleTypes false R (SamplerSpec.sampler ts) left s rest = some r)
  | [], left, s, rest, _, _ => by
    simp [sampleTypes, SamplerSpec.sampler, SamplerSpec.population, Picks.nil]
  | t :: ts, left, s, rest, hp, hl => by
    by_cases h0 : left = 0
    · subst h0; simp [sampleTypes, SamplerSpec.sampler, Picks.nil]
    have hsum : ∀ ps : List (SamplerPart α × List α), (∀ p ∈ ps, PartWithout p.1 p.2) →
        weightSum (ps.map (·.1)) = (ps.flatMap (·.2)).length := by
      intro ps
      induction ps with
      | nil => intro _; rfl
      | cons q ps ih =>
        intro h
        rw [List.map_cons, weightSum_cons, ih fun q hq => h q (by simp [hq]), List.flatMap_cons,
          List.length_append, (h q (by simp)).1]
    have htot : SamplerSpec.total ts = (SamplerSpec.population ts).length := by
      have hp' : ∀ t ∈ ts, ∀ p ∈ t.2, PartWithout p.1 p.2 := fun t' ht' => hp t' (by simp [ht'])
      clear hp
      induction ts with
      | nil => rfl
      | cons a ts ih =>
        rw [total_cons, ih fun t' ht' => hp' t' (by simp [ht']), hsum _ (hp' a (by simp))]
        simp [SamplerSpec.population]
    have hpop : SamplerSpec.population (t :: ts) =
        ((t.2.flatMap (·.2)).map fun x => (t.1, x)) ++ SamplerSpec.population ts := by simp [SamplerSpec.population]
    have hw := hsum t.2 (hp t (by simp))
    obtain ⟨h1, h2, h3⟩ := takeCount_without R left (weightSum (t.2.map (·.1))) (SamplerSpec.total ts) s
    have ec : SamplerSpec.sampler (t :: ts) = (t.1, t.2.map (·.1)) :: SamplerSpec.sampler ts := rfl
    rw [ec, hpop, List.length_append, List.length_map]
    simp only [sampleTypes, if_neg h0, sampler_total]
    generalize hc : takeCount false R left (weightSum (t.2.map (·.1))) (SamplerSpec.total ts) s = c at *
    by_cases hcl : c ≤ left
    · rw [if_pos hcl]
      obtain ⟨g1, g2⟩ := samplePartitions_without R t.2 c (s + 1) rest (fun p hp' => hp t (by simp) p hp')
        (by omega) (by omega)
      refine ⟨fun r hr => ?_, fun h => ?_⟩
      · obtain ⟨⟨o1, rest1, s1⟩, hq, hr⟩ := Option.bind_eq_some_iff.1 hr
        obtain ⟨e1, e2, e3⟩ := g1 _ hq
        simp only at e1 e2 e3 hr
        obtain ⟨⟨tys, os, rest2, s2⟩, hr', rfl⟩ := Option.map_eq_some_iff.1 hr
        rw [e1] at hr'
        obtain ⟨f, -⟩ := sampleTypes_without R ts (left - c) s1 (rest.drop c)
          (fun t' ht' => hp t' (by simp [ht'])) (by simp; omega)
        obtain ⟨f1, f2, f3, f4⟩ := f _ hr'
        simp only at f1 f2 f3 f4 ⊢
        rw [List.length_append, List.length_replicate, List.length_append, f1, e2, f2, f1, f3, List.drop_drop, f1]
        refine ⟨?_, rfl, rfl, ?_⟩
        · have := h2 hcl
          omega
        · have : c = o1.length := e2.symm
          rw [this, zip_replicate_append]
          exact (e3.map fun x => (t.1, x)).append f4
      · have hcw := h3 (by omega)
        obtain ⟨⟨o1, rest1, s1⟩, hr⟩ := g2 (by omega)
        rw [hr, Option.bind_some]
        obtain ⟨e1, -, -⟩ := g1 _ hr
        simp only at e1
        obtain ⟨-, f⟩ := sampleTypes_without R ts (left - c) s1 (rest.drop c)
          (fun t' ht' => hp t' (by simp [ht'])) (by simp; omega)
        obtain ⟨r, hr'⟩ := f (by omega)
        simp only [e1]
        exact ⟨_, by rw [hr']; rfl⟩
    · rw [if_neg hcl]
      refine ⟨by simp, fun h => ?_⟩
      exfalso
      have := h3 (by omega)
      omega

/-! The partitions -/

theorem weighted_part {α} (recs : List (AliasRec α)) (q one w : Nat) (hq : 0 < q) (hone : 0 < one)
    (hne : 0 < w → recs ≠ []) :
    PartWith { weight := w, sample := weightedSample recs q one }
      (recs.flatMap fun r => (List.range (q * one)).map (r.pick q)) := by
  intro hw R s out
  obtain ⟨o, h1, h2, h3⟩ := weightedSample_spec recs q one hq hone (hne hw) R s out
  exact ⟨o, _, h1, h2, h3⟩

theorem uniform_part_with {α} (xs : List α) : PartWith { weight := xs.length, sample := uniformSampleWith xs } xs := by
  intro hw R s out
  have hne : xs ≠ [] := List.length_pos_iff.1 hw
  obtain ⟨o, h1, h2, h3⟩ := mapM_range_some (fun i => xs[R (s + i) % xs.length]?) out.length (by
    intro i _
    rw [List.getElem?_eq_getElem (Nat.mod_lt _ hw)]
    exact ⟨_, rfl⟩)
  refine ⟨o, s + out.length, ?_, h2, ?_⟩
  · simp only [uniformSampleWith, if_neg hne]; rw [h1]; rfl
  · intro x hx
    obtain ⟨i, hi, rfl⟩ := List.getElem_of_mem hx
    have := h3 i (by omega)
    rw [List.getElem?_eq_getElem hi] at this
    exact List.mem_of_getElem? this

theorem uniform_part_without {α} (xs : List α) :
    PartWithout { weight := xs.length, sample := uniformSampleWithout xs } xs := by
  refine ⟨rfl, fun hne R s out ho => ?_⟩
  obtain ⟨o, a, s', h1, h2, h3⟩ := AlgL.run_selection R [xs] out ho s
  simp only [AlgL.run, List.foldlM_cons, List.foldlM_nil, Option.bind_eq_bind, pure, Option.bind_some] at h1
  have h1' : AlgL.add R (store xs) xs.length (out, { k := out.length }, s) = some (o, a, s') := by
    simpa using h1
  refine ⟨o, s', ?_, h2, by simpa using h3⟩
  simp only [uniformSampleWithout, if_neg hne]
  rw [h1']; rfl

end DeepGNN
