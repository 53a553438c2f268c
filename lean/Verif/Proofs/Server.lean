import Verif.Model.Server
import Verif.Proofs.WeightedJoint
import Verif.Props.C19
import Verif.Spec.RemoteSampling

/-
Answers of servers to weighted sampling requests.
-/

namespace DeepGNN

open Spec

/-! Blocks of a node -/

/-- Node of the last block. -/
def lastId : Option Int → List Rec → Option Int
  | last, [] => last
  | _, r :: rs => lastId (some r.src) rs

theorem blockIds_app (last : Option Int) (rs qs : List Rec) :
    blockIds last (rs ++ qs) = blockIds last rs ++ blockIds (lastId last rs) qs := by
  induction rs generalizing last with
  | nil => rfl
  | cons r rs ih =>
    simp only [List.cons_append, blockIds, lastId]
    split
    · rw [ih]; rfl
    · split
      · rename_i h; rw [ih, h]
      · rw [ih]; rfl

theorem blockIds_other (last : Option Int) (n : Int) (rs : List Rec) (h : ∀ q ∈ rs, q.src ≠ n) :
    (blockIds last rs).filter (fun i => i = n) = [] := by
  rw [List.filter_eq_nil_iff]
  intro i hi
  have : ∃ q ∈ rs, q.src = i := by
    induction rs generalizing last with
    | nil => simp [blockIds] at hi
    | cons r rs ih =>
      simp only [blockIds] at hi
      have hrec : ∀ l, i ∈ blockIds l rs → ∃ q ∈ r :: rs, q.src = i := by
        intro l hl
        obtain ⟨q, hq, e⟩ := ih l (fun q hq => h q (by simp [hq])) hl
        exact ⟨q, by simp [hq], e⟩
      split at hi
      · rcases List.mem_cons.1 hi with rfl | hi
        · exact ⟨r, by simp, rfl⟩
        · exact hrec _ hi
      · split at hi
        · exact hrec _ hi
        · rcases List.mem_cons.1 hi with rfl | hi
          · exact ⟨r, by simp, rfl⟩
          · exact hrec _ hi
  obtain ⟨q, hq, rfl⟩ := this
  simpa using h q hq

theorem lastId_other {last : Option Int} {n : Int} {rs : List Rec} (h : ∀ q ∈ rs, q.src ≠ n) (hl : last ≠ some n) :
    lastId last rs ≠ some n := by
  induction rs generalizing last with
  | nil => exact hl
  | cons r rs ih =>
    exact ih (fun q hq => h q (by simp [hq])) (by simpa using h r (by simp))

theorem blockIds_same (n : Int) (rs : List Rec) (h : ∀ q ∈ rs, q.src = n ∧ q.dst ≠ -1) : blockIds (some n) rs = [] := by
  induction rs with
  | nil => rfl
  | cons r rs ih =>
    have := h r (by simp)
    rw [blockIds, if_neg this.2, if_pos (by rw [this.1])]
    exact ih fun q hq => h q (by simp [hq])

theorem oneRun_blocks {parts : List (List (List Rec))} {n : Int} (h : OneRun parts n) :
    (parts.flatMap fun calls => (blockIds none calls.flatten).filter (fun i => i = n)).length = 1 := by
  obtain ⟨A, B, calls, xs, r, ys, zs, rfl, hc, hr, hys, ho⟩ := h
  have hside : ∀ P : List (List (List Rec)), (∀ q ∈ allRecords P, q.src ≠ n) →
      (P.flatMap fun calls => (blockIds none calls.flatten).filter (fun i => i = n)) = [] := by
    intro P hP
    rw [List.flatMap_eq_nil_iff]
    intro c hc
    apply blockIds_other
    intro q hq
    apply hP
    rw [allRecords, List.flatten_flatten]
    exact List.mem_flatten.2 ⟨c.flatten, List.mem_map.2 ⟨c, hc, rfl⟩, hq⟩
  rw [List.flatMap_append, List.flatMap_cons, hside A fun q hq => ho q (by simp [hq]),
    hside B fun q hq => ho q (by simp [hq]), hc, List.nil_append, List.append_nil, List.append_assoc, blockIds_app]
  have hx : ∀ q ∈ xs, q.src ≠ n := fun q hq => ho q (by simp [hq])
  have hlast := lastId_other (last := none) hx (by simp)
  rw [List.filter_append, blockIds_other _ _ _ hx, List.nil_append, List.cons_append, blockIds]
  have hz : ((blockIds (some r.src) (ys ++ zs)).filter fun i => decide (i = n)) = [] := by
    rw [hr, blockIds_app, blockIds_same n ys hys, List.nil_append]
    exact blockIds_other _ _ _ fun q hq => ho q (by simp [hq])
  split
  · rw [List.filter_cons, if_pos (by simpa using hr), hz]; rfl
  · rw [if_neg (by rw [hr]; exact hlast), List.filter_cons, if_pos (by simpa using hr), hz]; rfl

/-! Servers -/

def absServer (D : Nat → WDraws) (count : Nat) (default : Nbr) :
    List (List WGroup) → List Nbr → Int → Nat → Option ((Int × List Nbr) × Nat)
  | [], out, acc, s => some ((acc, out), s)
  | e :: es, out, acc, s => (absPart (D s) count default e out acc).bind fun z =>
      absServer D count default es z.1 z.2 (s + 1)

theorem serverEntries_abs (D : Nat → WDraws) (types : List Int) (count : Nat) (default : Nbr)
    (es : List (Partition × Nat)) (xss : List (List WGroup)) (h : es.mapM (readGroups types) = some xss)
    (out : List Nbr) (acc : Int) (s : Nat) :
    serverEntries D types count default es out acc s = absServer D count default xss out acc s := by
  induction es generalizing xss out acc s with
  | nil =>
    obtain rfl : [] = xss := by simpa using h
    rfl
  | cons e es ih =>
    rw [List.mapM_cons] at h
    obtain ⟨xs, h1, h2⟩ := Option.bind_eq_some_iff.1 h
    obtain ⟨yss, h3, h4⟩ := Option.bind_eq_some_iff.1 h2
    obtain rfl : xs :: yss = xss := by simpa using h4
    simp only [serverEntries, absServer]
    have : e.1.weightedSample (D s) e.2 types count default out acc = absPart (D s) count default xs out acc := by
      simp only [readGroups] at h1
      obtain ⟨gs, h5, h6⟩ := Option.bind_eq_some_iff.1 h1
      simp only [Partition.weightedSample, h5, h6, Option.bind_some, absPart]
    rw [this]
    congr 1
    funext z
    exact ih yss h3 z.1 z.2 (s + 1)

theorem absServer_eq (D : Nat → WDraws) (count : Nat) (default : Nbr) (lss : List (List (List Nbr)))
    (hl : ∀ ls ∈ lss, GroupsOk ls) (out : List Nbr) (acc : Int) (h0 : 0 ≤ acc)
    (hle : acc + nsum lss.flatten.flatten ≤ 2 ^ 24) (s : Nat) :
    absServer D count default (lss.map (·.map GW)) out acc s =
      (absEntries D count default (lss.map (·.map GW)) out acc s).map fun z => ((acc + nsum lss.flatten.flatten, z.1), z.2) := by
  induction lss generalizing out acc s with
  | nil => simp [absServer, absEntries]
  | cons ls lss ih =>
    have hok := hl ls (by simp)
    have hs1 := hok.nonNeg.sum
    have hs2 : 0 ≤ nsum lss.flatten.flatten := NonNeg.sum (by
      intro y hy
      obtain ⟨l, h1, h2⟩ := List.mem_flatten.1 hy
      obtain ⟨ks, h3, h4⟩ := List.mem_flatten.1 h1
      exact (hl ks (by simp [h3]) l h4).2 y h2)
    rw [List.flatten_cons, List.flatten_append, nsum_append] at hle ⊢
    rw [List.map_cons, absServer, absEntries, absPart_eq (D s) count default ls hok out _ h0 (by omega)]
    have key : ∀ o, absServer D count default (lss.map (·.map GW)) o (acc + nsum ls.flatten) (s + 1) =
        (absEntries D count default (lss.map (·.map GW)) o (acc + nsum ls.flatten) (s + 1)).map fun z =>
          ((acc + (nsum ls.flatten + nsum lss.flatten.flatten), z.1), z.2) := by
      intro o
      rw [ih (fun ls h => hl ls (by simp [h])) o (acc + nsum ls.flatten) (by omega) (by omega) (s + 1), Int.add_assoc]
    split
    · rename_i hz
      rw [hz, Int.add_zero] at key
      simp only [Option.bind_some, key, hz]
    · cases weightedGroups (D s) (nsum ls.flatten, acc + nsum ls.flatten) (ls.map GW) (nsum ls.flatten) count 0 0 with
      | none => rfl
      | some ys => simp only [Option.map_some, Option.bind_some, key]

variable {C : WeightCodec} {wm : Option Nat} {m : Meta} {parts : List (List (List Rec))} {g : Graph}

/-- Requirements on a node and the requested types. -/
structure Samplable (parts : List (List (List Rec))) (types : List Int) (n : Int) : Prop where
  gap : Spec.NoGap parts n types
  weights : C19_weightsOk parts n types

theorem NodeMap_none {items : List Item} (hg : GraphOk C m g items parts) (n : Int) :
    g.nodeMap n = none ↔ ∀ r ∈ allRecords parts, r.src ≠ n := by
  rw [(entries_items hg.parts_eq hg.inv n).2]
  have hids : ∀ it c, ItemFrom c it → ((∀ b ∈ it.blks, b.id ≠ n) ↔ ∀ r ∈ c.flatten, r.src ≠ n) := by
    intro it c hc
    have : (∀ b ∈ it.blks, b.id ≠ n) ↔ n ∉ it.blks.map (·.id) := by
      rw [List.mem_map]
      constructor
      · rintro h ⟨b, hb, e⟩; exact h b hb e
      · intro h b hb e; exact h ⟨b, hb, e⟩
    rw [this, hc.ids]
    constructor
    · intro h r hr e
      apply h
      clear h this hc
      have key : ∀ (last : Option Int) (rs : List Rec), r ∈ rs → last = some n ∨ n ∈ blockIds last rs := by
        intro last rs
        induction rs generalizing last with
        | nil => simp
        | cons q rs ih =>
          intro hq
          simp only [blockIds]
          rcases List.mem_cons.1 hq with rfl | hq
          · split
            · right; simp [e]
            · split
              · rename_i h; left; rw [h, e]
              · right; simp [e]
          · split
            · rcases ih (some q.src) hq with h | h
              · right; simp only [Option.some.injEq] at h; simp [h]
              · right; simp [h]
            · split
              · exact ih last hq
              · rcases ih (some q.src) hq with h | h
                · right; simp only [Option.some.injEq] at h; simp [h]
                · right; simp [h]
      simpa using key none c.flatten hr
    · intro h hn
      have := blockIds_other none n c.flatten h
      rw [List.filter_eq_nil_iff] at this
      simpa using this n hn
  constructor
  · intro h r hr
    rw [allRecords, List.flatten_flatten] at hr
    obtain ⟨rs, h1, h2⟩ := List.mem_flatten.1 hr
    obtain ⟨c, hc, rfl⟩ := List.mem_map.1 h1
    obtain ⟨it, hit, hf⟩ : ∃ it ∈ items, ItemFrom c it := by
      have := hg.src
      clear hr h2 h1 h hg
      induction this with
      | nil => simp at hc
      | cons hr _ ih =>
        rcases List.mem_cons.1 hc with rfl | hc
        · exact ⟨_, by simp, hr⟩
        · obtain ⟨it, hit, h⟩ := ih hc; exact ⟨it, by simp [hit], h⟩
    exact (hids it c hf).1 (h it hit) r h2
  · intro h it hit
    obtain ⟨c, hc, hf⟩ := item_of_src hg.src hit
    rw [hids it c hf]
    intro r hr
    apply h
    rw [allRecords, List.flatten_flatten]
    exact List.mem_flatten.2 ⟨c.flatten, List.mem_map.2 ⟨c, hc, rfl⟩, hr⟩

/-- The answer of a server for a node. -/
theorem server_one (h : Built C wm m parts g) (types : List Int) (n : Int) (hs : Samplable parts types n)
    (D : Nat → WDraws) (hD : ∀ i, (D i).Ok) (count : Nat) (default : Nbr) (s : Nat) :
    (g.nodeMap n = none ∧ g.serverWeighted1 D (sortUnique types) count default n s = some (none, s)) ∨
    (g.nodeMap n ≠ none ∧ ∃ row s', g.serverWeighted1 D (sortUnique types) count default n s =
        some (some (nsum (neighbors parts n types), row), s') ∧ row.length = count ∧
      (0 < nsum (neighbors parts n types) → ∀ x ∈ row, x ∈ neighbors parts n types ∧
        ((∀ i j, 0 < ((D i).real j).1) → 0 < x.weight)) ∧
      (nsum (neighbors parts n types) = 0 → row = List.replicate count default)) := by
  obtain ⟨items, hg, -⟩ := h.graphOk
  obtain ⟨lss, es, h1, h2, h3, h4, h5, h6, -⟩ := hg.readGroups n types hs.gap hs.weights.1 hs.weights.2
  simp only [Graph.serverWeighted1]
  cases hnm : g.nodeMap n with
  | none => exact Or.inl ⟨rfl, rfl⟩
  | some off =>
    right
    refine ⟨by simp, ?_⟩
    have hle : nsum (neighbors parts n types) ≤ 2 ^ 24 := hs.weights.2
    obtain ⟨out', e1, e2, e3, e4⟩ := absEntries_spec D hD count default lss h4 [] (List.replicate count default)
      (by intro y hy; simp at hy) (by rw [h3, nsum_nil, Int.zero_add]; exact hle) (by simp) (by simp)
      (fun _ => Or.inr rfl) s
    rw [nsum_nil] at e1
    refine ⟨out', s + lss.length, ?_, e2, ?_, ?_⟩
    · simp only [h1, Option.bind_some]
      rw [serverEntries_abs D _ count default es _ h2, absServer_eq D count default lss h4 _ 0 (Int.le_refl 0)
        (by rw [h3, Int.zero_add]; exact hle), e1, Int.zero_add, h3]
      rfl
    · intro hp x hx
      have := e3 (by rw [nsum_nil, Int.zero_add, h3]; exact hp) x hx
      rwa [List.nil_append, h3] at this
    · intro hz
      exact e4 (by rw [nsum_nil, Int.zero_add, h3]; exact hz)

/-- One entry: expected answer of a server. -/
theorem server_mean (h : Built C wm m parts g) (types : List Int) (n : Int) (hs : Samplable parts types n) (hone : OneRun parts n)
    (hpos : 0 < nsum (neighbors parts n types)) {M Q : Nat} (hM0 : 0 < M) (hQ0 : 0 < Q)
    (hM : ∀ d : Nat, 0 < d → (d : Int) ≤ nsum (neighbors parts n types) → d ∣ M)
    (hQ : ∀ d : Nat, 0 < d → (d : Int) ≤ nsum (neighbors parts n types) → d ∣ Q) (count : Nat) (default : Nbr) (K R : Nat)
    (hK : (neighbors parts n types).length * count ≤ K) (hR : count ≤ R) (y : Nbr) :
    (∀ out s, out.length = count → (avg (gridCalls M K Q R) fun D =>
      occ y ((g.weightedSample1 (fun _ => D) types count default n out s).map (·.1))) =
      count * (nbrWeight (neighbors parts n types) y / nsum (neighbors parts n types))) ∧
    ∀ s, (avg (gridCalls M K Q R) fun D =>
      occ y ((g.serverWeighted1 (fun _ => D) (sortUnique types) count default n s).bind fun z => z.1.map (·.2))) =
      count * (nbrWeight (neighbors parts n types) y / nsum (neighbors parts n types)) := by
  obtain ⟨items, hg, -⟩ := h.graphOk
  obtain ⟨lss, es, h1, h2, h3, h4, h5, h6, h7⟩ := hg.readGroups n types hs.gap hs.weights.1 hs.weights.2
  rw [oneRun_blocks hone] at h7
  obtain ⟨ls, rfl⟩ : ∃ ls, lss = [ls] := List.length_eq_one_iff.1 h7
  have h3' : ls.flatten = neighbors parts n types := by simpa using h3
  have hok := h4 ls (by simp)
  have hle : nsum (neighbors parts n types) ≤ 2 ^ 24 := hs.weights.2
  have hlen := hok.length_le
  rw [h3'] at hlen
  have hKl : ls.length * count ≤ K := Nat.le_trans (Nat.mul_le_mul_right count hlen) hK
  have hm := fun out ho => mean_part hM0 hQ0 y ls hok (by rw [h3']; exact hpos) (by rw [h3']; exact hle) (by rw [h3']; exact hM)
    (by rw [h3']; exact hQ) count default out ho K R hKl hR
  rw [h3'] at hm
  cases hnm : g.nodeMap n with
  | none => exact absurd (h5 hnm) (by simp)
  | some off =>
    constructor
    · intro out s ho
      rw [← hm out ho]
      apply avg_congr
      intro D _
      simp only [Graph.weightedSample1, hnm, h1, Option.bind_some]
      rw [weightedEntries_abs _ _ _ _ _ _ h2]
      simp only [List.map_cons, List.map_nil, absEntries]
      cases absPart D count default (ls.map GW) out 0 <;> rfl
    · intro s
      rw [← hm (List.replicate count default) (by simp)]
      apply avg_congr
      intro D _
      simp only [Graph.serverWeighted1, hnm, h1, Option.bind_some]
      rw [serverEntries_abs _ _ _ _ _ _ h2]
      simp only [List.map_cons, List.map_nil, absServer]
      cases absPart D count default (ls.map GW) (List.replicate count default) 0 <;> rfl

/-- One entry: joint distribution of the samples of a node. -/
theorem sample_joint (h : Built C wm m parts g) (types : List Int) (n : Int) (hs : Samplable parts types n) (hone : OneRun parts n)
    (hpos : 0 < nsum (neighbors parts n types)) {M Q : Nat} (hM0 : 0 < M) (hQ0 : 0 < Q)
    (hM : ∀ d : Nat, 0 < d → (d : Int) ≤ nsum (neighbors parts n types) → d ∣ M)
    (hQ : ∀ d : Nat, 0 < d → (d : Int) ≤ nsum (neighbors parts n types) → d ∣ Q) (count : Nat) (default : Nbr) (K R : Nat)
    (hK : (neighbors parts n types).length * count ≤ K) (hR : count ≤ R) (F : List Nbr → Rat) (hF : ∀ a b, a.Perm b → F a = F b)
    (out : List Nbr) (s : Nat) (ho : out.length = count) : (avg (gridCalls M K Q R) fun D =>
      valueOf F ((g.weightedSample1 (fun _ => D) types count default n out s).map (·.1))) = wmean (neighbors parts n types) count F := by
  obtain ⟨items, hg, -⟩ := h.graphOk
  obtain ⟨lss, es, h1, h2, h3, h4, h5, h6, h7⟩ := hg.readGroups n types hs.gap hs.weights.1 hs.weights.2
  rw [oneRun_blocks hone] at h7
  obtain ⟨ls, rfl⟩ : ∃ ls, lss = [ls] := List.length_eq_one_iff.1 h7
  have h3' : ls.flatten = neighbors parts n types := by simpa using h3
  have hok := h4 ls (by simp)
  have hle : nsum (neighbors parts n types) ≤ 2 ^ 24 := hs.weights.2
  have hlen := hok.length_le
  rw [h3'] at hlen
  have hKl : ls.length * count ≤ K := Nat.le_trans (Nat.mul_le_mul_right count hlen) hK
  have hm := mean_part_joint hM0 hQ0 ls hok (by rw [h3']; exact hpos) (by rw [h3']; exact hle) (by rw [h3']; exact hM)
    (by rw [h3']; exact hQ) count default out ho K R hKl hR F hF
  rw [h3'] at hm
  cases hnm : g.nodeMap n with
  | none => exact absurd (h5 hnm) (by simp)
  | some off =>
    rw [← hm]
    apply avg_congr
    intro D _
    simp only [Graph.weightedSample1, hnm, h1, Option.bind_some]
    rw [weightedEntries_abs _ _ _ _ _ _ h2]
    simp only [List.map_cons, List.map_nil, absEntries]
    cases absPart D count default (ls.map GW) out 0 <;> rfl

end DeepGNN
