import Verif.Proofs.SparseFeatures
import Verif.Proofs.TemporalFeature
import Verif.Proofs.StringFeatures
import Verif.Model.TemporalSparse
import Verif.Spec.TemporalSparse

/-
Sparse features at given times.
-/

namespace DeepGNN
open Spec (Sparse HasSparseHist InForce HistOk IsLatest)

/-- A flag as far as the client looks at it: found or not. -/
def normT (t : Int) : Int := if t ≤ -1 then -1 else 0

/-- Locating a version of a history of sparse values. -/
theorem locate_sparse {hist : List (Int × Sparse)} (hok : ∀ x ∈ hist, x.2.Ok)
    (hh : HistOk (hist.map fun x => (x.1, encSparse x.2))) (pre post : Bytes) (t : Int) :
    (deserializeTemporal (pre ++ serializeTemporal (hist.map fun x => (x.1, encSparse x.2)) ++ post) pre.length t =
        some (pre.length, 0, -1) ∧ ∀ y ∈ hist, t < y.1) ∨
    ∃ x ∈ hist, ∃ off, x.1 ≤ t ∧ 0 ≤ x.1 ∧ (∀ y ∈ hist, y.1 ≤ t → y.1 ≤ x.1) ∧
      deserializeTemporal (pre ++ serializeTemporal (hist.map fun x => (x.1, encSparse x.2)) ++ post) pre.length t =
        some (off, (encSparse x.2).length, x.1) ∧
      ∀ (i : Int) (s : SparseState),
        deserializeSparse (pre ++ serializeTemporal (hist.map fun x => (x.1, encSparse x.2)) ++ post) off
          (encSparse x.2).length i s =
        some { s with dim := x.2.dim, indices := s.indices ++ x.2.coords.flatMap fun row => i :: row,
                      values := s.values ++ x.2.values.flatten } := by
  rcases deserialize_serialize hh pre post t with ⟨h1, h2⟩ | ⟨x, off, h1, h2, pre', post', h3, h4⟩
  · exact Or.inl ⟨h1, fun y hy => h2 _ (List.mem_map.2 ⟨y, hy, rfl⟩)⟩
  · right
    obtain ⟨y, hy, rfl⟩ := List.mem_map.1 h1.1
    refine ⟨y, hy, off, h1.2.1, (hh.times _ h1.1).1,
      fun z hz hzt => h1.2.2 _ (List.mem_map.2 ⟨z, hz, rfl⟩) hzt, h2, fun i s => ?_⟩
    simp only at h3
    rw [h3, ← h4]
    exact deserialize_encSparse (hok y hy) pre' post' i s

theorem HasSparseHist.enc {fl : List (Option Bytes)} {fid : Nat} {hist : List (Int × Sparse)}
    (h : HasSparseHist fl fid hist) :
    ((fl[fid]?.join).getD [] = [] ∧ hist = []) ∨
    ((∀ x ∈ hist, x.2.Ok) ∧ fl[fid]? = some (some (serializeTemporal (hist.map fun x => (x.1, encSparse x.2)))) ∧
      HistOk (hist.map fun x => (x.1, encSparse x.2))) := by
  rcases h with h | ⟨enc, h1, h2, h3⟩
  · exact Or.inl h
  · right
    have he : (hist.map fun x => (x.1, enc x.2)) = hist.map fun x => (x.1, encSparse x.2) := by
      refine List.map_congr_left fun x hx => ?_
      obtain ⟨hok, raw, hd, hc⟩ := h1 x hx
      rw [convert_describes hok hd, Option.some.injEq, Option.some.injEq] at hc
      rw [hc]
    rw [he] at h2 h3
    exact ⟨fun x hx => (h1 x hx).1, h2, h3⟩

/-- What a query at `t` has found so far in the versions `H` for the node at position `i`; `b` is the state before
the node. -/
def SpState (H : List (Int × Sparse)) (t i : Int) (b : SparseState) (s : SparseState × Nat) : Prop :=
  (s.1.flag = -1 ∧ (∀ y ∈ H, t < y.1) ∧ s.1 = { b with flag := -1 }) ∨
  ∃ x ∈ H, x.1 ≤ t ∧ (∀ y ∈ H, y.1 ≤ t → y.1 ≤ x.1) ∧ 0 ≤ x.1 ∧ x.2.Ok ∧ s.2 = x.2.values.flatten.length ∧
    s.1 = { flag := x.1, dim := x.2.dim, indices := b.indices ++ x.2.coords.flatMap fun row => i :: row,
            values := b.values ++ x.2.values.flatten }

theorem serializeTemporal_len_ne (l : List (Int × Bytes)) : (serializeTemporal l).length ≠ 0 := by
  simp only [serializeTemporal, serializeSorted, List.length_append, length_leBytes]
  omega

theorem nodeSparseAtStep_ok {index data lo hi fl} (h : Owner index data lo hi fl) (f : Nat) (t i : Int)
    {H K : List (Int × Sparse)} (hK : HasSparseHist fl f K)
    (hov : (∀ x ∈ H, x.2.coords.length = 1) ∨ H = [] ∨ ∀ y ∈ K, y ∈ H)
    {b : SparseState} {s : SparseState × Nat} (hs : SpState H t i b s) :
    ∃ s', nodeSparseAtStep index data lo hi t i f s = some s' ∧ SpState (H ++ K) t i b s' := by
  simp only [nodeSparseAtStep]
  by_cases hset : s.1.flag = t
  · rw [if_pos hset]
    refine ⟨s, rfl, ?_⟩
    have hpos : ∀ y ∈ K, 0 ≤ y.1 := by
      rcases HasSparseHist.enc hK with ⟨-, rfl⟩ | ⟨-, -, hok⟩
      · simp
      · exact fun y hy => (hok.times _ (List.mem_map.2 ⟨y, hy, rfl⟩)).1
    rcases hs with ⟨h1, h2, h3⟩ | ⟨x, hx, h1, h2, h3⟩
    · refine Or.inl ⟨h1, fun y hy => ?_, h3⟩
      rcases List.mem_append.1 hy with hy | hy
      · exact h2 y hy
      · have := hpos y hy; omega
    · refine Or.inr ⟨x, by simp [hx], h1, fun y hy ht => ?_, h3⟩
      rcases List.mem_append.1 hy with hy | hy
      · exact h2 y hy ht
      · have h4 := h3.2.2.2
        rw [h4] at hset
        simp only at hset
        omega
  · rw [if_neg hset]
    rcases HasSparseHist.enc hK with ⟨h1, rfl⟩ | ⟨hok, h1, hh⟩
    · refine ⟨s, ?_, by simpa using hs⟩
      cases hf : fl[f]? with
      | none => rw [h.range_none hf]; rfl
      | some v =>
        obtain ⟨pre, post, h2, h3⟩ := h.range_some hf
        rw [h3]
        rw [hf] at h1
        have : featBytes v = [] := by cases v <;> simpa [featBytes] using h1
        simp [this]
    · obtain ⟨pre, post, h2, h3⟩ := h.range_some h1
      simp only [featBytes] at h2 h3
      simp only [h3, Option.bind_some]
      rw [if_neg (serializeTemporal_len_ne _), h2]
      rcases locate_sparse hok hh pre post t with ⟨h4, h5⟩ | ⟨x, hx, off, hxt, hx0, hmax, h4, h5⟩
      · rw [h4]
        simp only [Option.bind_some]
        have hge : s.1.flag ≥ -1 := by
          rcases hs with ⟨a, -⟩ | ⟨x, -, -, -, b0, -, -, a⟩
          · omega
          · rw [a]; show x.1 ≥ -1; omega
        rw [if_pos hge]
        refine ⟨s, rfl, ?_⟩
        rcases hs with ⟨a, b1, c⟩ | ⟨x, a, b1, c, d⟩
        · refine Or.inl ⟨a, fun y hy => ?_, c⟩
          rcases List.mem_append.1 hy with hy | hy
          · exact b1 y hy
          · exact h5 y hy
        · refine Or.inr ⟨x, by simp [a], b1, fun y hy ht => ?_, d⟩
          rcases List.mem_append.1 hy with hy | hy
          · exact c y hy ht
          · have := h5 y hy; omega
      · rw [h4]
        simp only [Option.bind_some]
        have hlen : ¬ (encSparse x.2).length ≤ 12 := by
          have hok := hok x hx
          have hne : 0 < x.2.coords.length := by rw [hok.count]; exact List.length_pos_iff.2 hok.nonempty
          have hm : 0 < x.2.dim * x.2.coords.length := Nat.mul_pos hok.dim_pos hne
          simp only [encSparse, List.length_append, cU32, length_leBytes, length_encCoords,
            length_flatten_rows hok.rows]
          omega
        by_cases hge : s.1.flag ≥ x.1
        · rw [if_pos hge]
          refine ⟨s, rfl, ?_⟩
          rcases hs with ⟨a, b1, c⟩ | ⟨z, a, b1, c, d, d2, d3, e⟩
          · omega
          · refine Or.inr ⟨z, by simp [a], b1, fun y hy ht => ?_, d, d2, d3, e⟩
            rcases List.mem_append.1 hy with hy | hy
            · exact c y hy ht
            · have := hmax y hy ht
              rw [e] at hge
              simp only at hge
              omega
        · rw [if_neg hge]
          rcases hs with ⟨a, b1, c⟩ | ⟨z, a, b1, c, d, d2, d3, e⟩
          · rw [if_neg (by omega)]
            simp only [Option.bind_some, readSparse, h5, Option.map_some]
            refine ⟨_, rfl, Or.inr ⟨x, by simp [hx], hxt, fun y hy ht => ?_, hx0, hok x hx, ?_, ?_⟩⟩
            · rcases List.mem_append.1 hy with hy | hy
              · have := b1 y hy; omega
              · exact hmax y hy ht
            · simp [hlen]
            · rw [c]
          · have hfl : s.1.flag = z.1 := by rw [e]
            rw [if_pos (by omega)]
            have hone : z.2.coords.length = 1 := by
              rcases hov with h6 | h6 | h6
              · exact h6 z a
              · rw [h6] at a; simp at a
              · have := c x (h6 x hx) hxt; omega
            obtain ⟨row, hrow⟩ := List.length_eq_one_iff.1 hone
            have hrl := d2.rows row (by rw [hrow]; simp)
            have hdrop : dropSparse s = some ({ b with flag := z.1, dim := z.2.dim }, s.2) := by
              have e1 : s = (s.1, s.2) := rfl
              rw [e1, e, d3, hrow]
              have hsub : b.indices.length + (z.2.dim + 1) - z.2.dim - 1 = b.indices.length := by omega
              simp [dropSparse, hrl, hsub]
            rw [hdrop]
            simp only [Option.bind_some, readSparse, h5, Option.map_some]
            refine ⟨_, rfl, Or.inr ⟨x, by simp [hx], hxt, fun y hy ht => ?_, hx0, hok x hx, ?_, rfl⟩⟩
            · rcases List.mem_append.1 hy with hy | hy
              · have := c y hy ht; omega
              · exact hmax y hy ht
            · simp [hlen]

theorem stepAll_inv3 {α β γ} {step : α → β → Option β} {I J : α → γ → β → Prop} :
    ∀ (fs : List α) (bs : List γ) (ss : List β), fs.length = bs.length → fs.length = ss.length →
      (∀ y ∈ (fs.zip bs).zip ss, I y.1.1 y.1.2 y.2) →
      (∀ f ∈ fs, ∀ b s, I f b s → ∃ s', step f s = some s' ∧ J f b s') →
      ∃ ss', stepAll step fs ss = some ss' ∧ fs.length = ss'.length ∧ ∀ y ∈ (fs.zip bs).zip ss', J y.1.1 y.1.2 y.2
  | [], _, [], _, _, _, _ => ⟨[], rfl, rfl, by simp⟩
  | [], _, _ :: _, _, h, _, _ => by simp at h
  | _ :: _, [], _, h, _, _, _ => by simp at h
  | _ :: _, _ :: _, [], _, h, _, _ => by simp at h
  | f :: fs, b :: bs, s :: ss, h1, h2, hI, h => by
    simp only [List.zip_cons_cons, List.mem_cons, forall_eq_or_imp] at hI
    obtain ⟨s', h3, h4⟩ := h f (by simp) b s hI.1
    obtain ⟨ss', h5, h6, h7⟩ := stepAll_inv3 fs bs ss (by simpa using h1) (by simpa using h2) hI.2
      (fun f hf => h f (List.mem_cons_of_mem _ hf))
    refine ⟨s' :: ss', by simp [stepAll, h3, h5], by simp [h6], ?_⟩
    simp only [List.zip_cons_cons, List.mem_cons, forall_eq_or_imp]
    exact ⟨h4, h7⟩

variable {C : WeightCodec} {m : Meta} {g : Graph} {items : List Item} {parts : List (List (List Rec))}

/-- The versions in a block. -/
def blkVersions (H : Nat → List (Option Bytes) → List (Int × Sparse)) (f : Nat) (b : Blk) : List (Int × Sparse) :=
  if b.feats = [] then [] else H f b.feats

theorem GraphOk.mem_blkVersions (h : GraphOk C m g items parts) (n : Int) (f : Nat)
    (H : Nat → List (Option Bytes) → List (Int × Sparse))
    (hH : ∀ r ∈ Spec.nodeRecords parts n, HasSparseHist r.features f (H f r.features)) (y : Int × Sparse) :
    y ∈ (nodeBlks items n).flatMap (blkVersions H f) ↔ y ∈ Spec.versions H f (Spec.nodeRecords parts n) := by
  have h3 := h.nodeBlks_feats n (fun l => decide (l ≠ [])) (by simp)
  simp only [Spec.versions, List.mem_flatMap]
  constructor
  · rintro ⟨b, hb, hy⟩
    simp only [blkVersions] at hy
    split at hy
    · simp at hy
    · rename_i hne
      obtain ⟨r, hr, hrf⟩ := Blk.rec_of_feats h hb hne
      exact ⟨r, hr, by rw [hrf]; exact hy⟩
  · rintro ⟨r, hr, hy⟩
    have hne : r.features ≠ [] := by
      intro hnil
      rcases hH r hr with ⟨-, h5⟩ | ⟨_, _, h5, _⟩
      · rw [h5] at hy; simp at hy
      · rw [hnil] at h5; simp at h5
    have : r.features ∈ ((nodeBlks items n).filter (fun b => decide (b.feats ≠ []))).map (·.feats) := by
      rw [h3]; exact List.mem_map.2 ⟨r, List.mem_filter.2 ⟨hr, by simpa using hne⟩, rfl⟩
    obtain ⟨b, hb, hbf⟩ := List.mem_map.1 this
    exact ⟨b, (List.mem_filter.1 hb).1, by rw [blkVersions, if_neg (by rw [hbf]; exact hne), hbf]; exact hy⟩

/-- One node of a query. -/
theorem GraphOk.nodeSparseAt1 (h : GraphOk C m g items parts)
    (hc : ∀ it ∈ items, it.files.nodeFeatureCount ≤ m.nodeFeatureCount) (feats : List Nat) (n t i : Int)
    (H : Nat → List (Option Bytes) → List (Int × Sparse))
    (hH : ∀ f ∈ feats, ∀ r ∈ Spec.nodeRecords parts n, HasSparseHist r.features f (H f r.features))
    (hov : ∀ f ∈ feats, (∀ y ∈ Spec.versions H f (Spec.nodeRecords parts n), y.2.coords.length = 1) ∨
      ∀ r ∈ Spec.nodeRecords parts n, ∀ r' ∈ Spec.nodeRecords parts n, H f r.features = H f r'.features) :
    ∃ es, g.entries n = some es ∧ ∀ ss : List (SparseState × Nat), feats.length = ss.length →
      (∀ s ∈ ss, s.1.flag = -1) →
      ∃ ss', es.foldlM (fun (ss : List (SparseState × Nat)) (e : Partition × Nat) =>
          e.1.nodeSparseAt e.2 t i feats ss) ss = some ss' ∧ feats.length = ss'.length ∧
        ∀ y ∈ (feats.zip (ss.map (·.1))).zip ss',
          SpState (Spec.versions H y.1.1 (Spec.nodeRecords parts n)) t i y.1.2 y.2 := by
  have hHb : ∀ f ∈ feats, ∀ b ∈ nodeBlks items n, HasSparseHist b.feats f (blkVersions H f b) := by
    intro f hf b hb
    by_cases hne : b.feats = []
    · left; simp [blkVersions, hne]
    · obtain ⟨r, hr, hrf⟩ := Blk.rec_of_feats h hb hne
      rw [blkVersions, if_neg hne, ← hrf]
      exact hH f hf r hr
  have hovb : ∀ f ∈ feats, ∀ bs : List Blk, (∀ b ∈ bs, b ∈ nodeBlks items n) → ∀ b ∈ nodeBlks items n,
      (∀ x ∈ bs.flatMap (blkVersions H f), x.2.coords.length = 1) ∨ bs.flatMap (blkVersions H f) = [] ∨
        ∀ y ∈ blkVersions H f b, y ∈ bs.flatMap (blkVersions H f) := by
    intro f hf bs hbs b hb
    rcases hov f hf with h1 | h1
    · left
      intro x hx
      refine h1 x ((h.mem_blkVersions n f H (hH f hf) x).1 ?_)
      obtain ⟨c, hc1, hc2⟩ := List.mem_flatMap.1 hx
      exact List.mem_flatMap.2 ⟨c, hbs c hc1, hc2⟩
    · right
      by_cases hnil : bs.flatMap (blkVersions H f) = []
      · exact Or.inl hnil
      · right
        intro y hy
        obtain ⟨z, hz⟩ := List.exists_mem_of_ne_nil _ hnil
        obtain ⟨c, hc1, hc2⟩ := List.mem_flatMap.1 hz
        refine List.mem_flatMap.2 ⟨c, hc1, ?_⟩
        simp only [blkVersions] at hy hc2 ⊢
        split at hy
        · simp at hy
        · rename_i hbne
          split at hc2
          · simp at hc2
          · rename_i hcne
            rw [if_neg hcne]
            obtain ⟨r, hr, hrf⟩ := Blk.rec_of_feats h hb hbne
            obtain ⟨r', hr', hrf'⟩ := Blk.rec_of_feats h (hbs c hc1) hcne
            rw [← hrf', ← h1 r hr r' hr', hrf]
            exact hy
  have key := fun base : List SparseState => h.foldEntries_inv (σ := List (SparseState × Nat)) n
    (fun (ss : List (SparseState × Nat)) (e : Partition × Nat) => e.1.nodeSparseAt e.2 t i feats ss)
    (fun (bs : List Blk) (ss : List (SparseState × Nat)) => feats.length = base.length ∧ feats.length = ss.length ∧
      (∀ b ∈ bs, b ∈ nodeBlks items n) ∧
      ∀ y ∈ (feats.zip base).zip ss, SpState (bs.flatMap (blkVersions H y.1.1)) t i y.1.2 y.2) (by
      intro it hit x hx hid bs ss ⟨hl0, hl, hbs, hss⟩
      have hb : x.1 ∈ nodeBlks items n := by
        rw [List.mem_zipIdx_iff_getElem?] at hx
        exact List.mem_flatMap.2 ⟨it, hit, List.mem_filter.2 ⟨List.mem_of_getElem? hx, by simpa using hid⟩⟩
      have hbs' : ∀ b ∈ bs ++ [x.1], b ∈ nodeBlks items n := by
        intro b hb'
        rcases List.mem_append.1 hb' with hb' | hb'
        · exact hbs b hb'
        · rw [List.mem_singleton.1 hb']; exact hb
      by_cases hm : m.nodeFeatureCount = 0
      · obtain ⟨c, -, hsrc⟩ := item_of_src h.src hit
        have hnil := ItemOk.feats_nil (hc it hit) hsrc hx hm
        refine ⟨ss, ?_, hl0, hl, hbs', ?_⟩
        · rw [Partition.nodeSparseAt, if_pos ((h.ok it hit).loaded.noNodeFeatures hm)]
        · intro y hy
          simpa [blkVersions, hnil] using hss y hy
      · obtain ⟨lo, hi, e1, e2, ho⟩ := (h.ok it hit).owner hx hm
        rw [Partition.nodeSparseAt, if_neg (by
          rw [(h.ok it hit).loaded.nodeFeatureIndex hm]; exact offsFrom_ne_nil _ _), e1, e2]
        simp only [Option.bind_some]
        obtain ⟨ss', h1, h2, h3⟩ := stepAll_inv3
          (I := fun f b s => SpState (bs.flatMap (blkVersions H f)) t i b s)
          (J := fun f b s => SpState ((bs ++ [x.1]).flatMap (blkVersions H f)) t i b s) feats base ss hl0 hl hss (by
          intro f hf b s hs
          obtain ⟨s', h3, h4⟩ := nodeSparseAtStep_ok ho f t i (hHb f hf x.1 hb) (hovb f hf bs hbs x.1 hb) hs
          exact ⟨s', h3, by simpa using h4⟩)
        exact ⟨ss', h1, hl0, h2, hbs', h3⟩)
  obtain ⟨es, h1, -⟩ := key []
  refine ⟨es, h1, fun ss hss hflag => ?_⟩
  obtain ⟨es', h1', h2⟩ := key (ss.map (·.1))
  rw [h1] at h1'
  cases h1'
  obtain ⟨ss', h3, -, h4, -, h5⟩ := h2 [] ss ⟨by simpa using hss, hss, by simp, by
    intro y hy
    left
    have hmem : (y.1.2, y.2) ∈ (ss.map (·.1)).zip ss := by
      obtain ⟨k, hk, hyk⟩ := List.mem_iff_getElem.1 hy
      simp only [List.length_zip, List.length_map] at hk
      refine List.mem_iff_getElem.2 ⟨k, by simp; omega, ?_⟩
      simp only [List.getElem_zip] at hyk ⊢
      rw [← hyk]
    obtain ⟨k, hk, hyk⟩ := List.mem_iff_getElem.1 hmem
    simp only [List.getElem_zip, List.getElem_map, Prod.mk.injEq] at hyk
    have hfl := hflag y.2 (by rw [← hyk.2]; exact List.getElem_mem _)
    refine ⟨hfl, by simp, ?_⟩
    rw [← hyk.1, hyk.2]
    cases hy2 : y.2.1
    rw [hy2] at hfl
    simp only at hfl
    rw [hfl]⟩
  refine ⟨ss', h3, h4, fun y hy => ?_⟩
  have h6 := h5 y hy
  rw [List.nil_append] at h6
  have hf : y.1.1 ∈ feats := (List.of_mem_zip (List.of_mem_zip hy).1).1
  have hmem := h.mem_blkVersions n y.1.1 H (hH _ hf)
  rcases h6 with ⟨a, b, c⟩ | ⟨x, a, b, c, d⟩
  · exact Or.inl ⟨a, fun z hz => b z ((hmem z).2 hz), c⟩
  · exact Or.inr ⟨x, (hmem x).1 a, b, fun z hz => c z ((hmem z).2 hz), d⟩

/-- The reply part of a state. -/
def SparseState.out (s : SparseState) : Nat × List Int × Bytes := (s.dim, s.indices, s.values)

theorem SpState.out_eq {H : List (Int × Sparse)} {t i : Int} {b : SparseState} {s : SparseState × Nat}
    (hs : SpState H t i b s) (hd : ∀ x ∈ H, ∀ y ∈ H, x.1 = y.1 → x = y) {v : Option Sparse} (hv : InForce H t v) :
    s.1.out = (stepSparse i v { b with flag := -1 }).out := by
  rcases hs with ⟨-, h2, h3⟩ | ⟨x, hx, h1, h2, -, -, -, h3⟩
  · cases v with
    | none => rw [h3]; simp [stepSparse]
    | some v =>
      obtain ⟨c, hc, hct, -⟩ := hv
      have := h2 _ hc
      simp only at this
      omega
  · cases v with
    | none => have := hv x hx; omega
    | some v =>
      obtain ⟨c, hc, hct, hmax⟩ := hv
      have e1 := h2 _ hc hct
      have e2 := hmax x hx h1
      have := hd x hx _ hc (by simp only at e1 ⊢; omega)
      rw [h3, this]
      simp [stepSparse, SparseState.out]

theorem SpState.flag_eq {H : List (Int × Sparse)} {t i : Int} {b : SparseState} {s : SparseState × Nat}
    (hs : SpState H t i b s) {v : Option Sparse} (hv : InForce H t v) :
    normT s.1.flag = if v.isSome then 0 else -1 := by
  rcases hs with ⟨h1, h2, -⟩ | ⟨x, hx, h1, -, h0, -, -, h3⟩
  · cases v with
    | none => simp [normT, h1]
    | some v =>
      obtain ⟨c, hc, hct, -⟩ := hv
      have := h2 _ hc
      simp only at this
      omega
  · cases v with
    | none => have := hv x hx; omega
    | some v =>
      rw [h3]
      simp only [normT, Option.isSome_some, if_true]
      rw [if_neg (by omega)]

theorem sparseFold_out {α : Type} (val : α → Option Sparse) (l : List (α × Nat)) {s s' : SparseState}
    (h : s.out = s'.out) : (sparseFold val l s).out = (sparseFold val l s').out := by
  cases l with
  | nil => exact h
  | cons x l =>
    have : ({ s with flag := -1 } : SparseState) = { s' with flag := -1 } := by
      simp only [SparseState.out, Prod.mk.injEq] at h
      cases s; cases s'
      simp only at h
      simp [h.1, h.2.1, h.2.2]
    simp only [sparseFold, List.foldl_cons, this]

theorem outs_eq {α : Type} (val : Nat → α → Option Sparse) (x : α) (i : Nat) (l : List (α × Nat)) :
    ∀ (feats : List Nat) (ss ss' : List (SparseState × Nat)), feats.length = ss.length → feats.length = ss'.length →
      (∀ y ∈ (feats.zip (ss.map (·.1))).zip ss', y.2.1.out = (stepSparse i (val y.1.1 x) { y.1.2 with flag := -1 }).out) →
      List.zipWith (fun f (s : SparseState × Nat) => (sparseFold (val f) l s.1).out) feats ss' =
      List.zipWith (fun f (s : SparseState × Nat) => (sparseFold (val f) ((x, i) :: l) s.1).out) feats ss
  | [], _, _, _, _, _ => rfl
  | _ :: _, [], _, h, _, _ => by simp at h
  | _ :: _, _ :: _, [], _, h, _ => by simp at h
  | f :: fs, s :: ss, s' :: ss', h1, h2, h => by
    simp only [List.map_cons, List.zip_cons_cons, List.mem_cons, forall_eq_or_imp] at h
    simp only [List.zipWith_cons_cons]
    rw [outs_eq val x i l fs ss ss' (by simpa using h1) (by simpa using h2) h.2, sparseFold_out (val f) l h.1]
    rfl

theorem GraphOk.nodeSparseAtLoop (h : GraphOk C m g items parts)
    (hc : ∀ it ∈ items, it.files.nodeFeatureCount ≤ m.nodeFeatureCount) (feats : List Nat)
    (H : Nat → List (Option Bytes) → List (Int × Sparse)) (val : Nat → Int × Int → Option Sparse)
    (nodes : List (Int × Int))
    (hH : ∀ x ∈ nodes, ∀ f ∈ feats, ∀ r ∈ Spec.nodeRecords parts x.1, HasSparseHist r.features f (H f r.features))
    (hov : ∀ x ∈ nodes, ∀ f ∈ feats,
      (∀ y ∈ Spec.versions H f (Spec.nodeRecords parts x.1), y.2.coords.length = 1) ∨
      ∀ r ∈ Spec.nodeRecords parts x.1, ∀ r' ∈ Spec.nodeRecords parts x.1, H f r.features = H f r'.features)
    (hd : ∀ x ∈ nodes, ∀ f ∈ feats, ∀ y ∈ Spec.versions H f (Spec.nodeRecords parts x.1),
      ∀ z ∈ Spec.versions H f (Spec.nodeRecords parts x.1), y.1 = z.1 → y = z)
    (hval : ∀ x ∈ nodes, ∀ f ∈ feats, InForce (Spec.versions H f (Spec.nodeRecords parts x.1)) x.2 (val f x))
    (i : Nat) (ss : List (SparseState × Nat)) (hss : feats.length = ss.length) :
    ∃ ss', g.nodeSparseAtLoop feats nodes i ss = some ss' ∧ ss'.map (fun s => s.1.out) =
      List.zipWith (fun f (s : SparseState × Nat) => (sparseFold (val f) (nodes.zipIdx i) s.1).out) feats ss := by
  induction nodes generalizing i ss with
  | nil =>
    refine ⟨ss, rfl, ?_⟩
    simp only [List.zipIdx_nil, sparseFold, List.foldl_nil]
    clear hH hov hd hval
    induction feats generalizing ss with
    | nil => cases ss with
      | nil => rfl
      | cons s ss => simp at hss
    | cons f fs ih => cases ss with
      | nil => simp at hss
      | cons s ss =>
        rw [List.map_cons, List.zipWith_cons_cons, ih ss (by simpa using hss)]
  | cons x xs ih =>
    obtain ⟨es, h1, h2⟩ := h.nodeSparseAt1 hc feats x.1 x.2 i H (hH x (by simp)) (hov x (by simp))
    obtain ⟨ss1, h3, h4, h5⟩ := h2 (ss.map fun s => ({ s.1 with flag := -1 }, s.2)) (by simpa using hss) (by
      intro s hs
      obtain ⟨t, -, rfl⟩ := List.mem_map.1 hs
      rfl)
    obtain ⟨ss', h6, h7⟩ := ih (fun y hy => hH y (by simp [hy])) (fun y hy => hov y (by simp [hy]))
      (fun y hy => hd y (by simp [hy])) (fun y hy => hval y (by simp [hy])) (i + 1) ss1 h4
    refine ⟨ss', by simp only [Graph.nodeSparseAtLoop, h1, Option.bind_some, h3, h6], ?_⟩
    rw [h7, List.zipIdx_cons, outs_eq val x i (xs.zipIdx (i + 1)) feats
      (ss.map fun s => ({ s.1 with flag := -1 }, s.2)) ss1 (by simpa using hss) h4 (by
        intro y hy
        have hf : y.1.1 ∈ feats := (List.of_mem_zip (List.of_mem_zip hy).1).1
        exact (h5 y hy).out_eq (hd x (by simp) _ hf) (hval x (by simp) _ hf))]
    rw [List.zipWith_map_right]
    congr 1

/-! Edges -/

theorem edgeSparseAtStep_ok {index data lo hi fl} (h : Owner index data lo hi fl) (f : Nat) (t i : Int)
    {K : List (Int × Sparse)} (hK : HasSparseHist fl f K) (s : SparseState) :
    ∃ s', edgeSparseAtStep index data lo hi t i f s = some s' ∧
      (s.flag = -1 → ∃ v, InForce K t v ∧ s'.out = (stepSparse i v s).out ∧
        normT s'.flag = if v.isSome then 0 else -1) := by
  simp only [edgeSparseAtStep]
  by_cases hset : s.flag = t
  · rw [if_pos hset]
    refine ⟨s, rfl, fun hfl => ⟨none, ?_, by simp [stepSparse], by simp [normT, hfl]⟩⟩
    rcases HasSparseHist.enc hK with ⟨-, rfl⟩ | ⟨-, -, hok⟩
    · simp [InForce]
    · intro y hy
      have := (hok.times _ (List.mem_map.2 ⟨y, hy, rfl⟩)).1
      simp only at this
      omega
  · rw [if_neg hset]
    rcases HasSparseHist.enc hK with ⟨h1, rfl⟩ | ⟨hok, h1, hh⟩
    · refine ⟨s, ?_, fun hfl => ⟨none, by simp [InForce], by simp [stepSparse], by simp [normT, hfl]⟩⟩
      cases hf : fl[f]? with
      | none => rw [h.range_none hf]; rfl
      | some v =>
        obtain ⟨pre, post, h2, h3⟩ := h.range_some hf
        rw [h3]
        rw [hf] at h1
        have : featBytes v = [] := by cases v <;> simpa [featBytes] using h1
        simp [this]
    · obtain ⟨pre, post, h2, h3⟩ := h.range_some h1
      simp only [featBytes] at h2 h3
      simp only [h3, Option.bind_some]
      rw [if_neg (serializeTemporal_len_ne _), h2]
      rcases locate_sparse hok hh pre post t with ⟨h4, h5⟩ | ⟨x, hx, off, hxt, hx0, hmax, h4, h5⟩
      · rw [h4]
        simp only [Option.bind_some, deserializeSparse]
        rw [if_pos (by omega)]
        exact ⟨_, rfl, fun _ => ⟨none, h5, by simp [stepSparse, SparseState.out], by simp [normT]⟩⟩
      · rw [h4]
        simp only [Option.bind_some, h5]
        refine ⟨_, rfl, fun hfl => ⟨some x.2, ⟨x.1, hx, hxt, hmax⟩, ?_, ?_⟩⟩
        · simp [stepSparse, SparseState.out, hfl]
        · simp only [normT, Option.isSome_some, if_true]
          rw [if_neg (by omega)]

/-- What a query for an edge has found in the records `own` of the edge seen so far. -/
def EdgeSpInv (H : Nat → List (Option Bytes) → List (Int × Sparse)) (feats : List Nat) (t i : Int)
    (base : List SparseState) (own : List (List (Option Bytes))) (ss : List SparseState) : Prop :=
  feats.length = ss.length ∧ match own with
    | [] => ss = base
    | [fl] => ∀ y ∈ (feats.zip base).zip ss, ∃ v, InForce (H y.1.1 fl) t v ∧ y.2.out = (stepSparse i v y.1.2).out ∧
        normT y.2.flag = if v.isSome then 0 else -1
    | _ => True

theorem mem_zip_self {α : Type} : ∀ (l : List α), ∀ y ∈ l.zip l, y.1 = y.2
  | [], y, hy => by simp at hy
  | a :: l, y, hy => by
    rcases List.mem_cons.1 hy with rfl | hy
    · rfl
    · exact mem_zip_self l y hy

theorem GraphOk.edgeSparseAt1 (h : GraphOk C m g items parts)
    (hc : ∀ it ∈ items, it.files.edgeFeatureCount ≤ m.edgeFeatureCount) (feats : List Nat) (e : EdgeId) (t i : Int)
    (H : Nat → List (Option Bytes) → List (Int × Sparse))
    (hH : ∀ f ∈ feats, ∀ r ∈ Spec.edgesBetween parts e.src e.dst e.typ, HasSparseHist r.features f (H f r.features))
    (base : List SparseState) (hbase : feats.length = base.length) (hflag : ∀ s ∈ base, s.flag = -1) :
    ∃ es ss', g.entries e.src = some es ∧
      es.foldlM (fun (ss : List SparseState) (x : Partition × Nat) => x.1.edgeSparseAt x.2 e.dst e.typ t i feats ss)
        base = some ss' ∧
      EdgeSpInv H feats t i base ((nodeBlks items e.src).filterMap (ownEdge e.dst e.typ)) ss' := by
  obtain ⟨es, h1, h2⟩ := h.foldEntries_inv (σ := List SparseState) e.src
    (fun (ss : List SparseState) (x : Partition × Nat) => x.1.edgeSparseAt x.2 e.dst e.typ t i feats ss)
    (fun (bs : List Blk) (ss : List SparseState) => EdgeSpInv H feats t i base (bs.filterMap (ownEdge e.dst e.typ)) ss) (by
      intro it hit x hx hid bs ss ⟨hl, hss⟩
      have hb : x.1 ∈ nodeBlks items e.src := by
        rw [List.mem_zipIdx_iff_getElem?] at hx
        exact List.mem_flatMap.2 ⟨it, hit, List.mem_filter.2 ⟨List.mem_of_getElem? hx, by simpa using hid⟩⟩
      rw [List.filterMap_append]
      simp only [Partition.edgeSparseAt, Partition.withEdge]
      have hfresh : ∀ y : GEdge, pickEdge x.1.edges e.dst e.typ = some y → ∀ ss' : List SparseState,
          feats.length = ss'.length →
          (ss = base → ∀ z ∈ (feats.zip base).zip ss', ∃ v, InForce (H z.1.1 y.feats) t v ∧
            z.2.out = (stepSparse i v z.1.2).out ∧ normT z.2.flag = if v.isSome then 0 else -1) →
          EdgeSpInv H feats t i base (bs.filterMap (ownEdge e.dst e.typ) ++ [x.1].filterMap (ownEdge e.dst e.typ)) ss' := by
        intro y hy ss' hl' hz
        have hf1 : [x.1].filterMap (ownEdge e.dst e.typ) = [y.feats] := by
          simp [List.filterMap_cons, ownEdge, hy]
        rw [hf1]
        refine ⟨hl', ?_⟩
        cases ho : bs.filterMap (ownEdge e.dst e.typ) with
        | nil =>
          rw [ho] at hss
          exact hz hss
        | cons a l => cases l <;> trivial
      rcases h.edgeBlocks hc hit hx e.dst e.typ with ⟨e1, e2⟩ | ⟨y, o, e1, e2, ⟨hm, e3, e4⟩ | ⟨e3, lo, hi, e4, e5, ho⟩⟩
      · rw [e2, Option.bind_some]
        exact ⟨ss, rfl, by
          have : [x.1].filterMap (ownEdge e.dst e.typ) = [] := by simp [ownEdge, e1]
          rw [this, List.append_nil]
          exact ⟨hl, hss⟩⟩
      · rw [e2, Option.bind_some]
        simp only [e4, or_true, if_true]
        refine ⟨ss, rfl, hfresh y e1 ss hl ?_⟩
        intro hsb z hz
        have hf : z.1.1 ∈ feats := (List.of_mem_zip (List.of_mem_zip hz).1).1
        obtain ⟨y1, y2, y3⟩ := pickEdge_some e1
        obtain ⟨r, hr, hrf⟩ := h.edge_record hb y1
        rw [y2, y3] at hr
        have hh := hH _ hf r hr
        rw [hrf] at hh
        have hnil : H z.1.1 y.feats = [] := by
          rcases hh with ⟨-, h5⟩ | ⟨_, _, h5, _⟩
          · exact h5
          · rw [e3] at h5; simp at h5
        refine ⟨none, by simp [InForce, hnil], ?_⟩
        have hmem : (z.1.2, z.2) ∈ base.zip ss := by
          obtain ⟨k, hk, hyk⟩ := List.mem_iff_getElem.1 hz
          simp only [List.length_zip] at hk
          refine List.mem_iff_getElem.2 ⟨k, by simp; omega, ?_⟩
          simp only [List.getElem_zip] at hyk ⊢
          rw [← hyk]
        rw [hsb] at hmem
        have := mem_zip_self base _ hmem
        simp only at this
        have hfl := hflag _ (List.of_mem_zip hmem).1
        rw [← this]
        simp [stepSparse, normT, hfl]
      · rw [e2, Option.bind_some]
        have hoff : it.part.edgeFeatureOffset ≠ [] := by intro hn; rw [hn] at e4; simp at e4
        simp only [hoff, e3, or_self, if_false, e4, e5, Option.bind_some]
        obtain ⟨y1, y2, y3⟩ := pickEdge_some e1
        obtain ⟨r, hr, hrf⟩ := h.edge_record hb y1
        rw [y2, y3] at hr
        obtain ⟨ss', h1, h2, h3⟩ := stepAll_inv3
          (I := fun _ b s => ss = base → b = s ∧ s.flag = -1)
          (J := fun f b s => ss = base → ∃ v, InForce (H f y.feats) t v ∧ s.out = (stepSparse i v b).out ∧
            normT s.flag = if v.isSome then 0 else -1)
          (step := edgeSparseAtStep it.part.edgeFeatureIndex it.part.edgeFeatures lo hi t i) feats base ss hbase hl (by
            intro z hz hsb
            have hmem : (z.1.2, z.2) ∈ base.zip ss := by
              obtain ⟨k, hk, hyk⟩ := List.mem_iff_getElem.1 hz
              simp only [List.length_zip] at hk
              refine List.mem_iff_getElem.2 ⟨k, by simp; omega, ?_⟩
              simp only [List.getElem_zip] at hyk ⊢
              rw [← hyk]
            rw [hsb] at hmem
            exact ⟨mem_zip_self base _ hmem, hflag _ (List.of_mem_zip hmem).2⟩) (by
            intro f hf b s hs
            have hh := hH f hf r hr
            rw [hrf] at hh
            obtain ⟨s', h3, h4⟩ := edgeSparseAtStep_ok ho f t i hh s
            refine ⟨s', h3, fun hsb => ?_⟩
            obtain ⟨rfl, hfl⟩ := hs hsb
            exact h4 hfl)
        exact ⟨ss', h1, hfresh y e1 ss' h2 fun hsb z hz => h3 z hz hsb⟩)
  obtain ⟨ss', h3, h4⟩ := h2 [] base ⟨hbase, rfl⟩
  rw [List.nil_append] at h4
  exact ⟨es, ss', h1, h3, h4⟩

theorem InForce.unique {H : List (Int × Sparse)} {t : Int} {v w : Option Sparse}
    (hd : ∀ x ∈ H, ∀ y ∈ H, x.1 = y.1 → x = y) (hv : InForce H t v) (hw : InForce H t w) : v = w := by
  cases v with
  | none =>
    cases w with
    | none => rfl
    | some w =>
      obtain ⟨c, h1, h2, -⟩ := hw
      have := hv _ h1
      simp only at this
      omega
  | some v =>
    obtain ⟨c, h1, h2, h3⟩ := hv
    cases w with
    | none =>
      have := hw _ h1
      simp only at this
      omega
    | some w =>
      obtain ⟨d, h4, h5, h6⟩ := hw
      have e1 := h3 _ h4 h5
      have e2 := h6 _ h1 h2
      have := hd _ h1 _ h4 (by simp only at e1 e2 ⊢; omega)
      rw [(Prod.mk.inj this).2]

/-- One edge with at most one record. -/
theorem GraphOk.edgeSparseAt_single (h : GraphOk C m g items parts)
    (hc : ∀ it ∈ items, it.files.edgeFeatureCount ≤ m.edgeFeatureCount) (feats : List Nat)
    (H : Nat → List (Option Bytes) → List (Int × Sparse)) (val : Nat → EdgeId × Int → Option Sparse) (x : EdgeId × Int)
    (hH : ∀ f ∈ feats, ∀ r ∈ Spec.edgesBetween parts x.1.src x.1.dst x.1.typ,
      HasSparseHist r.features f (H f r.features))
    (hone : (Spec.edgesBetween parts x.1.src x.1.dst x.1.typ).length ≤ 1)
    (hd : ∀ f ∈ feats, ∀ y ∈ Spec.versions H f (Spec.edgesBetween parts x.1.src x.1.dst x.1.typ),
      ∀ z ∈ Spec.versions H f (Spec.edgesBetween parts x.1.src x.1.dst x.1.typ), y.1 = z.1 → y = z)
    (hval : ∀ f ∈ feats,
      InForce (Spec.versions H f (Spec.edgesBetween parts x.1.src x.1.dst x.1.typ)) x.2 (val f x))
    (i : Int) (base : List SparseState) (hbase : feats.length = base.length) (hflag : ∀ s ∈ base, s.flag = -1) :
    ∃ es ss', g.entries x.1.src = some es ∧
      es.foldlM (fun (ss : List SparseState) (e : Partition × Nat) =>
        e.1.edgeSparseAt e.2 x.1.dst x.1.typ x.2 i feats ss) base = some ss' ∧ feats.length = ss'.length ∧
      ∀ y ∈ (feats.zip base).zip ss', y.2.out = (stepSparse i (val y.1.1 x) y.1.2).out ∧
        normT y.2.flag = if (val y.1.1 x).isSome then 0 else -1 := by
  obtain ⟨es, ss', h1, h3, h4, h5⟩ := h.edgeSparseAt1 hc feats x.1 x.2 i H hH base hbase hflag
  refine ⟨es, ss', h1, h3, h4, fun y hy => ?_⟩
  have hf : y.1.1 ∈ feats := (List.of_mem_zip (List.of_mem_zip hy).1).1
  have hv := hval _ hf
  have hdx := hd _ hf
  have hle := h.picks_le x.1.src x.1.dst x.1.typ
  match ho : (nodeBlks items x.1.src).filterMap (ownEdge x.1.dst x.1.typ) with
  | [] =>
    rw [ho] at h5
    have hnone : Spec.edgesBetween parts x.1.src x.1.dst x.1.typ = [] := by
      rw [List.eq_nil_iff_forall_not_mem]
      intro r hr
      obtain ⟨b, hb, y, hy, h3, h4⟩ := h.record_edge hr
      rw [List.filterMap_eq_nil_iff] at ho
      have := ho b hb
      simp only [ownEdge, Option.map_eq_none_iff] at this
      exact pickEdge_none this y hy ⟨h3, h4⟩
    have hvn : val y.1.1 x = none := by
      refine InForce.unique hdx hv ?_
      simp [hnone, Spec.versions, InForce]
    rw [hvn]
    have h5 : ss' = base := h5
    have hmem : (y.1.2, y.2) ∈ base.zip ss' := by
      obtain ⟨k, hk, hyk⟩ := List.mem_iff_getElem.1 hy
      simp only [List.length_zip] at hk
      refine List.mem_iff_getElem.2 ⟨k, by simp; omega, ?_⟩
      simp only [List.getElem_zip] at hyk ⊢
      rw [← hyk]
    rw [h5] at hmem
    have := mem_zip_self _ _ hmem
    simp only at this
    have hfl := hflag _ (List.of_mem_zip hmem).1
    rw [← this]
    simp [stepSparse, normT, hfl]
  | [fl] =>
    rw [ho] at h5
    obtain ⟨v, h8, h9⟩ := h5 y hy
    have hfl : fl ∈ (nodeBlks items x.1.src).filterMap (ownEdge x.1.dst x.1.typ) := by rw [ho]; simp
    obtain ⟨b, hb, hp⟩ := List.mem_filterMap.1 hfl
    simp only [ownEdge, Option.map_eq_some_iff] at hp
    obtain ⟨z, hz, rfl⟩ := hp
    obtain ⟨y1, y2, y3⟩ := pickEdge_some hz
    obtain ⟨r, hr, hrf⟩ := h.edge_record hb y1
    rw [y2, y3] at hr
    have hrs : Spec.edgesBetween parts x.1.src x.1.dst x.1.typ = [r] := by
      match hl : Spec.edgesBetween parts x.1.src x.1.dst x.1.typ with
      | [] => rw [hl] at hr; simp at hr
      | [r'] => rw [hl, List.mem_singleton] at hr; rw [hr]
      | _ :: _ :: _ => rw [hl] at hone; simp at hone
    have hvers : Spec.versions H y.1.1 (Spec.edgesBetween parts x.1.src x.1.dst x.1.typ) = H y.1.1 z.feats := by
      rw [hrs, Spec.versions, List.flatMap_cons, List.flatMap_nil, List.append_nil, hrf]
    rw [hvers] at hv hdx
    rw [InForce.unique hdx hv h8]
    exact h9
  | a :: b :: l =>
    rw [ho] at hle
    simp at hle
    omega

theorem edge_outs_eq {α : Type} (val : Nat → α → Option Sparse) (x : α) (i : Nat) (l : List (α × Nat)) :
    ∀ (feats : List Nat) (ss ss' : List SparseState), feats.length = ss.length → feats.length = ss'.length →
      (∀ y ∈ (feats.zip (ss.map fun s => { s with flag := -1 })).zip ss',
        y.2.out = (stepSparse i (val y.1.1 x) y.1.2).out) →
      List.zipWith (fun f (s : SparseState) => (sparseFold (val f) l s).out) feats ss' =
      List.zipWith (fun f (s : SparseState) => (sparseFold (val f) ((x, i) :: l) s).out) feats ss
  | [], _, _, _, _, _ => rfl
  | _ :: _, [], _, h, _, _ => by simp at h
  | _ :: _, _ :: _, [], _, h, _ => by simp at h
  | f :: fs, s :: ss, s' :: ss', h1, h2, h => by
    simp only [List.map_cons, List.zip_cons_cons, List.mem_cons, forall_eq_or_imp] at h
    simp only [List.zipWith_cons_cons]
    rw [edge_outs_eq val x i l fs ss ss' (by simpa using h1) (by simpa using h2) h.2, sparseFold_out (val f) l h.1]
    rfl

theorem GraphOk.edgeSparseAtLoop (h : GraphOk C m g items parts)
    (hc : ∀ it ∈ items, it.files.edgeFeatureCount ≤ m.edgeFeatureCount) (feats : List Nat)
    (H : Nat → List (Option Bytes) → List (Int × Sparse)) (val : Nat → EdgeId × Int → Option Sparse)
    (edges : List (EdgeId × Int))
    (hH : ∀ x ∈ edges, ∀ f ∈ feats, ∀ r ∈ Spec.edgesBetween parts x.1.src x.1.dst x.1.typ,
      HasSparseHist r.features f (H f r.features))
    (hone : ∀ x ∈ edges, (Spec.edgesBetween parts x.1.src x.1.dst x.1.typ).length ≤ 1)
    (hd : ∀ x ∈ edges, ∀ f ∈ feats, ∀ y ∈ Spec.versions H f (Spec.edgesBetween parts x.1.src x.1.dst x.1.typ),
      ∀ z ∈ Spec.versions H f (Spec.edgesBetween parts x.1.src x.1.dst x.1.typ), y.1 = z.1 → y = z)
    (hval : ∀ x ∈ edges, ∀ f ∈ feats,
      InForce (Spec.versions H f (Spec.edgesBetween parts x.1.src x.1.dst x.1.typ)) x.2 (val f x))
    (i : Nat) (ss : List SparseState) (hss : feats.length = ss.length) :
    ∃ ss', g.edgeSparseAtLoop feats edges i ss = some ss' ∧ ss'.map SparseState.out =
      List.zipWith (fun f (s : SparseState) => (sparseFold (val f) (edges.zipIdx i) s).out) feats ss := by
  induction edges generalizing i ss with
  | nil =>
    refine ⟨ss, rfl, ?_⟩
    simp only [List.zipIdx_nil, sparseFold, List.foldl_nil]
    clear hH hone hd hval
    induction feats generalizing ss with
    | nil => cases ss with
      | nil => rfl
      | cons s ss => simp at hss
    | cons f fs ih => cases ss with
      | nil => simp at hss
      | cons s ss =>
        rw [List.map_cons, List.zipWith_cons_cons, ih ss (by simpa using hss)]
  | cons x xs ih =>
    obtain ⟨es, ss1, h1, h3, h4, h5⟩ := h.edgeSparseAt_single hc feats H val x (hH x (by simp)) (hone x (by simp))
      (hd x (by simp)) (hval x (by simp)) i (ss.map fun s => { s with flag := -1 }) (by simpa using hss) (by
      intro s hs
      obtain ⟨t, -, rfl⟩ := List.mem_map.1 hs
      rfl)
    obtain ⟨ss', h6, h7⟩ := ih (fun y hy => hH y (by simp [hy])) (fun y hy => hone y (by simp [hy]))
      (fun y hy => hd y (by simp [hy])) (fun y hy => hval y (by simp [hy])) (i + 1) ss1 h4
    refine ⟨ss', by simp only [Graph.edgeSparseAtLoop, h1, Option.bind_some, h3, h6], ?_⟩
    rw [h7, List.zipIdx_cons, edge_outs_eq val x i (xs.zipIdx (i + 1)) feats ss ss1 hss h4 fun y hy => (h5 y hy).1]

end DeepGNN
