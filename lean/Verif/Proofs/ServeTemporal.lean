import Verif.Proofs.TemporalFeature
import Verif.Proofs.ServeFeatures

namespace DeepGNN

open Spec

variable {C : WeightCodec} {wm : Option Nat} {m : Meta} {parts : List (List (List Rec))} {g : Graph} {items : List Item}

theorem FeatState.congr {H K : List (Int × Bytes)} (hHK : ∀ y, y ∈ H ↔ y ∈ K) {t : Int} {size : Nat} {s : Int × Bytes}
    (h : FeatState H t size s) : FeatState K t size s := by
  rcases h with ⟨a, b⟩ | ⟨x, a, b⟩
  · exact Or.inl ⟨a, fun y hy => b y ((hHK y).2 hy)⟩
  · exact Or.inr ⟨x, ⟨(hHK x).1 a.1, a.2.1, fun y hy => a.2.2 y ((hHK y).2 hy)⟩, b⟩

theorem copyFeature_length {data : Bytes} {size off stored : Nat} {v : Bytes} (h : copyFeature data size off stored = some v) :
    v.length = size := by
  simp only [copyFeature, Option.map_eq_some_iff, readAt] at h
  obtain ⟨w, h1, rfl⟩ := h
  split at h1
  · cases h1
    simp
    omega
  · cases h1

theorem nodeFeatureStep_length {index : List Nat} {data : Bytes} {lo hi : Nat} {ts : Option Int} {f : Nat × Nat}
    {s s' : Int × Bytes} (h : nodeFeatureStep index data lo hi ts f s = some s') (hs : s.2.length = f.2) :
    s'.2.length = f.2 := by
  rw [nodeFeatureStep] at h
  split at h
  · cases h; exact hs
  · obtain ⟨r, -, h⟩ := Option.bind_eq_some_iff.1 h
    split at h
    · cases h; exact hs
    · obtain ⟨v, -, h⟩ := Option.bind_eq_some_iff.1 h
      split at h
      · cases h; exact hs
      · obtain ⟨o, ho, rfl⟩ := Option.map_eq_some_iff.1 h
        exact copyFeature_length ho

theorem slices_lengths : ∀ (ns : List Nat) (b : Bytes), b.length = ns.sum → ∀ x ∈ ns.zip (slices ns b), x.2.length = x.1
  | [], _, _ => by simp
  | n :: ns, b, h => by
    simp only [List.sum_cons] at h
    rw [slices, List.zip_cons_cons]
    simp only [List.mem_cons, forall_eq_or_imp]
    refine ⟨by simp; omega, slices_lengths ns _ (by simp; omega)⟩

/-- The histories in the stored records of a node are those in its node records. -/
theorem GraphOk.hist_union (h : GraphOk C m g items parts) (n : Int) (fid : Nat)
    (H : Nat → List (Option Bytes) → List (Int × Bytes))
    (hH : ∀ r ∈ Spec.nodeRecords parts n, HasHist r.features fid (H fid r.features)) (y : Int × Bytes) :
    y ∈ ((nodeBlks items n).flatMap fun (b : Blk) => if b.feats = [] then [] else H fid b.feats) ↔
      y ∈ ((Spec.nodeRecords parts n).flatMap fun r => H fid r.features) := by
  have h3 := h.nodeBlks_feats n (fun l => decide (l ≠ [])) (by simp)
  rw [List.mem_flatMap, List.mem_flatMap]
  constructor
  · rintro ⟨b, hb, hy⟩
    split at hy
    · simp at hy
    · rename_i hne
      obtain ⟨r, hr, hrf⟩ := Blk.rec_of_feats h hb hne
      exact ⟨r, hr, by rw [hrf]; exact hy⟩
  · rintro ⟨r, hr, hy⟩
    have hne : r.features ≠ [] := by
      intro hnil
      rcases hH r hr with ⟨-, h5⟩ | ⟨h5, -⟩
      · rw [h5] at hy; simp at hy
      · rw [hnil] at h5; simp at h5
    have : r.features ∈ ((nodeBlks items n).filter (fun b => decide (b.feats ≠ []))).map (·.feats) := by
      rw [h3]; exact List.mem_map.2 ⟨r, List.mem_filter.2 ⟨hr, by simpa using hne⟩, rfl⟩
    obtain ⟨b, hb, hbf⟩ := List.mem_map.1 this
    exact ⟨b, (List.mem_filter.1 hb).1, by rw [if_neg (by rw [hbf]; exact hne), hbf]; exact hy⟩

/-- The loop over the partitions of a node at time `t`. -/
theorem GraphOk.serveNodeAt (h : GraphOk C m g items parts)
    (hc : ∀ it ∈ items, it.files.nodeFeatureCount ≤ m.nodeFeatureCount)
    (feats : List (Nat × Nat)) (n t : Int) (H : Nat → List (Option Bytes) → List (Int × Bytes))
    (hH : ∀ f ∈ feats, ∀ r ∈ Spec.nodeRecords parts n, HasHist r.features f.1 (H f.1 r.features))
    (out : Bytes) (hout : out.length = (feats.map (·.2)).sum) :
    ∃ ss, g.serveNode feats n (some t) out = some ss ∧ feats.length = ss.length ∧
      ∀ x ∈ feats.zip ss, FeatState ((Spec.nodeRecords parts n).flatMap fun r => H x.1.1 r.features) t x.1.2 x.2 ∧
        x.2.2.length = x.1.2 := by
  have hHnil : ∀ f ∈ feats, ∀ b ∈ nodeBlks items n, HasHist b.feats f.1 (if b.feats = [] then [] else H f.1 b.feats) := by
    intro f hf b hb
    by_cases hne : b.feats = []
    · left; simp [hne]
    · obtain ⟨r, hr, hrf⟩ := Blk.rec_of_feats h hb hne
      rw [if_neg hne, ← hrf]
      exact hH f hf r hr
  obtain ⟨es, h1, h2⟩ := h.foldEntries_inv (σ := List (Int × Bytes)) n
    (fun (ss : List (Int × Bytes)) (x : Partition × Nat) => x.1.nodeFeature x.2 (some t) feats ss)
    (fun (bs : List Blk) (ss : List (Int × Bytes)) => feats.length = ss.length ∧ ∀ x ∈ feats.zip ss,
      FeatState (bs.flatMap fun (b : Blk) => if b.feats = [] then [] else H x.1.1 b.feats) t x.1.2 x.2 ∧
        x.2.2.length = x.1.2) (by
      intro it hit x hx hid bs ss ⟨hl, hss⟩
      have hb : x.1 ∈ nodeBlks items n := by
        rw [List.mem_zipIdx_iff_getElem?] at hx
        exact List.mem_flatMap.2 ⟨it, hit, List.mem_filter.2 ⟨List.mem_of_getElem? hx, by simpa using hid⟩⟩
      by_cases hm : m.nodeFeatureCount = 0
      · obtain ⟨c, -, hsrc⟩ := item_of_src h.src hit
        refine ⟨ss, ?_, hl, ?_⟩
        · rw [Partition.nodeFeature, if_pos ((h.ok it hit).loaded.noNodeFeatures hm)]
        · have := ItemOk.feats_nil (hc it hit) hsrc hx hm
          simpa [this] using hss
      · obtain ⟨lo, hi, e1, e2, ho⟩ := (h.ok it hit).owner hx hm
        rw [Partition.nodeFeature, if_neg (by
          rw [(h.ok it hit).loaded.nodeFeatureIndex hm]; exact offsFrom_ne_nil _ _), e1, e2]
        simp only [Option.bind_some]
        refine stepAll_inv (I := fun f s => FeatState (bs.flatMap fun (b : Blk) =>
            if b.feats = [] then [] else H f.1 b.feats) t f.2 s ∧ s.2.length = f.2)
          (J := fun f s => FeatState ((bs ++ [x.1]).flatMap fun (b : Blk) =>
            if b.feats = [] then [] else H f.1 b.feats) t f.2 s ∧ s.2.length = f.2) hl hss ?_
        intro f hf s hs
        obtain ⟨s', h3, h4⟩ := nodeFeatureStep_at ho f t (hHnil f hf x.1 hb) hs.1
        exact ⟨s', h3, by simpa using h4, nodeFeatureStep_length h3 hs.2⟩)
  have hinit : feats.length = ((slices (feats.map (·.2)) out).map fun b => ((-1 : Int), b)).length ∧
      ∀ x ∈ feats.zip ((slices (feats.map (·.2)) out).map fun b => ((-1 : Int), b)),
        FeatState (([] : List Blk).flatMap fun (b : Blk) => if b.feats = [] then [] else H x.1.1 b.feats) t x.1.2 x.2 ∧
          x.2.2.length = x.1.2 := by
    refine ⟨by simp, ?_⟩
    rintro ⟨f, s⟩ hx
    rw [List.zip_map_right] at hx
    obtain ⟨⟨f', b⟩, hz, he⟩ := List.mem_map.1 hx
    simp only [Prod.map_apply, id_eq, Prod.mk.injEq] at he
    obtain ⟨rfl, rfl⟩ := he
    refine ⟨Or.inl ⟨rfl, by simp⟩, ?_⟩
    refine slices_lengths _ out hout (f'.2, b) ?_
    rw [List.zip_map_left]
    exact List.mem_map.2 ⟨(f', b), hz, rfl⟩
  obtain ⟨ss, h3, h4, h5⟩ := h2 [] _ hinit
  rw [List.nil_append] at h5
  refine ⟨ss, ?_, h4, ?_⟩
  · rw [Graph.serveNode, h1, Option.bind_some]
    exact h3
  · intro x hx
    have hf := (List.of_mem_zip hx).1
    exact ⟨(h5 x hx).1.congr (h.hist_union n x.1.1 H (hH x.1 hf)), (h5 x hx).2⟩

/-- What a server may answer about a node at time `t`. -/
def AnswerAt (feats : List (Nat × Nat)) (hist : Nat → List (Int × Bytes)) (t : Int) : Answer → Prop
  | none => ∀ f ∈ feats, ∀ y ∈ hist f.1, t < y.1
  | some row => feats.length = row.length ∧ ∀ x ∈ feats.zip row, FeatState (hist x.1.1) t x.1.2 x.2 ∧ x.2.2.length = x.1.2

theorem zip_snd {α β} : ∀ (l : List α) (r : List β), l.length = r.length → (l.zip r).map (·.2) = r
  | [], [], _ => rfl
  | _ :: l, _ :: r, h => by simpa using zip_snd l r (by simpa using h)

theorem AnswerAt.fits {feats : List (Nat × Nat)} {hist : Nat → List (Int × Bytes)} {t : Int} {a : Answer}
    (h : AnswerAt feats hist t a) : Answer.Fits feats a := by
  rintro row rfl
  obtain ⟨hl, hx⟩ := h
  apply List.ext_getElem (by simp [hl])
  intro i h1 h2
  simp only [List.length_map] at h1 h2
  have := (hx (feats[i], row[i]) (List.mem_iff_getElem.2 ⟨i, by simp; omega, by simp⟩)).2
  simpa using this

theorem flatMap_length_sum {feats : List (Nat × Nat)} {row : List (Int × Bytes)} (h : row.map (·.2.length) = feats.map (·.2)) :
    (row.flatMap (·.2)).length = (feats.map (·.2)).sum := by
  rw [← h, List.length_flatMap]

theorem GraphOk.serveNodesAt (h : GraphOk C m g items parts)
    (hc : ∀ it ∈ items, it.files.nodeFeatureCount ≤ m.nodeFeatureCount) (feats : List (Nat × Nat))
    (H : Nat → List (Option Bytes) → List (Int × Bytes)) (reqs : List (Int × Int))
    (hH : ∀ q ∈ reqs, ∀ f ∈ feats, ∀ r ∈ Spec.nodeRecords parts q.1, HasHist r.features f.1 (H f.1 r.features))
    (i : Nat) (rest : Bytes) (hrest : rest = [] ∨ rest.length = (feats.map (·.2)).sum) :
    ∃ as, g.serveNodes feats i rest (reqs.map fun q => (q.1, some q.2)) = some (featReply i as) ∧
      as.length = reqs.length ∧ ∀ x ∈ reqs.zip as,
        AnswerAt feats (fun fid => (Spec.nodeRecords parts x.1.1).flatMap fun r => H fid r.features) x.1.2 x.2 := by
  induction reqs generalizing i rest with
  | nil => exact ⟨[], rfl, rfl, by simp⟩
  | cons q reqs ih =>
    obtain ⟨n, t⟩ := q
    have ih := ih (fun q hq => hH q (by simp [hq]))
    have hHn := hH (n, t) (by simp)
    rw [List.map_cons, Graph.serveNodes]
    cases hm : g.nodeMap n with
    | none =>
      obtain ⟨as, h1, h2, h3⟩ := ih (i + 1) rest hrest
      refine ⟨none :: as, by simp only [h1, featReply], by simp [h2], ?_⟩
      simp only [List.zip_cons_cons, List.mem_cons, forall_eq_or_imp]
      refine ⟨?_, h3⟩
      have hno := ((entries_items h.parts_eq h.inv n).2).1 hm
      have hnil : nodeBlks items n = [] := by
        simp only [nodeBlks, List.flatMap_eq_nil_iff, List.filter_eq_nil_iff]
        intro it hit b hb
        simpa using hno it hit b hb
      intro f hf y hy
      have := (h.hist_union n f.1 H (hHn f hf) y).2 hy
      rw [hnil] at this
      simp at this
    | some k =>
      have hbuf : (if rest = [] then List.replicate (feats.map (·.2)).sum 0 else rest).length = (feats.map (·.2)).sum := by
        split
        · simp
        · rename_i hne
          exact hrest.resolve_left hne
      obtain ⟨ss, h1, h2, h3⟩ := h.serveNodeAt hc feats n t H hHn _ hbuf
      simp only [h1, Option.bind_some]
      have hat : AnswerAt feats (fun fid => (Spec.nodeRecords parts n).flatMap fun r => H fid r.features) t (some ss) := ⟨h2, h3⟩
      by_cases hany : ss.any (fun s => decide (s.1 ≥ 0)) = true
      · rw [if_pos hany]
        obtain ⟨as, h4, h5, h6⟩ := ih (i + 1) [] (Or.inl rfl)
        refine ⟨some ss :: as, by rw [h4]; rfl, by simp [h5], ?_⟩
        simp only [List.zip_cons_cons, List.mem_cons, forall_eq_or_imp]
        exact ⟨hat, h6⟩
      · rw [if_neg hany]
        obtain ⟨as, h4, h5, h6⟩ := ih (i + 1) (ss.flatMap (·.2)) (Or.inr (flatMap_length_sum (hat.fits ss rfl)))
        refine ⟨none :: as, by rw [h4, featReply], by simp [h5], ?_⟩
        simp only [List.zip_cons_cons, List.mem_cons, forall_eq_or_imp]
        refine ⟨?_, h6⟩
        intro f hf y hy
        obtain ⟨j, hj⟩ := List.mem_iff_getElem?.1 hf
        have hjl := (List.getElem?_eq_some_iff.1 hj).1
        have hjs : j < ss.length := by omega
        have hz : (f, ss[j]) ∈ feats.zip ss :=
          List.mem_iff_getElem?.2 ⟨j, List.getElem?_zip_eq_some.2 ⟨hj, List.getElem?_eq_getElem hjs⟩⟩
        rcases (h3 _ hz).1 with ⟨-, hlt⟩ | ⟨x, -, hx1, hx2, -⟩
        · exact hlt y hy
        · exfalso
          apply hany
          rw [List.any_eq_true]
          exact ⟨ss[j], List.getElem_mem hjs, by simp only [decide_eq_true_eq]; simp only at hx1; omega⟩

/-- `GetNodeFeatures` with timestamps. -/
theorem Built.getNodeFeaturesAt (h : Built C wm m parts g) (nodes ts : List Int) (hts : ts.length = nodes.length)
    (feats : List (Nat × Nat)) (H : Nat → List (Option Bytes) → List (Int × Bytes))
    (hH : ∀ n ∈ nodes, ∀ f ∈ feats, ∀ r ∈ Spec.nodeRecords parts n, HasHist r.features f.1 (H f.1 r.features)) :
    ∃ as, g.getNodeFeatures nodes (some ts) feats = some (featReply 0 as) ∧ as.length = nodes.length ∧
      ∀ x ∈ (nodes.zip ts).zip as,
        AnswerAt feats (fun fid => (Spec.nodeRecords parts x.1.1).flatMap fun r => H fid r.features) x.1.2 x.2 := by
  obtain ⟨items, hg, hc⟩ := h.graphOk
  obtain ⟨as, h1, h2, h3⟩ := hg.serveNodesAt (fun it hit => (hc it hit).1) feats H (nodes.zip ts)
    (fun q hq => hH q.1 (List.of_mem_zip hq).1) 0 [] (Or.inl rfl)
  refine ⟨as, ?_, by rw [h2]; simp [hts], h3⟩
  rw [Graph.getNodeFeatures, ← h1]
  congr 1
  simp only [tsList, List.zip_map_right]
  rfl

end DeepGNN
