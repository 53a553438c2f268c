import Verif.Proofs.SagePairs

/-
C96: link prediction with GraphSAGE: the score of an edge, and the embeddings written for its two ends.
-/

namespace DeepGNN

open Sage SagePairs

/-- What the table of embeddings and the answers of the graph have to satisfy: every node is below the size of the table. -/
structure SagePairs.TableFits {α : Type} [Arith α] (table : Mat α) (feat : Int → Vec α) (dims : List Nat) : Prop where
  ne : table ≠ []
  rows : ∀ i : Int, i < table.length → feat i = Spec.tableRow table i
  width : ∀ i, (feat i).length = dims.getD 0 0

/-- The answers of the graph stay below the size of the table. -/
def SagePairs.Within {α : Type} (table : Mat α) (sample : Nat → List Int → Nat → List (List Int)) (ids : List Int) : Prop :=
  Spec.SamplerOk sample ∧ (∀ i ∈ ids, i < table.length) ∧ ∀ k js c, ∀ row ∈ sample k js c, ∀ i ∈ row, i < table.length

theorem SagePairs.embedding_eq {α : Type} [Arith α] {kind : Kind} {concat : Bool} {ws : List (Weights α)} {counts dims : List Nat} {l : Link α}
    {feat : Int → Vec α} {sample : Nat → List Int → Nat → List (List Int)} {ids : List Int} (hm : Spec.ModelFits kind concat ws counts dims)
    (ht : TableFits l.table feat dims) (hw : Within l.table sample ids) (hd : l.drop = none) :
    sageEmbedding l (initAggs kind ws concat) counts dims concat sample ids =
      some (Spec.vectors l.norm kind concat ws dims feat counts.length (Spec.grow (Spec.answers sample 0 counts.reverse ids) ids)) := by
  unfold sageEmbedding
  rw [C79_identity ids hm hw.1 ht.ne hw.2.1 hw.2.2 ht.rows ht.width, hd]
  simp only [Option.bind_eq_bind, Option.bind_some, List.map_map]
  rfl

section
variable {α : Type} [Arith α] {kind : Kind} {concat : Bool} {wsrc wdst : List (Weights α)} {counts dims : List Nat} {l : Link α}
  {feat : Int → Vec α} {sampleSrc sampleDst : Nat → List Int → Nat → List (List Int)}

/-- **C96_scores_partial.** In training and in evaluation (before an inference node is set), for any edges, whatever the graph answers:
the prediction of edge `i` is the sigmoid of the inner product of the vector of the tree of its source, by the source layers, and of the
tree of its destination, by the destination layers; the loss is the mean of the cross entropies of the labels of the same edges.
(Dropout 0 and one label per edge; the AUC is not modelled.) -/
theorem C96_scores_partial {src dst : List Int} {labels : Mat α} (training : Bool)
    (hs : Spec.ModelFits kind concat wsrc counts dims) (hd : Spec.ModelFits kind concat wdst counts dims) (ht : TableFits l.table feat dims)
    (hws : Within l.table sampleSrc src) (hwd : Within l.table sampleDst dst) (hdrop : l.drop = none)
    (has : l.srcAggs = initAggs kind wsrc concat) (had : l.dstAggs = initAggs kind wdst concat)
    (hl : dst.length = src.length) (hlab : labels.flatten.length = src.length) :
    let u := Spec.vectors l.norm kind concat wsrc dims feat counts.length (Spec.grow (Spec.answers sampleSrc 0 counts.reverse src) src)
    let v := Spec.vectors l.norm kind concat wdst dims feat counts.length (Spec.grow (Spec.answers sampleDst 0 counts.reverse dst) dst)
    linkCall l counts dims concat none training (.edges src dst labels sampleSrc sampleDst) =
      some (.scores ((u.zip v).map fun p => l.sigmoid (Spec.innerProduct p.1 p.2))
        (Arith.divNat (total ((labels.flatten.zip (u.zip v)).map fun p => l.xent p.1 (Spec.innerProduct p.2.1 p.2.2))) src.length)) ∧
    u.length = src.length ∧ v.length = src.length := by
  intro u v
  have lu : u.length = src.length := by
    have := congrArg List.length (C79_one_row_each hws.1 counts src)
    simpa [u, Spec.vectors] using this
  have lv : v.length = src.length := by
    have := congrArg List.length (C79_one_row_each hwd.1 counts dst)
    rw [← hl]
    simpa [v, Spec.vectors] using this
  refine ⟨?_, lu, lv⟩
  have key : linkCall l counts dims concat none training (.edges src dst labels sampleSrc sampleDst) =
      (sageEmbedding l l.srcAggs counts dims concat sampleSrc src).bind fun s =>
        (sageEmbedding l l.dstAggs counts dims concat sampleDst dst).bind fun d => (affinity s d).bind fun logits =>
        if labels.flatten.length ≠ logits.length then none
        else some (.scores (logits.map l.sigmoid) (Arith.divNat (total (List.zipWith l.xent labels.flatten logits)) logits.length)) := by
    cases training <;> rfl
  rw [key, has, had, embedding_eq hs ht hws hdrop, embedding_eq hd ht hwd hdrop]
  have haff : affinity u v = some ((u.zip v).map fun p => Spec.innerProduct p.1 p.2) := by
    unfold affinity
    rw [if_pos (by rw [lu, lv]), List.zip, List.map_zipWith]
    rfl
  show (affinity u v).bind _ = _
  rw [haff]
  have hlen : ((u.zip v).map fun p => Spec.innerProduct p.1 p.2).length = src.length := by
    rw [List.length_map, List.length_zip, lu, lv, Nat.min_self]
  rw [Option.bind_some, hlen, if_neg (by simp [hlab]), List.map_map]
  congr 2
  congr 1
  generalize u.zip v = w
  rw [List.zipWith_map_right, List.zip, List.map_zipWith]

/-- **C96_inference_partial.** Once an inference node is set, `predict` gives the nodes asked for, in order, each with the vector of its own
tree by the layers of that side.  (Dropout 0.) -/
theorem C96_inference_partial {ids : List Int} (kept : Option (List Int × Mat α)) (side : Side)
    (hs : Spec.ModelFits kind concat wsrc counts dims) (hd : Spec.ModelFits kind concat wdst counts dims) (ht : TableFits l.table feat dims)
    (hw : Within l.table sampleSrc ids) (hdrop : l.drop = none)
    (has : l.srcAggs = initAggs kind wsrc concat) (had : l.dstAggs = initAggs kind wdst concat) :
    predictStep l counts dims concat (some side) kept (.nodes ids sampleSrc) =
      some (ids, Spec.vectors l.norm kind concat (match side with | .src => wsrc | .dst => wdst) dims feat counts.length
        (Spec.grow (Spec.answers sampleSrc 0 counts.reverse ids) ids)) := by
  unfold predictStep linkCall inference
  cases side with
  | src => simp only [if_true, has, embedding_eq hs ht hw hdrop, C79_ids, Option.bind_eq_bind, Option.bind_some]
  | dst => simp only [reduceCtorEq, if_false, had, embedding_eq hd ht hw hdrop, C79_ids, Option.bind_eq_bind, Option.bind_some]

/-- **C96_consistent_partial.** Scores can be had from the files of embeddings: if inference for some nodes on the source side and others
on the destination side drew, for the two ends of an edge, the trees that were drawn for the edge, then the inner product of the two
rows written is what the sigmoid is taken of in the prediction for the edge. -/
theorem C96_consistent_partial {src dst : List Int} {labels : Mat α} (training : Bool)
    (hs : Spec.ModelFits kind concat wsrc counts dims) (hd : Spec.ModelFits kind concat wdst counts dims) (ht : TableFits l.table feat dims)
    (hws : Within l.table sampleSrc src) (hwd : Within l.table sampleDst dst) (hdrop : l.drop = none)
    (has : l.srcAggs = initAggs kind wsrc concat) (had : l.dstAggs = initAggs kind wdst concat)
    (hl : dst.length = src.length) (hlab : labels.flatten.length = src.length)
    {as bs : List Int} {sa sb : Nat → List Int → Nat → List (List Int)} (hwa : Within l.table sa as) (hwb : Within l.table sb bs)
    {i j k : Nat} (hi : i < src.length)
    (hta : (Spec.grow (Spec.answers sa 0 counts.reverse as) as)[j]? = (Spec.grow (Spec.answers sampleSrc 0 counts.reverse src) src)[i]?)
    (htb : (Spec.grow (Spec.answers sb 0 counts.reverse bs) bs)[k]? = (Spec.grow (Spec.answers sampleDst 0 counts.reverse dst) dst)[i]?) :
    ∃ (predictions : List α) (loss : α) (rowsA rowsB : Mat α) (a b : Vec α),
      linkCall l counts dims concat none training (.edges src dst labels sampleSrc sampleDst) = some (.scores predictions loss) ∧
      predictStep l counts dims concat (some .src) none (.nodes as sa) = some (as, rowsA) ∧
      predictStep l counts dims concat (some .dst) none (.nodes bs sb) = some (bs, rowsB) ∧
      as[j]? = src[i]? ∧ bs[k]? = dst[i]? ∧ rowsA[j]? = some a ∧ rowsB[k]? = some b ∧
      predictions[i]? = some (l.sigmoid (Spec.innerProduct a b)) := by
  obtain ⟨h, lu, lv⟩ := C96_scores_partial (labels := labels) training hs hd ht hws hwd hdrop has had hl hlab
  have hA := C96_inference_partial (ids := as) none .src hs hd ht hwa hdrop has had
  have hB := C96_inference_partial (ids := bs) none .dst hs hd ht hwb hdrop has had
  have ids_get : ∀ {s : Nat → List Int → Nat → List (List Int)} {x : List Int} (_ : Spec.SamplerOk s) (n : Nat),
      ((Spec.grow (Spec.answers s 0 counts.reverse x) x)[n]?).map Spec.Tree.id = x[n]? := by
    intro s x hsx n
    rw [← List.getElem?_map, C79_one_row_each hsx]
  unfold Spec.vectors at h lu lv hA hB
  rw [List.length_map] at lu lv
  obtain ⟨t, htt⟩ : ∃ t, (Spec.grow (Spec.answers sampleSrc 0 counts.reverse src) src)[i]? = some t :=
    ⟨_, List.getElem?_eq_getElem (by omega)⟩
  obtain ⟨t', htt'⟩ : ∃ t', (Spec.grow (Spec.answers sampleDst 0 counts.reverse dst) dst)[i]? = some t' :=
    ⟨_, List.getElem?_eq_getElem (by omega)⟩
  refine ⟨_, _, _, _, l.norm (Spec.embed kind concat wsrc dims feat counts.length t), l.norm (Spec.embed kind concat wdst dims feat counts.length t'),
    h, hA, hB, ?_, ?_, ?_, ?_, ?_⟩
  · rw [← ids_get hwa.1 j, hta, ids_get hws.1 i]
  · rw [← ids_get hwb.1 k, htb, ids_get hwd.1 i]
  · rw [List.getElem?_map, hta, htt]; rfl
  · rw [List.getElem?_map, htb, htt']; rfl
  · rw [List.getElem?_map, List.zip, List.getElem?_zipWith, List.getElem?_map, List.getElem?_map, htt, htt']
    rfl

/-- **C96_dropout_refuted.** With a dropout rate other than 0, dropout is applied in inference as in training, although it is only meant for
training: what `predict` writes is whatever the random numbers leave. -/
theorem C96_dropout_refuted {ids : List Int} (kept : Option (List Int × Mat α)) (f : Mat α → Mat α)
    (hs : Spec.ModelFits kind concat wsrc counts dims) (ht : TableFits l.table feat dims) (hw : Within l.table sampleSrc ids)
    (hdrop : l.drop = some f) (has : l.srcAggs = initAggs kind wsrc concat) :
    predictStep l counts dims concat (some .src) kept (.nodes ids sampleSrc) =
      some (ids, f (Spec.vectors l.norm kind concat wsrc dims feat counts.length (Spec.grow (Spec.answers sampleSrc 0 counts.reverse ids) ids))) := by
  unfold predictStep linkCall inference sageEmbedding
  simp only [if_true, has, C79_identity ids hs hw.1 ht.ne hw.2.1 hw.2.2 ht.rows ht.width, hdrop, C79_ids, Option.bind_eq_bind, Option.bind_some,
    List.map_map]
  rfl

end

/-- **C96_evaluate_refuted.** Once an inference node is set the model can no longer be evaluated: `test_step` fails for any input. -/
theorem C96_evaluate_refuted {α : Type} [Arith α] (l : Link α) (counts dims : List Nat) (concat : Bool) (side : Side) (x : Input α) :
    testStep l counts dims concat (some side) x = none := by
  unfold testStep linkCall inference
  cases x with
  | edges => rfl
  | nodes ids sample =>
    simp only
    generalize sageEmbedding l (if side = .src then l.srcAggs else l.dstAggs) counts dims concat sample ids = e
    rw [C79_ids]
    cases e <;> rfl

/-- **C96_predict_unset_refuted.** Before an inference node is set, `predict` fails for any input. -/
theorem C96_predict_unset_refuted {α : Type} [Arith α] (l : Link α) (counts dims : List Nat) (concat : Bool) (x : Input α) :
    predictStep l counts dims concat none none x = none := by
  unfold predictStep
  cases h : linkCall l counts dims concat none false x with
  | none => rfl
  | some o =>
    cases o with
    | scores => rfl
    | embeddings ids emb =>
      exfalso
      unfold linkCall at h
      cases x with
      | nodes => cases h
      | edges src dst labels s d =>
        simp only [Option.bind_eq_bind] at h
        obtain ⟨a, -, h⟩ := Option.bind_eq_some_iff.1 h
        obtain ⟨b, -, h⟩ := Option.bind_eq_some_iff.1 h
        obtain ⟨c, -, h⟩ := Option.bind_eq_some_iff.1 h
        split at h <;> cases h

/-- **C96_labels_refuted.** Labels of another dimension than 1 make training fail for every batch, although `label_dim` is a parameter. -/
theorem C96_labels_refuted {α : Type} [Arith α] (l : Link α) (counts dims : List Nat) (concat : Bool) (training : Bool) (labels : Mat α)
    {src dst : List Int} {s d : Nat → List Int → Nat → List (List Int)} {n : Nat} (hn : n ≠ 1) (hrow : ∀ row ∈ labels, row.length = n)
    (hne : src ≠ []) (hl : labels.length = src.length) {u : Mat α} (hu : sageEmbedding l l.srcAggs counts dims concat s src = some u)
    (hlen : u.length = src.length) : linkCall l counts dims concat none training (.edges src dst labels s d) = none := by
  have key : linkCall l counts dims concat none training (.edges src dst labels s d) =
      (sageEmbedding l l.srcAggs counts dims concat s src).bind fun s =>
        (sageEmbedding l l.dstAggs counts dims concat d dst).bind fun d => (affinity s d).bind fun logits =>
        if labels.flatten.length ≠ logits.length then none
        else some (.scores (logits.map l.sigmoid) (Arith.divNat (total (List.zipWith l.xent labels.flatten logits)) logits.length)) := by
    cases training <;> rfl
  rw [key, hu, Option.bind_some]
  cases sageEmbedding l l.dstAggs counts dims concat d dst with
  | none => rfl
  | some v =>
    rw [Option.bind_some]
    unfold affinity
    by_cases huv : u.length = v.length
    · rw [if_pos huv, Option.bind_some, if_pos]
      have hf : labels.flatten.length = src.length * n := by
        rw [← hl]
        clear hl key hu hlen
        induction labels with
        | nil => simp
        | cons r labels ih =>
          rw [List.flatten_cons, List.length_append, hrow r List.mem_cons_self, ih (fun x hx => hrow x (List.mem_cons_of_mem _ hx)),
            List.length_cons, Nat.succ_mul, Nat.add_comm]
      have hpos : 0 < src.length := List.length_pos_iff.2 hne
      rw [hf, List.length_zipWith, ← huv, Nat.min_self, hlen]
      intro h
      have : src.length * n = src.length * 1 := by omega
      exact hn (Nat.eq_of_mul_eq_mul_left hpos this)
    · rw [if_neg huv]; rfl

/-! ### Examples -/

/-- Two sides with different weights over a table of three rows. -/
def SagePairs.exLink : Link Int where
  srcAggs := initAggs .mean [{ neigh := [[1]], self := [[1]] }] false
  dstAggs := initAggs .mean [{ neigh := [[2]], self := [[10]] }] false
  table := [[1], [2], [5]]
  norm := id
  drop := none
  xent := fun y x => x - y
  sigmoid := fun x => 2 * x

def SagePairs.exFeat (i : Int) : Vec Int := if i < 3 then Spec.tableRow [[1], [2], [5]] i else [0]

/-- Every neighbour is unknown for even nodes, and node 0 for others. -/
def SagePairs.exDraw : Nat → List Int → Nat → List (List Int) := fun _ ids c => ids.map fun i => List.replicate c (if i % 2 = 0 then -1 else 0)

theorem SagePairs.exFits : TableFits exLink.table exFeat [1, 1] := by
  refine ⟨by decide, fun i hi => if_pos hi, fun i => ?_⟩
  unfold exFeat
  by_cases h : i < 3
  · rw [if_pos h]
    unfold Spec.tableRow
    split
    · have : i = 0 ∨ i = 1 ∨ i = 2 := by omega
      rcases this with rfl | rfl | rfl <;> rfl
    · rfl
  · rw [if_neg h]; rfl

theorem SagePairs.exWithin {ids : List Int} (h : ∀ i ∈ ids, i < 3) : Within exLink.table exDraw ids := by
  refine ⟨fun k js c => ⟨List.length_map _, fun row hr => ?_⟩, h, fun k js c row hr i hi => ?_⟩
  · obtain ⟨i, -, rfl⟩ := List.mem_map.mp hr
    simp
  · obtain ⟨j, -, rfl⟩ := List.mem_map.mp hr
    rw [List.eq_of_mem_replicate hi]
    split <;> decide

theorem SagePairs.exModel (w : Weights Int) (h1 : w.self.length = 1) (h2 : w.neigh.length = 1) (h3 : ∀ col ∈ w.self, col.length = 1)
    (h4 : ∀ col ∈ w.neigh, col.length = 1) : Spec.ModelFits .mean false [w] [1] [1, 1] := by
  refine ⟨rfl, rfl, by decide, by decide, fun l hl v hv => ?_⟩
  match l, hl with
  | 0, _ => rw [← Option.some.inj hv]; exact ⟨h1, h2, h3, h4⟩

/-- Edges 0 → 1 and 2 → 0: the source 0 has vector 1 + 5, the destination 1 has 20 + 2.  The hypotheses of C96_consistent_partial hold for
the second edge and inference of nodes in other orders. -/
example : (∃ loss, linkCall exLink [1] [1, 1] false none true (.edges [0, 2] [1, 0] [[1], [0]] exDraw exDraw) =
      some (.scores [2 * (6 * 22), 2 * (10 * 20)] loss)) ∧
    predictStep exLink [1] [1, 1] false (some .src) none (.nodes [2, 0, 1] exDraw) = some ([2, 0, 1], [[10], [6], [3]]) ∧
    predictStep exLink [1] [1, 1] false (some .dst) none (.nodes [0, 1] exDraw) = some ([0, 1], [[20], [22]]) ∧
    ∃ (predictions : List Int) (loss : Int) (rowsA rowsB : Mat Int) (a b : Vec Int),
      linkCall exLink [1] [1, 1] false none true (.edges [0, 2] [1, 0] [[1], [0]] exDraw exDraw) = some (.scores predictions loss) ∧
      predictStep exLink [1] [1, 1] false (some .src) none (.nodes [2, 0, 1] exDraw) = some ([2, 0, 1], rowsA) ∧
      predictStep exLink [1] [1, 1] false (some .dst) none (.nodes [0, 1] exDraw) = some ([0, 1], rowsB) ∧
      rowsA[0]? = some a ∧ rowsB[0]? = some b ∧ predictions[1]? = some (2 * Spec.innerProduct a b) := by
  refine ⟨⟨_, rfl⟩, by decide +kernel, by decide +kernel, ?_⟩
  obtain ⟨p, loss, ra, rb, a, b, h1, h2, h3, -, -, h4, h5, h6⟩ := C96_consistent_partial (l := exLink) (feat := exFeat) (counts := [1]) (dims := [1, 1])
    (kind := .mean) (concat := false) (src := [0, 2]) (dst := [1, 0]) (labels := [[1], [0]]) (as := [2, 0, 1]) (bs := [0, 1]) (i := 1) (j := 0) (k := 0)
    true (exModel { neigh := [[1]], self := [[1]] } rfl rfl (by decide) (by decide))
    (exModel { neigh := [[2]], self := [[10]] } rfl rfl (by decide) (by decide)) exFits (exWithin (by decide)) (exWithin (by decide)) rfl rfl rfl rfl rfl
    (exWithin (by decide)) (exWithin (by decide)) (by decide) rfl rfl
  exact ⟨p, loss, ra, rb, a, b, h1, h2, h3, h4, h5, h6⟩

/-- Dropout of everything: every node gets 0. -/
example : predictStep { exLink with drop := some fun m => m.map fun r => r.map fun _ => 0 } [1] [1, 1] false (some .src) none (.nodes [0, 2] exDraw) =
    some ([0, 2], [[0], [0]]) := by decide +kernel

/-- Two labels per edge. -/
example : linkCall exLink [1] [1, 1] false none true (.edges [0, 2] [1, 0] [[1, 0], [0, 1]] exDraw exDraw) = none := rfl

end DeepGNN
