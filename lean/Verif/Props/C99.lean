import Verif.Proofs.Encoders
import Verif.Props.C98

/-
C99 The encoders of PyTorch for neighbourhoods give every node a vector made from its own features and those of its own neighbours.
-/

namespace DeepGNN

open DeepGNN.Sage DeepGNN.Gat DeepGNN.Encoders Arith Analysis

section
variable {α : Type} [Analysis α]

/-- **C99_lightgcn_partial.** The LightGCN encoder returns for every node half of the sum of its features and the mean of the features
of its own neighbours; without fanouts it returns the features.  Two or more fanouts are refused.  (The property asks for this of
every encoder.) -/
theorem C99_lightgcn_partial {f w : Nat} (hf : 0 < f) (hw : 0 < w) {nodes : List (Vec α × Mat α)} (hne : nodes ≠ [])
    (hs : ∀ n ∈ nodes, n.1.length = w ∧ n.2.length = f ∧ ∀ v ∈ n.2, v.length = w) :
    lightGcn [nodes.map (·.1), (nodes.map (·.2)).flatten] [f] = some (nodes.map fun n => Spec.lightGcnVector w n.1 n.2) ∧
    (∀ own more, lightGcn (α := α) (own :: more) [] = some own) ∧ ∀ samples f0 f1 more, lightGcn (α := α) samples (f0 :: f1 :: more) = none :=
  ⟨lightGcn_eq hf hw hne hs, fun _ _ => rfl, fun _ _ _ _ => rfl⟩

/-- **C99_lgcl_partial.** The LGCL encoder with one layer, at least two outputs and a batch of at least two nodes: the vector of every
node is that of its own features and, for every feature, the `k` greatest numbers among its own neighbours; both kinds of residuals. -/
theorem C99_lgcl_partial {e : Lgcl α} (hle : Spec.Linear e.le) {k w h f : Nat} (hw : 0 < w) (hh : 2 ≤ h) (hf : 0 < f) (hk : k ≤ f) (hks : e.ks = [k])
    (hhid : e.hidden = [h]) (hin : e.inFeatures = w) (hc : Spec.ConvFits w k h (e.conv 0 0)) (hres : w ≠ h → Spec.AffineFits w h (e.res 0))
    (hout : Spec.AffineFits (h + w) h e.out) {nodes : List (Vec α × Mat α)} (hn : 2 ≤ nodes.length)
    (hs : ∀ n ∈ nodes, n.1.length = w ∧ n.2.length = f ∧ ∀ v ∈ n.2, v.length = w) {T : Vec α × Mat α → Mat α}
    (hT : ∀ n ∈ nodes, (T n).length = w ∧ ∀ q < w, Spec.IsTop e.le k (n.2.map fun v => v.getD q zero) ((T n).getD q [])) :
    e.forward [f] [nodes.map (·.1), (nodes.map (·.2)).flatten] =
      some (nodes.map fun n => Spec.lgclOutput e w h n.1 (Spec.lgclVector (e.acts 0) (e.conv 0 0) k n.1 (T n))) := by
  rw [lgcl_eq hw hh hf hk hks hhid hin hc hres hout hn hs]
  congr 1
  apply List.map_congr_left
  intro n hn'
  obtain ⟨h1, h2⟩ := hT n hn'
  have : tops e.le k w n.2 = T n := by
    rw [← List.map_id (T n), ← map_range_get [] id (T n), h1]
    apply List.map_congr_left
    intro q hq
    exact (top_unique hle (h2 q (List.mem_range.mp hq))).symm
  rw [this]

/-- **C99_lgcl_order.** The order in which the neighbours of a node were sampled does not matter to LGCL. -/
theorem C99_lgcl_order {e : Lgcl α} (hle : Spec.Linear e.le) {k w h f : Nat} (hw : 0 < w) (hh : 2 ≤ h) (hf : 0 < f) (hk : k ≤ f) (hks : e.ks = [k])
    (hhid : e.hidden = [h]) (hin : e.inFeatures = w) (hc : Spec.ConvFits w k h (e.conv 0 0)) (hres : w ≠ h → Spec.AffineFits w h (e.res 0))
    (hout : Spec.AffineFits (h + w) h e.out) {nodes : List (Vec α × Mat α)} (hn : 2 ≤ nodes.length)
    (hs : ∀ n ∈ nodes, n.1.length = w ∧ n.2.length = f ∧ ∀ v ∈ n.2, v.length = w) {shuffle : Vec α × Mat α → Mat α}
    (hp : ∀ n ∈ nodes, (shuffle n).Perm n.2) :
    e.forward [f] [nodes.map (·.1), (nodes.map shuffle).flatten] = e.forward [f] [nodes.map (·.1), (nodes.map (·.2)).flatten] := by
  have h1 := lgcl_eq (nodes := nodes.map fun n => (n.1, shuffle n)) hw hh hf hk hks hhid hin hc hres hout (by simpa using hn) (by
    intro n hn'
    obtain ⟨m, hm, rfl⟩ := List.mem_map.mp hn'
    obtain ⟨a, b, c⟩ := hs m hm
    exact ⟨a, by rw [(hp m hm).length_eq, b], fun v hv => c v ((hp m hm).mem_iff.mp hv)⟩)
  rw [List.map_map, List.map_map, List.map_map] at h1
  rw [lgcl_eq hw hh hf hk hks hhid hin hc hres hout hn hs]
  refine Eq.trans h1 ?_
  congr 1
  apply List.map_congr_left
  intro n hn'
  have : tops e.le k w (shuffle n) = tops e.le k w n.2 := by
    apply List.map_congr_left
    intro q _
    rw [sortDesc_order hle ((hp n hn').map _)]
  simp only [Function.comp, this]

/-- **C99_lgcl_single_refuted.** A batch of a single node cannot be encoded by LGCL with concatenated residuals, whatever its weights,
features and fanout: `torch.squeeze` also drops the dimension of the batch. -/
theorem C99_lgcl_single_refuted {e : Lgcl α} (hr : e.residual = .concat) (f : Nat) (x : Vec α) (neigh : Mat α) :
    e.forward [f] [[x], neigh] = none := lgcl_concat_single hr f x neigh

/-- **C99_lgcl_hidden_refuted.** LGCL cannot have a single output: nothing can be encoded. -/
theorem C99_lgcl_hidden_refuted {e : Lgcl α} (hh : e.hidden = [1]) (hks : e.ks.length = 1) (f : Nat) {own : Mat α} (hne : own ≠ []) (neigh : Mat α) :
    e.forward [f] [own, neigh] = none := lgcl_hidden_one hh hks f hne neigh

/-- **C99_lgcl_layers_refuted.** LGCL with two layers, added residuals and as many outputs as features fails for every batch of at least two
nodes with at least two neighbours each: the residual of the second hop is taken from the first one. -/
theorem C99_lgcl_layers_refuted {e : Lgcl α} {k w f0 f1 : Nat} (hw : 2 ≤ w) (hf : 0 < f1) (hk : k ≤ f1) (hr : e.residual = .add) (hks : e.ks[1]? = some k)
    (hh : e.hidden[0]? = some w) (hc : Spec.ConvFits w k w (e.conv 0 1)) {own : Mat α} (ho : 2 ≤ own.length) (hf0 : 2 ≤ f0)
    {nodes : List (Vec α × Mat α)} (hn : nodes.length = own.length * f0)
    (hs : ∀ n ∈ nodes, n.1.length = w ∧ n.2.length = f1 ∧ ∀ v ∈ n.2, v.length = w) :
    e.forward [f0, f1] [own, nodes.map (·.1), (nodes.map (·.2)).flatten] = none := by
  have h1 : own.length * 2 ≤ own.length * f0 := Nat.mul_le_mul_left _ hf0
  exact lgcl_two_same hw hf hk hr hks hh hc (by omega) hs (by omega) (by omega)

/-- **C99_hetgnn_partial.** The HetGNN encoder with several kinds of neighbours: if the encoder of every kind gives every node a vector of the
size of the output, the result for a node is the average by attention of its own vectors. -/
theorem C99_hetgnn_partial {e : Het α} {w m : Nat} (hm : 2 ≤ m) (hfit : w ≠ e.outDim → Spec.AffineFits w e.outDim e.node)
    (hatt : e.att.length = 2 * e.outDim) {nodes : List (Vec α × List (Vec α))} (hne : nodes ≠ [])
    (hs : ∀ n ∈ nodes, n.1.length = w ∧ n.2.length = m ∧ ∀ v ∈ n.2, v.length = e.outDim)
    {encs : List (List (Mat α) → List (Mat α) → Option (Mat α))} (hl : encs.length = m) {samples : List (List (Mat α))} {more : List (Mat α)}
    (h0 : samples[0]? = some (nodes.map (·.1) :: more))
    (hk : ∀ i enc, encs[i]? = some enc → ∃ s, samples[i + 1]? = some s ∧ enc (nodes.map (·.1) :: more) s = some (nodes.map fun n => n.2.getD i [])) :
    e.forward encs samples = some (nodes.map fun n => Spec.hetVector e n.1 n.2) := by
  unfold Het.forward
  rw [h0, Option.bind_some, List.getElem?_cons_zero, Option.bind_some]
  have hz : (encs.zipIdx.mapM fun p => (samples[p.2 + 1]?).bind (p.1 (nodes.map (·.1) :: more))) =
      some ((List.range m).map fun i => nodes.map fun n => n.2.getD i []) := by
    rw [mapM_map (g := fun p => nodes.map fun n => n.2.getD p.2 [])]
    · congr 1
      rw [← hl, List.range_eq_range', ← List.zipIdx_map_snd 0, List.map_map]
      rfl
    · intro p hp
      obtain ⟨s, hs1, hs2⟩ := hk p.2 p.1 (List.mem_zipIdx_iff_getElem?.mp hp)
      rw [hs1, Option.bind_some, hs2]
  cases encs with
  | nil => simp at hl; omega
  | cons a encs =>
    cases encs with
    | nil => simp at hl; omega
    | cons b encs =>
      simp only
      rw [hz, Option.bind_some]
      exact combine_eq hfit hatt hne hs

/-- **C99_hetgnn_lstm.** Without encoders of the user a bi-LSTM embeds the neighbours of a kind: the vector of a node is the mean of the
states along its own features and those of its own neighbours, twice `outDim / 2` numbers. -/
theorem C99_hetgnn_lstm {f w d : Nat} (hf : 0 < f) (hw : 0 < w) (lstm : Mat α → Mat α) {nodes : List (Vec α × Mat α)} (hne : nodes ≠ [])
    (hs : ∀ n ∈ nodes, n.1.length = w ∧ n.2.length = f ∧ ∀ v ∈ n.2, v.length = w) :
    lstmEmbed lstm d f (nodes.map (·.1)) (nodes.map (·.2)).flatten = some (nodes.map fun n => Spec.columnMeans (2 * d) (lstm (n.1 :: n.2))) :=
  lstmEmbed_eq hf hw lstm hne hs

/-- **C99_hetgnn_odd_refuted.** With an odd number of outputs the bi-LSTMs of HetGNN have one output less: several kinds of neighbours
cannot be encoded, and with one kind the vectors are shorter than asked for. -/
theorem C99_hetgnn_odd_refuted {e : Het α} {d w f : Nat} (hodd : e.outDim = 2 * d + 1) (hf : 0 < f) (hw : 0 < w)
    (hfit : w ≠ e.outDim → Spec.AffineFits w e.outDim e.node) (lstm : Mat α → Mat α) {nodes : List (Vec α × Mat α)} (hne : nodes ≠ [])
    (hs : ∀ n ∈ nodes, n.1.length = w ∧ n.2.length = f ∧ ∀ v ∈ n.2, v.length = w) (enc : List (Mat α) → List (Mat α) → Option (Mat α))
    (encs : List (List (Mat α) → List (Mat α) → Option (Mat α))) (more : List (List (Mat α))) :
    let bilstm : List (Mat α) → List (Mat α) → Option (Mat α) := fun s0 s => lstmEmbed lstm (e.outDim / 2) f (s0.headD []) (s.headD [])
    let samples := [nodes.map (·.1)] :: [(nodes.map (·.2)).flatten] :: more
    e.forward (bilstm :: enc :: encs) samples = none ∧
    ∃ out, e.forward [bilstm] samples = some out ∧ out.length = nodes.length ∧ ∀ v ∈ out, v.length + 1 = e.outDim := by
  have hd : e.outDim / 2 = d := by omega
  have hl := C99_hetgnn_lstm (d := e.outDim / 2) hf hw lstm hne hs
  simp only
  constructor
  · unfold Het.forward
    simp only [List.getElem?_cons_zero, Option.bind_some]
    rw [List.zipIdx_cons, List.mapM_cons]
    simp only [Nat.zero_add, List.getElem?_cons_succ, List.getElem?_cons_zero, Option.bind_some, List.headD_cons, hl]
    cases hrest : ((enc :: encs).zipIdx 1).mapM fun p =>
        (([(nodes.map (·.2)).flatten] :: more)[p.2]?).bind (p.1 [nodes.map (·.1)]) with
    | none => rfl
    | some rest =>
      refine combine_none hfit (by simpa using hne) (by
        intro x hx
        obtain ⟨n, hn, rfl⟩ := List.mem_map.mp hx
        exact (hs n hn).1) (t := nodes.map fun n => Spec.columnMeans (2 * (e.outDim / 2)) (lstm (n.1 :: n.2))) List.mem_cons_self
        (v := Spec.columnMeans (2 * (e.outDim / 2)) (lstm ((nodes.head hne).1 :: (nodes.head hne).2))) ?_ ?_
      · exact List.mem_map.mpr ⟨_, List.head_mem hne, rfl⟩
      · rw [hd]
        simp [Spec.columnMeans]
        omega
  · refine ⟨_, hl, by simp, ?_⟩
    intro v hv
    obtain ⟨n, _, rfl⟩ := List.mem_map.mp hv
    rw [hd]
    simp [Spec.columnMeans]
    omega

end

section
variable [Spec.RealFuns]

/-- **C99_hetgnn_average.** In exact arithmetic the numbers of the vector of HetGNN are between the bounds of the vectors it is made of. -/
theorem C99_hetgnn_average (e : Het Rat) {q : Nat} (hq : q < e.outDim) {x : Vec Rat} (hx : x.length = e.outDim) (kinds : List (Vec Rat)) (lo hi : Rat)
    (hk : ∀ v ∈ x :: kinds, lo ≤ v.getD q 0 ∧ v.getD q 0 ≤ hi) :
    lo ≤ (Spec.hetVector e x kinds).getD q 0 ∧ (Spec.hetVector e x kinds).getD q 0 ≤ hi :=
  hetVector_between e hq x kinds lo hi (fun v hv => hk v (List.mem_cons_of_mem _ hv)) (by
    rw [ownVector, if_pos hx]; exact hk x List.mem_cons_self)

/-- **C99_gat_total.** The GAT encoder distributes the vector of each node of a sequence over all of them: in exact arithmetic the sum of the
results is the sum of the transformed features, for every head and every sequence. -/
theorem C99_gat_total {f w : Nat} {h : Head Rat} (hf : Spec.HeadFits f w h) {batch : List (Mat Rat)} (hs : ∀ seq ∈ batch, ∀ v ∈ seq, v.length = f) :
    ∃ F : Mat Rat → Mat Rat, gatEncoder h id batch = some (batch.map F) ∧ ∀ seq ∈ batch, (F seq).length = seq.length ∧
      ∀ q < w, total ((F seq).map fun v => v.getD q 0) = total (seq.map fun v => (Spec.linear h.w v).getD q 0) := by
  refine ⟨fun seq => (List.range seq.length).map fun i => (List.range w).map fun q =>
      id (total (List.zipWith (fun c v => mul (c.getD i zero) (v.getD q zero))
        ((seq.map (Spec.linear h.w)).map fun t => Spec.softmax ((seq.map (Spec.linear h.w)).map fun s =>
          leaky (add (add (total (List.zipWith mul s h.left)) h.leftBias) (add (total (List.zipWith mul t h.right)) h.rightBias))))
        (seq.map (Spec.linear h.w)))), mapM_map fun seq hseq => gatSeq_eq hf id (hs seq hseq), fun seq hseq => ⟨by simp, fun q hq => ?_⟩⟩
  rw [List.map_map]
  have e1 := columns_total seq.length q (cs := (seq.map (Spec.linear h.w)).map fun t => Spec.softmax ((seq.map (Spec.linear h.w)).map fun s =>
          (leaky (add (add (total (List.zipWith mul s h.left)) h.leftBias) (add (total (List.zipWith mul t h.right)) h.rightBias)) : Rat)))
      (vs := seq.map (Spec.linear h.w)) (by simp) (by
      intro c hc
      obtain ⟨t, ht, rfl⟩ := List.mem_map.mp hc
      refine ⟨by rw [Han.softmax_length, List.length_map, List.length_map], (Han.softmax_weights ?_).2⟩
      intro h0
      rw [List.map_eq_nil_iff] at h0
      rw [h0] at ht
      simp at ht)
  refine Eq.trans ?_ (e1.trans (by rw [List.map_map]; rfl))
  congr 1
  apply List.map_congr_left
  intro i _
  show List.getD ((List.range w).map _) q 0 = _
  rw [List.getD_eq_getElem?_getD, List.getElem?_map, List.getElem?_range hq]
  rfl

/-- **C99_gat_average_refuted.** The vectors of the GAT encoder are not averages, as those of an attention layer are: for any functions with
the values of the leaky rectifier and `2 * exp (-1) < exp 0`, the first of two nodes with features 1 and 2 gets less than 1 from a head that
copies the features. -/
theorem C99_gat_average_refuted [F : Spec.RealFuns] (hleaky : ∀ x, 0 ≤ x → F.leaky x = x) (hexp : 2 * F.exp (-1) < F.exp 0) :
    ∃ h : Head Rat, Spec.HeadFits 1 1 h ∧ (∀ x, Spec.linear h.w [x] = [x]) ∧ ∃ first second,
      gatEncoder h id [[[1], [2]]] = some [[[first], [second]]] ∧ first < 1 := by
  refine ⟨⟨[[1]], [1], 0, [0], 0, [0]⟩, by refine ⟨rfl, ?_, rfl, rfl, rfl⟩; intro col hc; rw [List.mem_singleton.mp hc]; rfl, ?_, ?_⟩
  · intro x
    show [(0 : Rat) + x * 1] = [x]
    congr 1
    grind
  have hfeat : ∀ x : Rat, ((0 : Rat) + x * 1) = x := by intro x; grind
  have hs1 : ∀ x y : Rat, (((0 : Rat) + x * 1 + 0) + (0 + y * 0 + 0)) = x := by intro x y; grind
  have hl : ∀ y : Rat, softmaxRow [(F.leaky (((0 : Rat) + 1 * 1 + 0) + (0 + y * 0 + 0)) : Rat), F.leaky (((0 : Rat) + 2 * 1 + 0) + (0 + y * 0 + 0))] =
      [F.exp (-1) / (0 + F.exp (-1) + F.exp 0), F.exp 0 / (0 + F.exp (-1) + F.exp 0)] := by
    intro y
    rw [hs1, hs1, hleaky 1 (by decide +kernel), hleaky 2 (by decide +kernel)]
    have e1 : (1 : Rat) - 2 = -1 := by decide +kernel
    have e2 : (2 : Rat) - 2 = 0 := by decide +kernel
    have e3 : (if (1 : Rat) ≤ 2 then (2 : Rat) else 1) = 2 := if_pos (by decide +kernel)
    show [F.exp (1 - (if (1 : Rat) ≤ 2 then (2 : Rat) else 1)) / (0 + F.exp (1 - (if (1 : Rat) ≤ 2 then (2 : Rat) else 1)) + F.exp (2 - (if (1 : Rat) ≤ 2 then (2 : Rat) else 1))),
      F.exp (2 - (if (1 : Rat) ≤ 2 then (2 : Rat) else 1)) / (0 + F.exp (1 - (if (1 : Rat) ≤ 2 then (2 : Rat) else 1)) + F.exp (2 - (if (1 : Rat) ≤ 2 then (2 : Rat) else 1)))] = _
    rw [e3, e1, e2]
  have hd : ∀ x : Rat, dense [[1]] [x] = some [x] := by
    intro x
    show some [(0 : Rat) + x * 1] = some [x]
    rw [hfeat]
  have hg : gatSeq (α := Rat) ⟨[[1]], [1], 0, [0], 0, [0]⟩ id [[1], [2]] =
      some [[0 + F.exp (-1) / (0 + F.exp (-1) + F.exp 0) * 1 + F.exp (-1) / (0 + F.exp (-1) + F.exp 0) * 2],
        [0 + F.exp 0 / (0 + F.exp (-1) + F.exp 0) * 1 + F.exp 0 / (0 + F.exp (-1) + F.exp 0) * 2]] := by
    unfold gatSeq
    rw [List.mapM_cons, List.mapM_cons, List.mapM_nil, hd, hd]
    show some ((List.range 2).map fun i => (List.range 1).map fun q => total (List.zipWith (fun (c : List Rat) (v : Vec Rat) => c.getD i 0 * v.getD q 0)
      [softmaxRow [(F.leaky (((0 : Rat) + 1 * 1 + 0) + (0 + 1 * 0 + 0)) : Rat), F.leaky (((0 : Rat) + 2 * 1 + 0) + (0 + 1 * 0 + 0))],
       softmaxRow [(F.leaky (((0 : Rat) + 1 * 1 + 0) + (0 + 2 * 0 + 0)) : Rat), F.leaky (((0 : Rat) + 2 * 1 + 0) + (0 + 2 * 0 + 0))]] [[1], [2]])) = _
    rw [hl, hl]
    rfl
  refine ⟨_, _, by unfold gatEncoder; rw [List.mapM_cons, List.mapM_nil, hg]; rfl, ?_⟩
  have ha := F.exp_pos (-1)
  have hb := F.exp_pos 0
  generalize F.exp (-1) = a at *
  generalize F.exp 0 = b at *
  have hc : 0 < 0 + a + b := by grind
  have hp : a / (0 + a + b) * (0 + a + b) = a := Rat.div_mul_cancel (by grind)
  have hcd : 0 + a + b = a + b := by grind
  rw [hcd] at hc hp ⊢
  have e : (0 + a / (a + b) * 1 + a / (a + b) * 2) * (a + b) = 3 * (a / (a + b) * (a + b)) := by
    generalize a / (a + b) = p
    grind
  refine Rat.not_le.mp fun h => ?_
  have h1 := Rat.mul_le_mul_of_nonneg_right h (Rat.le_of_lt hc)
  rw [e, hp] at h1
  grind

end

/-! ### Examples -/

/-- Two nodes with two neighbours each. -/
def C99_nodes : List (Vec Int × Mat Int) := [([2, 4], [[0, 2], [4, 6]]), ([10, 0], [[2, 2], [0, 0]])]

theorem C99_nodes_fit : ∀ n ∈ C99_nodes, n.1.length = 2 ∧ n.2.length = 2 ∧ ∀ v ∈ n.2, v.length = 2 := by decide

/-- Features and means of neighbours, halved; the nodes keep their places. -/
example : lightGcn [[[2, 4], [10, 0]], [[0, 2], [4, 6], [2, 2], [0, 0]]] [2] = some [[(2 : Int), 4], [5, 0]] ∧
    lightGcn [C99_nodes.map (·.1), (C99_nodes.map (·.2)).flatten] [2] = some (C99_nodes.map fun n => Spec.lightGcnVector 2 n.1 n.2) :=
  ⟨by decide +kernel, (C99_lightgcn_partial (by decide) (by decide) (by decide) C99_nodes_fit).1⟩

/-- Two features, the two greatest neighbours, `h` outputs in `hidden`. -/
def C99_lgcl (residual : Residual) (hidden ks : List Nat) : Lgcl Int where
  inFeatures := 2
  ks := ks
  hidden := hidden
  residual := residual
  conv _ _ := (⟨[[[1, 2], [0, 1]], [[3, 0], [1, 1]]], [1, -1], 2⟩, ⟨[[[1, 0], [2, 1]], [[0, 1], [1, -3]]], [0, 5], 2⟩)
  res _ := ([[1, 0], [0, 1]], [0, 0])
  out := ([[1, 0, 0, 1], [0, 1, 1, 0]], [3, 4])
  acts _ x := if 0 ≤ x then x else 0
  le a b := decide (a ≤ b)

theorem C99_int_linear : Spec.Linear (fun a b : Int => decide (a ≤ b)) where
  total a b := by simp; omega
  trans a b c := by simp; omega
  antisymm a b := by simp; omega

theorem C99_conv_fits (r : Residual) (hidden ks : List Nat) (l hop : Nat) : Spec.ConvFits 2 2 2 ((C99_lgcl r hidden ks).conv l hop) where
  kernel1 := rfl
  kernel2 := rfl
  middle := rfl
  bias1 := rfl
  inputs := by show ∀ m ∈ [[[(1 : Int), 2], [0, 1]], [[3, 0], [1, 1]]], m.length = 2; decide
  outputs := rfl
  bias2 := rfl
  inner := by show ∀ m ∈ [[[(1 : Int), 0], [2, 1]], [[0, 1], [1, -3]]], m.length = 2; decide

/-- Both kinds of residuals; the greatest numbers exist, and the order of the neighbours does not matter. -/
example (r : Residual) : ((C99_lgcl r [2] [2]).forward [2] [C99_nodes.map (·.1), (C99_nodes.map (·.2)).flatten] =
      some (C99_nodes.map fun n => Spec.lgclOutput (C99_lgcl r [2] [2]) 2 2 n.1
        (Spec.lgclVector ((C99_lgcl r [2] [2]).acts 0) ((C99_lgcl r [2] [2]).conv 0 0) 2 n.1 (tops (C99_lgcl r [2] [2]).le 2 2 n.2)))) ∧
    (C99_lgcl r [2] [2]).forward [2] [C99_nodes.map (·.1), (C99_nodes.map fun n => n.2.reverse).flatten] =
      (C99_lgcl r [2] [2]).forward [2] [C99_nodes.map (·.1), (C99_nodes.map (·.2)).flatten] := by
  have hout : Spec.AffineFits (2 + 2) 2 (C99_lgcl r [2] [2]).out := ⟨rfl, rfl, by
    show ∀ col ∈ [[(1 : Int), 0, 0, 1], [0, 1, 1, 0]], col.length = 4; decide⟩
  refine ⟨C99_lgcl_partial C99_int_linear (k := 2) (w := 2) (h := 2) (by decide) (by decide) (by decide) (by decide) rfl rfl rfl (C99_conv_fits _ _ _ _ _) (fun h => absurd rfl h) hout
    (by decide) C99_nodes_fit (T := fun n => tops (C99_lgcl r [2] [2]).le 2 2 n.2) ?_,
    C99_lgcl_order C99_int_linear (k := 2) (w := 2) (h := 2) (by decide) (by decide) (by decide) (by decide) rfl rfl rfl (C99_conv_fits _ _ _ _ _)
      (fun h => absurd rfl h) hout (by decide) C99_nodes_fit fun n _ => List.reverse_perm _⟩
  intro n hn
  refine ⟨by simp [tops], fun q hq => ?_⟩
  have e : (tops (C99_lgcl r [2] [2]).le 2 2 n.2).getD q [] = (sortDesc (C99_lgcl r [2] [2]).le (n.2.map fun v => v.getD q zero)).take 2 := by
    unfold tops
    rw [List.getD_eq_getElem?_getD, List.getElem?_map, List.getElem?_range hq]
    rfl
  rw [e]
  exact sortDesc_top C99_int_linear (by rw [List.length_map, (C99_nodes_fit n hn).2.1]; decide)

/-- The two nodes get different vectors. -/
example : (C99_lgcl .add [2] [2]).forward [2] [[[2, 4], [10, 0]], [[0, 2], [4, 6], [2, 2], [0, 0]]] = some [[68, 4], [96, 18]] ∧
    (C99_lgcl .concat [2] [2]).forward [2] [[[2, 4], [10, 0]], [[0, 2], [4, 6], [2, 2], [0, 0]]] = some [[73, 6], [89, 32]] :=
  ⟨by decide +kernel, by decide +kernel⟩

/-- A batch of one node: fails with concatenation only. -/
example : (C99_lgcl .concat [2] [2]).forward [2] [[[2, 4]], [[0, 2], [4, 6]]] = none ∧
    (C99_lgcl .add [2] [2]).forward [2] [[[2, 4]], [[0, 2], [4, 6]]] = some [[68, 4]] :=
  ⟨C99_lgcl_single_refuted rfl 2 [2, 4] [[0, 2], [4, 6]], by decide +kernel⟩

/-- A single output: the convolutions alone succeed, the encoder does not. -/
example : (({ C99_lgcl .add [1] [2] with
      conv := fun _ _ => (⟨[[[1, 2], [0, 1]]], [1], 2⟩, ⟨[[[1, 0]]], [0], 2⟩), res := fun _ => ([[1, 1]], [0]) } : Lgcl Int).convolve 0 0 2 2 [2, 4] [[0, 2], [4, 6]]).isSome = true ∧
    ({ C99_lgcl .add [1] [2] with
      conv := fun _ _ => (⟨[[[1, 2], [0, 1]]], [1], 2⟩, ⟨[[[1, 0]]], [0], 2⟩), res := fun _ => ([[1, 1]], [0]) } : Lgcl Int).forward [2]
        [[[2, 4], [10, 0]], [[0, 2], [4, 6], [2, 2], [0, 0]]] = none :=
  ⟨by decide +kernel, C99_lgcl_hidden_refuted rfl rfl 2 (by simp) _⟩

/-- Four neighbours of two nodes, with two neighbours each. -/
def C99_second : List (Vec Int × Mat Int) :=
  [([2, 4], [[0, 2], [4, 6]]), ([10, 0], [[2, 2], [0, 0]]), ([1, 1], [[2, 2], [0, 0]]), ([0, 0], [[2, 2], [0, 7]])]

/-- Two layers with two features and two outputs each. -/
example : (C99_lgcl .add [2, 2] [2, 2]).forward [2, 2] [[[1, 1], [2, 2]], C99_second.map (·.1), (C99_second.map (·.2)).flatten] = none :=
  C99_lgcl_layers_refuted (k := 2) (w := 2) (own := [[1, 1], [2, 2]]) (nodes := C99_second) (by decide) (by decide) (by decide) rfl rfl rfl
    (C99_conv_fits _ _ _ _ _) (by decide) (by decide) (by decide) (by decide)

/-- Two kinds of neighbours and two outputs. -/
def C99_het : Het Int := ⟨2, 2, ([], []), [1, 0, 2, -1], 0, id⟩

def C99_kinds : List (Vec Int × List (Vec Int)) := [([1, 2], [[3, 4], [5, 6]]), ([0, 1], [[2, 1], [1, 1]])]

example : C99_het.forward [fun _ s => s[0]?, fun _ s => s[0]?] [[[[1, 2], [0, 1]]], [[[3, 4], [2, 1]]], [[[5, 6], [1, 1]]]] =
    some (C99_kinds.map fun n => Spec.hetVector C99_het n.1 n.2) :=
  C99_hetgnn_partial (w := 2) (m := 2) (by decide) (fun h => absurd rfl h) rfl (by decide) (by decide) rfl rfl (by
    intro i enc he
    match i with
    | 0 => cases he; exact ⟨_, rfl, rfl⟩
    | 1 => cases he; exact ⟨_, rfl, rfl⟩
    | n + 2 => simp at he)

/-- Three outputs: bi-LSTMs with two. -/
def C99_odd : Het Int := ⟨3, 3, ([], []), [1, 0, 2, -1, 1, 1], 0, id⟩

def C99_odd_nodes : List (Vec Int × Mat Int) := [([1, 2, 3], [[4, 5, 6]])]

def C99_bilstm : List (Mat Int) → List (Mat Int) → Option (Mat Int) :=
  fun s0 s => lstmEmbed (fun l => l.map fun v => v.take 2) (C99_odd.outDim / 2) 1 (s0.headD []) (s.headD [])

example : C99_odd.forward [C99_bilstm, C99_bilstm] ([C99_odd_nodes.map (·.1)] :: [(C99_odd_nodes.map (·.2)).flatten] :: [[[[7, 8, 9]]]]) = none ∧
    C99_odd.forward [C99_bilstm] [[[[1, 2, 3]]], [[[4, 5, 6]]]] = some [[2, 3]] := by
  refine ⟨?_, by decide +kernel⟩
  have h := (C99_hetgnn_odd_refuted (e := C99_odd) (d := 1) (w := 3) (f := 1) rfl (by decide) (by decide)
    (fun h => absurd rfl h) (fun l => l.map fun v => v.take 2) (nodes := C99_odd_nodes) (by decide) (by decide) C99_bilstm [] [[[[7, 8, 9]]]]).1
  exact h

/-- Functions with the values asked for. -/
@[instance_reducible] def C99_funs : Spec.RealFuns where
  exp x := if x < 0 then 1 else 3
  leaky x := if 0 ≤ x then x else x / 5
  elu x := x
  rsqrt x := x
  exp_pos x := by
    show (0 : Rat) < if x < 0 then 1 else 3
    split <;> decide +kernel

example : (∀ x, 0 ≤ x → C99_funs.leaky x = x) ∧ 2 * C99_funs.exp (-1) < C99_funs.exp 0 :=
  ⟨fun x h => if_pos h, by decide +kernel⟩

/-- The averages of HetGNN, and the sums of the GAT encoder for two sequences. -/
example : letI := C99_funs; ∀ kinds : List (Vec Rat), (∀ v ∈ [3, 4] :: kinds, 1 ≤ v.getD 0 0 ∧ v.getD 0 0 ≤ 7) →
    (1 : Rat) ≤ (Spec.hetVector ⟨2, 2, ([], []), [1, 0, 2, -1], 0, id⟩ [3, 4] kinds).getD 0 0 :=
  fun kinds h => letI := C99_funs
    (C99_hetgnn_average (q := 0) ⟨2, 2, ([], []), [1, 0, 2, -1], 0, id⟩ (by decide) rfl kinds 1 7 h).1

example : letI := C99_funs; Spec.HeadFits 2 1 (⟨[[1, 2]], [1], 0, [1], 1, [0]⟩ : Head Rat) ∧
    ∀ seq ∈ ([[[1, 2], [3, 4]], [[0, 5]]] : List (Mat Rat)), ∀ v ∈ seq, v.length = 2 :=
  ⟨⟨rfl, by intro col hc; rw [List.mem_singleton.mp hc]; rfl, rfl, rfl, rfl⟩, by decide⟩

end DeepGNN
