import Verif.Spec.Encoders
import Verif.Proofs.Average

namespace DeepGNN.Encoders

open DeepGNN.Sage DeepGNN.Gat DeepGNN.Han Arith Analysis

section
variable {α : Type} [Analysis α]

theorem width_of {w : Nat} {t : Mat α} (hne : t ≠ []) (h : ∀ v ∈ t, v.length = w) : width t = w := by
  cases t with
  | nil => exact absurd rfl hne
  | cons v t => exact h v List.mem_cons_self

theorem below_rows {f w : Nat} {nodes : List (Vec α × Mat α)} (hs : ∀ n ∈ nodes, n.1.length = w ∧ n.2.length = f ∧ ∀ v ∈ n.2, v.length = w) :
    ∀ v ∈ (nodes.map (·.2)).flatten, v.length = w := by
  intro v hv
  obtain ⟨g, hg, hv⟩ := List.mem_flatten.mp hv
  obtain ⟨n, hn, rfl⟩ := List.mem_map.mp hg
  exact (hs n hn).2.2 v hv

theorem below_width {f w : Nat} (hf : 0 < f) {nodes : List (Vec α × Mat α)} (hne : nodes ≠ [])
    (hs : ∀ n ∈ nodes, n.1.length = w ∧ n.2.length = f ∧ ∀ v ∈ n.2, v.length = w) : width (nodes.map (·.2)).flatten = w := by
  apply width_of _ (below_rows hs)
  cases nodes with
  | nil => exact absurd rfl hne
  | cons n nodes =>
    have := (hs n List.mem_cons_self).2.1
    intro h
    rw [List.map_cons, List.flatten_cons, List.append_eq_nil_iff] at h
    rw [h.1] at this
    simp at this
    omega

theorem own_width {f w : Nat} {nodes : List (Vec α × Mat α)} (hne : nodes ≠ [])
    (hs : ∀ n ∈ nodes, n.1.length = w ∧ n.2.length = f ∧ ∀ v ∈ n.2, v.length = w) : width (nodes.map (·.1)) = w := by
  apply width_of (by simpa using hne)
  intro v hv
  obtain ⟨n, hn, rfl⟩ := List.mem_map.mp hv
  exact (hs n hn).1

theorem below_reshape {f w : Nat} (hf : 0 < f) (hw : 0 < w) {nodes : List (Vec α × Mat α)}
    (hs : ∀ n ∈ nodes, n.1.length = w ∧ n.2.length = f ∧ ∀ v ∈ n.2, v.length = w) :
    reshape f w (nodes.map (·.2)).flatten = some (nodes.map (·.2)) :=
  reshape_flatten hf hw fun p hp => by
    obtain ⟨n, hn, rfl⟩ := List.mem_map.mp hp
    exact (hs n hn).2

theorem zipWith_map_same {β γ δ ε : Type} (F : γ → δ → ε) (g : β → γ) (k : β → δ) (l : List β) :
    List.zipWith F (l.map g) (l.map k) = l.map fun x => F (g x) (k x) := zipWith_maps F g k l

theorem zip_map_same {β γ δ : Type} (g : β → γ) (k : β → δ) : ∀ l : List β, (l.map g).zip (l.map k) = l.map fun x => (g x, k x)
  | [] => rfl
  | x :: l => by simp [zip_map_same g k l]

theorem lightGcn_eq {f w : Nat} (hf : 0 < f) (hw : 0 < w) {nodes : List (Vec α × Mat α)} (hne : nodes ≠ [])
    (hs : ∀ n ∈ nodes, n.1.length = w ∧ n.2.length = f ∧ ∀ v ∈ n.2, v.length = w) :
    lightGcn [nodes.map (·.1), (nodes.map (·.2)).flatten] [f] = some (nodes.map fun n => Spec.lightGcnVector w n.1 n.2) := by
  unfold lightGcn
  simp only [List.getElem?_cons_zero, List.getElem?_cons_succ, Option.bind_some, below_width hf hne hs, below_reshape hf hw hs]
  rw [if_pos]
  · rw [List.map_map, zipWith_map_same]
    rfl
  · refine ⟨by simp, List.all_eq_true.mpr fun v hv => ?_⟩
    obtain ⟨n, hn, rfl⟩ := List.mem_map.mp hv
    simpa using (hs n hn).1

/-! ### LGCL -/

theorem insertDesc_perm (le : α → α → Bool) (x : α) : ∀ l : List α, (insertDesc le x l).Perm (x :: l)
  | [] => List.Perm.refl _
  | y :: l => by
    unfold insertDesc
    split
    · exact List.Perm.refl _
    · exact ((insertDesc_perm le x l).cons y).trans (List.Perm.swap x y l)

theorem sortDesc_perm (le : α → α → Bool) : ∀ l : List α, (sortDesc le l).Perm l
  | [] => List.Perm.refl _
  | x :: l => (insertDesc_perm le x _).trans ((sortDesc_perm le l).cons x)

theorem insertDesc_sorted {le : α → α → Bool} (hle : Spec.Linear le) (x : α) : ∀ {l : List α}, l.Pairwise (fun a b => le b a) →
    (insertDesc le x l).Pairwise (fun a b => le b a)
  | [], _ => by simp [insertDesc]
  | y :: l, h => by
    unfold insertDesc
    obtain ⟨h1, h2⟩ := List.pairwise_cons.mp h
    split
    · rename_i hyx
      refine List.pairwise_cons.mpr ⟨fun z hz => ?_, h⟩
      rcases List.mem_cons.mp hz with rfl | hz
      · exact hyx
      · exact hle.trans _ _ _ (h1 z hz) hyx
    · rename_i hyx
      refine List.pairwise_cons.mpr ⟨fun z hz => ?_, insertDesc_sorted hle x h2⟩
      rcases List.mem_cons.mp ((insertDesc_perm le x l).mem_iff.mp hz) with rfl | hz
      · exact (hle.total _ _).resolve_left hyx
      · exact h1 z hz

theorem sortDesc_sorted {le : α → α → Bool} (hle : Spec.Linear le) : ∀ l : List α, (sortDesc le l).Pairwise (fun a b => le b a)
  | [] => List.Pairwise.nil
  | x :: l => insertDesc_sorted hle x (sortDesc_sorted hle l)

theorem sortDesc_order {le : α → α → Bool} (hle : Spec.Linear le) {l m : List α} (h : l.Perm m) : sortDesc le l = sortDesc le m :=
  List.Perm.eq_of_pairwise (le := fun a b => le b a) (fun a b _ _ hab hba => hle.antisymm a b hba hab) (sortDesc_sorted hle l)
    (sortDesc_sorted hle m) (((sortDesc_perm le l).trans h).trans (sortDesc_perm le m).symm)

theorem sortDesc_length (le : α → α → Bool) (l : List α) : (sortDesc le l).length = l.length := (sortDesc_perm le l).length_eq

theorem sortDesc_top {le : α → α → Bool} (hle : Spec.Linear le) {k : Nat} {l : List α} (hk : k ≤ l.length) :
    Spec.IsTop le k l ((sortDesc le l).take k) := by
  have h := sortDesc_sorted hle l
  rw [← List.take_append_drop k (sortDesc le l), List.pairwise_append] at h
  refine ⟨by rw [List.length_take, sortDesc_length]; omega, h.1, (sortDesc le l).drop k, ?_, h.2.2⟩
  rw [List.take_append_drop]
  exact sortDesc_perm le l

/-- The top values are determined. -/
theorem top_unique {le : α → α → Bool} (hle : Spec.Linear le) {k : Nat} {l top : List α} (h : Spec.IsTop le k l top) :
    top = (sortDesc le l).take k := by
  obtain ⟨h1, h2, rest, h3, h4⟩ := h
  have h5 : sortDesc le l = top ++ sortDesc le rest :=
    List.Perm.eq_of_pairwise (le := fun a b => le b a) (fun a b _ _ hab hba => hle.antisymm a b hba hab) (sortDesc_sorted hle l)
      (List.pairwise_append.mpr ⟨h2, sortDesc_sorted hle rest, fun a ha b hb => h4 a ha b ((sortDesc_perm le rest).mem_iff.mp hb)⟩)
      ((sortDesc_perm le l).trans (h3.symm.trans ((sortDesc_perm le rest).symm.append_left top)))
  rw [h5, ← h1, List.take_left']
  rfl

/-- The greatest numbers for every feature. -/
def tops (le : α → α → Bool) (k w : Nat) (g : Mat α) : Mat α :=
  (List.range w).map fun q => (sortDesc le (g.map fun v => v.getD q zero)).take k

theorem map_range_getD {β : Type} (d : β) : ∀ (l : List β) (k : Nat), k ≤ l.length → (List.range k).map (fun j => l.getD j d) = l.take k := by
  intro l k h
  apply List.ext_getElem?
  intro i
  by_cases hi : i < k
  · rw [List.getElem?_map, List.getElem?_range hi, List.getElem?_take, if_pos hi, Option.map_some, List.getD_eq_getElem?_getD,
      List.getElem?_eq_getElem (by omega)]
    rfl
  · rw [List.getElem?_eq_none (by simp; omega), List.getElem?_eq_none (by simp; omega)]

theorem zipWith_cons_range {w : Nat} {x : Vec α} (hx : x.length = w) (F : Nat → Vec α) :
    List.zipWith (· :: ·) x ((List.range w).map F) = (List.range w).map fun q => x.getD q zero :: F q := by
  apply List.ext_getElem?
  intro i
  rw [List.getElem?_zipWith, List.getElem?_map, List.getElem?_map]
  by_cases hi : i < w
  · rw [List.getElem?_range hi, List.getElem?_eq_getElem (by omega), Option.map_some, Option.map_some, List.getD_eq_getElem?_getD,
      List.getElem?_eq_getElem (by omega)]
    rfl
  · rw [List.getElem?_eq_none (by omega), List.getElem?_eq_none (l := List.range w) (by simp; omega)]
    rfl

theorem topK_eq {le : α → α → Bool} {k w : Nat} {x : Vec α} {g : Mat α} (hx : x.length = w) (hk : k ≤ g.length) :
    ((topK le k w g).map fun top => transpose w (x :: top)) = some (List.zipWith (· :: ·) x (tops le k w g)) := by
  unfold topK tops
  rw [if_pos hk, Option.map_some, zipWith_cons_range hx]
  congr 1
  unfold transpose
  apply List.map_congr_left
  intro q hq
  rw [List.map_cons, List.map_map]
  congr 1
  rw [← map_range_getD zero _ k (by rw [sortDesc_length, List.length_map]; exact hk)]
  apply List.map_congr_left
  intro j _
  show ((List.range w).map fun q => (sortDesc le (g.map fun v => v.getD q zero)).getD j zero).getD q zero = _
  rw [List.getD_eq_getElem?_getD, List.getElem?_map, List.getElem?_range (List.mem_range.mp hq)]
  rfl

theorem mem_zipWith {β γ δ : Type} {F : β → γ → δ} : ∀ {l : List β} {m : List γ} {r : δ}, r ∈ List.zipWith F l m → ∃ a b, F a b = r
  | [], _, _, h => by simp at h
  | _ :: _, [], _, h => by simp at h
  | a :: l, b :: m, r, h => by
    rcases List.mem_cons.mp h with h | h
    · exact ⟨a, b, h.symm⟩
    · exact mem_zipWith h

theorem conv_eq {c : Conv α} {n len : Nat} {x : Mat α} (hw : width x = len) (hlen : c.kernel ≤ len) (hn : x.length = n) (hc : ∀ m ∈ c.w, m.length = n) :
    c.apply x = some (List.zipWith (fun m b => (List.range (len - c.kernel + 1)).map fun t =>
      add (total (List.zipWith mul m.flatten (x.map fun ch => (ch.drop t).take c.kernel).flatten)) b) c.w c.b) := by
  unfold Conv.apply
  rw [if_neg, hw]
  rintro (h | h)
  · omega
  · obtain ⟨m, hm, h⟩ := List.any_eq_true.mp h
    rw [hc m hm, hn] at h
    simp at h

theorem convolve_eq {e : Lgcl α} {l hop k w h : Nat} (hw : 0 < w) (hh : 0 < h) (hc : Spec.ConvFits w k h (e.conv l hop)) {x : Vec α} {g : Mat α}
    (hx : x.length = w) (hk : k ≤ g.length) : e.convolve l hop k w x g =
      some ((Spec.lgclVector (e.acts l) (e.conv l hop) k x (tops e.le k w g)).map fun v => [v]) := by
  have h1 := topK_eq (le := e.le) hx hk
  unfold Lgcl.convolve
  obtain ⟨top, ht⟩ : ∃ top, topK e.le k w g = some top := by
    unfold topK; rw [if_pos hk]; exact ⟨_, rfl⟩
  rw [ht, Option.map_some] at h1
  rw [ht, Option.bind_some, Option.some.inj h1]
  have hk1 : (kernels k).1 = (k + 1) / 2 + 1 := rfl
  have hk2 : (kernels k).2 = k / 2 + 1 := rfl
  have hin : ∀ s ∈ List.zipWith (· :: ·) x (tops e.le k w g), s.length = k + 1 := by
    intro s hs
    rw [tops, zipWith_cons_range hx] at hs
    obtain ⟨q, _, rfl⟩ := List.mem_map.mp hs
    rw [List.length_cons, List.length_take, sortDesc_length, List.length_map]
    omega
  have hlen : (List.zipWith (· :: ·) x (tops e.le k w g)).length = w := by simp [tops, hx]
  have hwid : width (List.zipWith (· :: ·) x (tops e.le k w g)) = k + 1 := width_of (by
    intro h0; rw [h0] at hlen; simp at hlen; omega) hin
  rw [conv_eq (len := k + 1) (n := w) hwid (by rw [hc.kernel1, hk1]; omega) hlen hc.inputs, Option.bind_some]
  have e1 : k + 1 - (e.conv l hop).1.kernel + 1 = k / 2 + 1 := by rw [hc.kernel1, hk1]; omega
  rw [e1, List.map_zipWith, hc.kernel1, hk1]
  have e2 : ∀ (b : α) (m : Mat α), List.map (e.acts l) ((List.range (k / 2 + 1)).map fun t =>
      add (total (List.zipWith mul m.flatten ((List.zipWith (· :: ·) x (tops e.le k w g)).map fun ch => (ch.drop t).take ((k + 1) / 2 + 1)).flatten)) b) =
      (List.range (k / 2 + 1)).map fun t => e.acts l
      (add (total (List.zipWith mul m.flatten ((List.zipWith (· :: ·) x (tops e.le k w g)).map fun ch => (ch.drop t).take ((k + 1) / 2 + 1)).flatten)) b) := by
    intro b m; rw [List.map_map]; rfl
  simp only [e2]
  generalize hmid : List.zipWith (fun (m : Mat α) b => (List.range (k / 2 + 1)).map fun t => e.acts l
      (add (total (List.zipWith mul m.flatten ((List.zipWith (· :: ·) x (tops e.le k w g)).map fun ch => (ch.drop t).take ((k + 1) / 2 + 1)).flatten)) b))
      (e.conv l hop).1.w (e.conv l hop).1.b = mid
  have hml : mid.length = (w + h) / 2 := by rw [← hmid, List.length_zipWith, hc.bias1, hc.middle, Nat.min_self]
  have hmr : ∀ r ∈ mid, r.length = k / 2 + 1 := by
    intro r hr
    rw [← hmid] at hr
    obtain ⟨m, b, rfl⟩ := mem_zipWith hr
    simp
  have hmw : width mid = k / 2 + 1 := width_of (by intro h0; rw [h0] at hml; simp at hml; omega) hmr
  rw [conv_eq (len := k / 2 + 1) (n := (w + h) / 2) hmw (by rw [hc.kernel2, hk2]; omega) hml hc.inner, Option.map_some, hc.kernel2, hk2,
    List.map_zipWith]
  have e3 : (mid.map fun ch => (ch.drop 0).take (k / 2 + 1)) = mid := by
    conv => rhs; rw [← List.map_id mid]
    apply List.map_congr_left
    intro r hr
    rw [List.drop_zero, List.take_of_length_le (by rw [hmr r hr]; omega)]
    rfl
  unfold Spec.lgclVector
  simp only [hmid]
  rw [List.map_zipWith]
  simp only [Nat.sub_self, Nat.zero_add, List.range_one, List.map_cons, List.map_nil, e3]

theorem lgclVector_length (act : α → α) {c : Conv α × Conv α} {w k h : Nat} (hc : Spec.ConvFits w k h c) (x : Vec α) (t : Mat α) :
    (Spec.lgclVector act c k x t).length = h := by
  unfold Spec.lgclVector
  simp [hc.outputs, hc.bias2]

theorem squeeze_eq {h : Nat} (hh : 2 ≤ h) {β : Type} {nodes : List β} (hn : 2 ≤ nodes.length) (F : β → Vec α) :
    squeeze h (nodes.map fun n => (F n).map fun v => [v]) = some (.mat (nodes.map F)) := by
  unfold squeeze
  rw [if_neg]
  · have e : ∀ l : Vec α, (l.map fun v => [v]).flatten = l := by
      intro l; induction l with
      | nil => rfl
      | cons a l ih => rw [List.map_cons, List.flatten_cons, ih]; rfl
    have e2 : (nodes.map fun n => (F n).map fun v => [v]).map List.flatten = nodes.map F := by
      rw [List.map_map]
      apply List.map_congr_left
      intro n _
      exact e _
    simp only [e2, List.length_map]
    rw [if_neg (by omega), if_neg (by omega)]
  · intro h1
    obtain ⟨m, hm, h1⟩ := List.any_eq_true.mp h1
    obtain ⟨n, _, rfl⟩ := List.mem_map.mp hm
    obtain ⟨r, hr, h1⟩ := List.any_eq_true.mp h1
    obtain ⟨v, _, rfl⟩ := List.mem_map.mp hr
    simp at h1

theorem linear_eq {w h : Nat} {m : Mat α × Vec α} (hm : Spec.AffineFits w h m) {x : Vec α} (hx : x.length = w) : linear m x = some (Spec.affine m x) := by
  unfold linear
  rw [dense_eq (by intro col hc; rw [hm.2.2 col hc, hx])]
  rfl

theorem affine_length {w h : Nat} {m : Mat α × Vec α} (hm : Spec.AffineFits w h m) (x : Vec α) : (Spec.affine m x).length = h := by
  unfold Spec.affine
  rw [List.length_zipWith, Han.linear_length, hm.1, hm.2.1, Nat.min_self]

theorem addTensor_eq {β : Type} {nodes : List β} {h : Nat} {F G : β → Vec α} (hF : ∀ n ∈ nodes, (F n).length = h) (hG : ∀ n ∈ nodes, (G n).length = h) :
    addTensor (.mat (nodes.map F)) (nodes.map G) = some (nodes.map fun n => List.zipWith add (F n) (G n)) := by
  show (if (nodes.map F).length = (nodes.map G).length then ((nodes.map F).zip (nodes.map G)).mapM fun p => addRow p.1 p.2 else _) = _
  rw [if_pos (by simp), zip_map_same, mapM_map (g := fun p => List.zipWith add p.1 p.2)]
  · rw [List.map_map]; rfl
  · intro p hp
    obtain ⟨n, hn, rfl⟩ := List.mem_map.mp hp
    unfold addRow
    rw [if_pos (by rw [hF n hn, hG n hn])]

/-- The convolutions of all nodes of a hop. -/
theorem hop_eq {e : Lgcl α} {l hop k w h f : Nat} (hw : 0 < w) (hh : 2 ≤ h) (hc : Spec.ConvFits w k h (e.conv l hop)) (hk : k ≤ f)
    {nodes : List (Vec α × Mat α)} (hn : 2 ≤ nodes.length)
    (hs : ∀ n ∈ nodes, n.1.length = w ∧ n.2.length = f ∧ ∀ v ∈ n.2, v.length = w) :
    ((((nodes.map (·.1)).zip (nodes.map (·.2))).mapM fun p => e.convolve l hop k w p.1 p.2).bind fun t => squeeze h t) =
      some (.mat (nodes.map fun n => Spec.lgclVector (e.acts l) (e.conv l hop) k n.1 (tops e.le k w n.2))) := by
  rw [zip_map_same, mapM_map (g := fun p => (Spec.lgclVector (e.acts l) (e.conv l hop) k p.1 (tops e.le k w p.2)).map fun v => [v])]
  · rw [Option.bind_some, List.map_map]
    exact squeeze_eq hh hn fun n : Vec α × Mat α => Spec.lgclVector (e.acts l) (e.conv l hop) k n.1 (tops e.le k w n.2)
  · intro p hp
    obtain ⟨n, hn', rfl⟩ := List.mem_map.mp hp
    obtain ⟨h1, h2, _⟩ := hs n hn'
    exact convolve_eq hw (by omega) hc h1 (by rw [h2]; exact hk)

theorem lgcl_eq {e : Lgcl α} {k w h f : Nat} (hw : 0 < w) (hh : 2 ≤ h) (hf : 0 < f) (hk : k ≤ f) (hks : e.ks = [k]) (hhid : e.hidden = [h])
    (hin : e.inFeatures = w) (hc : Spec.ConvFits w k h (e.conv 0 0)) (hres : w ≠ h → Spec.AffineFits w h (e.res 0))
    (hout : Spec.AffineFits (h + w) h e.out) {nodes : List (Vec α × Mat α)} (hn : 2 ≤ nodes.length)
    (hs : ∀ n ∈ nodes, n.1.length = w ∧ n.2.length = f ∧ ∀ v ∈ n.2, v.length = w) :
    e.forward [f] [nodes.map (·.1), (nodes.map (·.2)).flatten] =
      some (nodes.map fun n => Spec.lgclOutput e w h n.1 (Spec.lgclVector (e.acts 0) (e.conv 0 0) k n.1 (tops e.le k w n.2))) := by
  have hne : nodes ≠ [] := by intro h0; rw [h0] at hn; simp at hn
  have hv := fun n : Vec α × Mat α => lgclVector_length (e.acts 0) hc n.1 (tops e.le k w n.2)
  have hsq := hop_eq (e := e) (l := 0) (hop := 0) hw hh hc hk hn hs
  have hstep : e.step [f] 0 [nodes.map (·.1), (nodes.map (·.2)).flatten] 0 = match e.residual with
      | .add => some (nodes.map fun n => List.zipWith add (Spec.lgclVector (e.acts 0) (e.conv 0 0) k n.1 (tops e.le k w n.2))
          (if w = h then n.1 else Spec.affine (e.res 0) n.1))
      | .concat => some (nodes.map fun n => Spec.lgclVector (e.acts 0) (e.conv 0 0) k n.1 (tops e.le k w n.2) ++ n.1) := by
    unfold Lgcl.step
    simp only [List.getElem?_cons_zero, List.getElem?_cons_succ, Option.bind_some, hks, hhid, Nat.zero_add, below_width hf hne hs,
      below_reshape hf hw hs]
    rw [if_neg (by simp), ← Option.bind_assoc, hsq, Option.bind_some]
    cases hr : e.residual with
    | add =>
      simp only [Squeezed.lastDim, Option.bind_some]
      rw [own_width hne hs, width_of (w := h) (by simpa using hne) (by
        intro v hv'
        obtain ⟨n, _, rfl⟩ := List.mem_map.mp hv'
        exact hv n)]
      by_cases hwh : w = h
      · rw [if_neg (by omega)]
        simp only [if_pos hwh]
        exact addTensor_eq (fun n _ => hv n) fun n hn' => by rw [(hs n hn').1, hwh]
      · rw [if_pos hwh, if_pos (by simp only [Lgcl.inDim, hr, hin]; simpa using hwh), mapM_map (g := Spec.affine (e.res 0))]
        · rw [Option.bind_some, List.map_map]
          simp only [if_neg hwh]
          exact addTensor_eq (fun n _ => hv n) fun n hn' => affine_length (hres hwh) _
        · intro x hx
          obtain ⟨n, hn', rfl⟩ := List.mem_map.mp hx
          exact linear_eq (hres hwh) (hs n hn').1
    | concat =>
      simp only [catTensor]
      rw [if_pos (by simp), zipWith_map_same]
  unfold Lgcl.forward
  have hloop : e.loop [f] [f].length 0 [nodes.map (·.1), (nodes.map (·.2)).flatten] =
      (e.step [f] 0 [nodes.map (·.1), (nodes.map (·.2)).flatten] 0).map fun r => [r] := by
    show ((List.range (0 + 1)).mapM (e.step [f] 0 _)).bind (Lgcl.loop e [f] 0 1) = _
    rw [Nat.zero_add, List.range_one, List.mapM_cons, List.mapM_nil]
    cases e.step [f] 0 [nodes.map (·.1), (nodes.map (·.2)).flatten] 0 <;> rfl
  rw [hloop, hstep, hks, hhid]
  unfold Spec.lgclOutput
  cases hr : e.residual with
  | add =>
    simp only [Option.map_some, Option.bind_some, List.getElem?_cons_zero]
    rw [width_of (w := h) (by simpa using hne), if_neg]
    · simp
    · intro v hv'
      obtain ⟨n, hn', rfl⟩ := List.mem_map.mp hv'
      rw [List.length_zipWith, hv n]
      split
      · rename_i hwh; rw [(hs n hn').1, hwh, Nat.min_self]
      · rename_i hwh; rw [affine_length (hres hwh), Nat.min_self]
  | concat =>
    simp only [Option.map_some, Option.bind_some, List.getElem?_cons_zero]
    rw [width_of (w := h + w) (by simpa using hne), if_pos (by simp; omega), if_pos]
    · rw [mapM_map (g := Spec.affine e.out)]
      · simp only [Option.map_some, List.map_map]
        simp
      · intro x hx
        obtain ⟨n, hn', rfl⟩ := List.mem_map.mp hx
        exact linear_eq hout (by rw [List.length_append, hv n, (hs n hn').1])
    · simp only [Lgcl.inDim, hr, hin, hhid]
      simp
      omega
    · intro v hv'
      obtain ⟨n, hn', rfl⟩ := List.mem_map.mp hv'
      rw [List.length_append, hv n, (hs n hn').1]

/-! ### Batches and sizes LGCL does not accept -/

/-- One layer of LGCL. -/
theorem lgcl_one (e : Lgcl α) (f : Nat) (samples : List (Mat α)) : e.forward [f] samples =
    (e.step [f] 0 samples 0).bind fun first =>
      if width first ≠ e.hidden.getLastD 0 then
        if e.inDim e.ks.length ≠ e.hidden.getLastD 0 then
          (first.mapM (linear e.out)).map fun r => r.map fun v => v.map (e.acts (e.hidden.length - 1))
        else none
      else some first := by
  unfold Lgcl.forward
  have hloop : e.loop [f] [f].length 0 samples = (e.step [f] 0 samples 0).map fun r => [r] := by
    show ((List.range (0 + 1)).mapM (e.step [f] 0 _)).bind (Lgcl.loop e [f] 0 1) = _
    rw [Nat.zero_add, List.range_one, List.mapM_cons, List.mapM_nil]
    cases e.step [f] 0 samples 0 <;> rfl
  rw [hloop]
  cases e.step [f] 0 samples 0 <;> rfl

theorem squeeze_flat {h : Nat} {t : List (Mat α)} {s : Squeezed α} (hs : squeeze h t = some s) (hb : t.length = 1 ∨ h = 1) :
    (∃ a, s = .scalar a ∧ t.length = 1 ∧ h = 1) ∨ ∃ v, s = .vec v ∧ (t.length ≠ 1 → v.length = t.length) := by
  unfold squeeze at hs
  split at hs
  · cases hs
  · simp only [List.length_map] at hs
    by_cases h1 : t.length = 1
    · rw [if_pos h1] at hs
      by_cases h2 : h = 1
      · rw [if_pos h2] at hs
        exact .inl ⟨_, (Option.some.inj hs).symm, h1, h2⟩
      · rw [if_neg h2] at hs
        exact .inr ⟨_, (Option.some.inj hs).symm, fun h => absurd h1 h⟩
    · rw [if_neg h1, if_pos (hb.resolve_left h1)] at hs
      exact .inr ⟨_, (Option.some.inj hs).symm, fun _ => by simp⟩

theorem mapM_length_eq {β γ : Type} {F : β → Option γ} : ∀ {l : List β} {r : List γ}, l.mapM F = some r → r.length = l.length
  | [], _, h => by cases Option.some.inj h; rfl
  | x :: l, r, h => by
    rw [List.mapM_cons] at h
    obtain ⟨y, _, h⟩ := Option.bind_eq_some_iff.mp h
    obtain ⟨ys, hys, h⟩ := Option.bind_eq_some_iff.mp h
    rw [← Option.some.inj h, List.length_cons, List.length_cons, mapM_length_eq hys]

theorem lgcl_concat_single {e : Lgcl α} (hr : e.residual = .concat) (f : Nat) (x : Vec α) (neigh : Mat α) : e.forward [f] [[x], neigh] = none := by
  rw [lgcl_one]
  have : e.step [f] 0 [[x], neigh] 0 = none := by
    unfold Lgcl.step
    simp only [List.getElem?_cons_zero, List.getElem?_cons_succ, Option.bind_some, Nat.zero_add]
    cases hk : e.ks[0]? with
    | none => rfl
    | some k =>
    cases hh : e.hidden[0]? with
    | none => rfl
    | some h =>
    simp only [Option.bind_some]
    cases hg : reshape f (width neigh) neigh with
    | none => rfl
    | some groups =>
    simp only [Option.bind_some]
    by_cases hl : groups.length ≠ [x].length
    · rw [if_pos hl]
    · rw [if_neg hl]
      have hl : groups.length = 1 := by simpa using hl
      cases ht : ([x].zip groups).mapM fun p => e.convolve 0 0 k (width neigh) p.1 p.2 with
      | none => rfl
      | some t =>
      simp only [Option.bind_some]
      have htl : t.length = 1 := by rw [mapM_length_eq ht, List.length_zip, hl]; rfl
      cases hs : squeeze h t with
      | none => rfl
      | some s =>
      rw [Option.bind_some, hr]
      rcases squeeze_flat hs (.inl htl) with ⟨a, rfl, _⟩ | ⟨v, rfl, _⟩ <;> rfl
  rw [this]
  rfl

theorem lgcl_hidden_one {e : Lgcl α} (hh : e.hidden = [1]) (hks : e.ks.length = 1) (f : Nat) {own : Mat α} (hne : own ≠ []) (neigh : Mat α) :
    e.forward [f] [own, neigh] = none := by
  rw [lgcl_one]
  have hstep : ∀ first, e.step [f] 0 [own, neigh] 0 = some first → e.residual = .add ∧ own.length ≠ 1 ∧ width first = own.length := by
    intro first hf
    unfold Lgcl.step at hf
    simp only [List.getElem?_cons_zero, List.getElem?_cons_succ, Option.bind_some, Nat.zero_add, hh] at hf
    obtain ⟨k, hk, hf⟩ := Option.bind_eq_some_iff.mp hf
    obtain ⟨groups, hg, hf⟩ := Option.bind_eq_some_iff.mp hf
    by_cases hl : groups.length ≠ own.length
    · rw [if_pos hl] at hf; cases hf
    · rw [if_neg hl] at hf
      obtain ⟨t, ht, hf⟩ := Option.bind_eq_some_iff.mp hf
      obtain ⟨s, hs, hf⟩ := Option.bind_eq_some_iff.mp hf
      have htl : t.length = own.length := by rw [mapM_length_eq ht, List.length_zip]; omega
      rcases squeeze_flat hs (.inr rfl) with ⟨a, rfl, h1, _⟩ | ⟨v, rfl, hv⟩
      · cases hr : e.residual <;> rw [hr] at hf <;> simp [Squeezed.lastDim, catTensor] at hf
      · cases hr : e.residual with
        | concat => rw [hr] at hf; simp [catTensor] at hf
        | add =>
          rw [hr] at hf
          simp only [Squeezed.lastDim, Option.bind_some] at hf
          have hv1 : t.length ≠ 1 := by
            intro h1
            unfold squeeze at hs
            split at hs
            · cases hs
            · simp only [List.length_map, if_pos h1, if_true] at hs
              cases hs
          rw [htl] at hv hv1
          have hv := hv hv1
          refine ⟨rfl, hv1, ?_⟩
          have hadd : ∀ m : Mat α, m.length = own.length → addTensor (.vec v) m = some first → width first = own.length := by
            intro m hm ha
            have ha : (m.mapM fun r => addRow v r) = some first := ha
            have hfl := mapM_length_eq ha
            have hrow : ∀ r : Vec α, ∀ u, addRow v r = some u → u.length = own.length := by
              intro r u hu
              unfold addRow at hu
              split at hu
              · rename_i he
                rw [← Option.some.inj hu, List.length_zipWith]; omega
              · split at hu
                · rw [← Option.some.inj hu, List.length_map]; exact hv
                · rw [if_neg (by omega)] at hu; cases hu
            cases m with
            | nil =>
              cases own with
              | nil => exact absurd rfl hne
              | cons => simp at hm
            | cons r m =>
              rw [List.mapM_cons] at ha
              obtain ⟨u, hu, ha⟩ := Option.bind_eq_some_iff.mp ha
              obtain ⟨us, hus, ha⟩ := Option.bind_eq_some_iff.mp ha
              rw [← Option.some.inj ha]
              exact hrow r u hu
          split at hf
          · split at hf
            · obtain ⟨r, hr', hf⟩ := Option.bind_eq_some_iff.mp hf
              exact hadd r (mapM_length_eq hr') hf
            · cases hf
          · exact hadd own rfl hf
  cases hs : e.step [f] 0 [own, neigh] 0 with
  | none => rfl
  | some first =>
    obtain ⟨hr, h1, h2⟩ := hstep first hs
    rw [Option.bind_some, h2, hh, if_pos (by simpa using h1), if_neg]
    rw [hks]
    simp [Lgcl.inDim, hr, hh]

/-- The second hop of a layer that keeps the number of features. -/
theorem lgcl_two_same {e : Lgcl α} {k w f0 f1 : Nat} (hw : 2 ≤ w) (hf : 0 < f1) (hk : k ≤ f1) (hr : e.residual = .add) (hks : e.ks[1]? = some k)
    (hh : e.hidden[0]? = some w) (hc : Spec.ConvFits w k w (e.conv 0 1)) {own : Mat α} {nodes : List (Vec α × Mat α)} (hn : 2 ≤ nodes.length)
    (hs : ∀ n ∈ nodes, n.1.length = w ∧ n.2.length = f1 ∧ ∀ v ∈ n.2, v.length = w) (h1 : own.length ≠ 1) (h2 : own.length ≠ nodes.length) :
    e.forward [f0, f1] [own, nodes.map (·.1), (nodes.map (·.2)).flatten] = none := by
  have hne : nodes ≠ [] := by intro h0; rw [h0] at hn; simp at hn
  have hsq := hop_eq (e := e) (l := 0) (hop := 1) (h := w) (by omega) hw hc hk hn hs
  have hstep : e.step [f0, f1] 0 [own, nodes.map (·.1), (nodes.map (·.2)).flatten] 1 = none := by
    unfold Lgcl.step
    simp only [List.getElem?_cons_zero, List.getElem?_cons_succ, Option.bind_some, hks, hh, below_width hf hne hs,
      below_reshape hf (show 0 < w by omega) hs]
    rw [if_neg (by simp), ← Option.bind_assoc, hsq, Option.bind_some, hr]
    simp only [Squeezed.lastDim, Option.bind_some]
    rw [own_width hne hs, width_of (w := w) (by simpa using hne) (by
      intro v hv'
      obtain ⟨n, _, rfl⟩ := List.mem_map.mp hv'
      exact lgclVector_length _ hc _ _), if_neg (by simp)]
    simp only [addTensor]
    rw [if_neg (by rw [List.length_map]; omega), if_neg h1, if_neg (by rw [List.length_map]; omega)]
  unfold Lgcl.forward
  have hloop : e.loop [f0, f1] [f0, f1].length 0 [own, nodes.map (·.1), (nodes.map (·.2)).flatten] = none := by
    show ((List.range 2).mapM (e.step [f0, f1] 0 _)).bind (Lgcl.loop e [f0, f1] 1 1) = none
    have : List.range 2 = [0, 1] := rfl
    rw [this, List.mapM_cons, List.mapM_cons, hstep]
    cases e.step [f0, f1] 0 [own, nodes.map (·.1), (nodes.map (·.2)).flatten] 0 <;> rfl
  rw [hloop]
  rfl

/-! ### HetGNN -/

theorem lstmEmbed_eq {f w d : Nat} (hf : 0 < f) (hw : 0 < w) (lstm : Mat α → Mat α) {nodes : List (Vec α × Mat α)} (hne : nodes ≠ [])
    (hs : ∀ n ∈ nodes, n.1.length = w ∧ n.2.length = f ∧ ∀ v ∈ n.2, v.length = w) :
    lstmEmbed lstm d f (nodes.map (·.1)) (nodes.map (·.2)).flatten = some (nodes.map fun n => Spec.columnMeans (2 * d) (lstm (n.1 :: n.2))) := by
  unfold lstmEmbed
  rw [below_width hf hne hs, below_reshape hf hw hs, Option.bind_some, if_neg (by simp), zipWith_map_same]
  rfl

theorem map_range_get {β γ : Type} (d : β) (F : β → γ) (l : List β) : (List.range l.length).map (fun i => F (l.getD i d)) = l.map F := by
  apply List.ext_getElem?
  intro i
  by_cases hi : i < l.length
  · rw [List.getElem?_map, List.getElem?_range hi, List.getElem?_map, Option.map_some, List.getD_eq_getElem?_getD, List.getElem?_eq_getElem hi]
    rfl
  · rw [List.getElem?_eq_none (by simp; omega), List.getElem?_eq_none (by simp; omega)]

/-- The own embeddings before attention. -/
def ownVector (e : Het α) (x : Vec α) : Vec α := if x.length = e.outDim then x else (Spec.affine e.node x).map e.act

theorem own_eq {e : Het α} {w : Nat} (hfit : w ≠ e.outDim → Spec.AffineFits w e.outDim e.node) {own : Mat α} (hne : own ≠ []) (ho : ∀ x ∈ own, x.length = w) :
    (if width own ≠ e.outDim then (own.mapM (linear e.node)).map fun r => r.map fun v => v.map e.act else some own) = some (own.map (ownVector e)) := by
  rw [width_of hne ho]
  by_cases hw : w = e.outDim
  · rw [if_neg (by simpa using hw)]
    congr 1
    conv => lhs; rw [← List.map_id own]
    apply List.map_congr_left
    intro x hx
    rw [ownVector, if_pos (by rw [ho x hx, hw])]
    rfl
  · rw [if_pos hw, mapM_map (g := Spec.affine e.node), Option.map_some, List.map_map]
    · congr 1
      apply List.map_congr_left
      intro x hx
      rw [ownVector, if_neg (by rw [ho x hx]; exact hw)]
      rfl
    · exact fun x hx => linear_eq (hfit hw) (ho x hx)

theorem ownVector_length {e : Het α} {w : Nat} (hfit : w ≠ e.outDim → Spec.AffineFits w e.outDim e.node) {x : Vec α} (hx : x.length = w) :
    (ownVector e x).length = e.outDim := by
  unfold ownVector
  split
  · assumption
  · rename_i h
    rw [List.length_map, affine_length (hfit (by omega))]

theorem combine_eq {e : Het α} {w m : Nat} (hfit : w ≠ e.outDim → Spec.AffineFits w e.outDim e.node) (hatt : e.att.length = 2 * e.outDim)
    {nodes : List (Vec α × List (Vec α))} (hne : nodes ≠ []) (hs : ∀ n ∈ nodes, n.1.length = w ∧ n.2.length = m ∧ ∀ v ∈ n.2, v.length = e.outDim) :
    e.combine ((List.range m).map fun i => nodes.map fun n => n.2.getD i []) (nodes.map (·.1)) = some (nodes.map fun n => Spec.hetVector e n.1 n.2) := by
  unfold Het.combine
  rw [own_eq hfit (by simpa using hne) (by
    intro x hx
    obtain ⟨n, hn, rfl⟩ := List.mem_map.mp hx
    exact (hs n hn).1), Option.bind_some, List.map_map]
  have hwid : width (nodes.map (ownVector e ∘ (·.1))) = e.outDim := width_of (by simpa using hne) (by
    intro v hv
    obtain ⟨n, hn, rfl⟩ := List.mem_map.mp hv
    exact ownVector_length hfit (hs n hn).1)
  simp only [hwid]
  rw [if_pos]
  · rw [List.length_map]
    have hmap : nodes.map (fun n => Spec.hetVector e n.1 n.2) = (List.range nodes.length).map fun b => Spec.hetVector e (nodes.getD b ([], [])).1 (nodes.getD b ([], [])).2 :=
      (map_range_get ([], []) (fun n : Vec α × List (Vec α) => Spec.hetVector e n.1 n.2) nodes).symm
    rw [hmap]
    apply mapM_map
    intro b hb
    have hb := List.mem_range.mp hb
    have hget : ∀ {β : Type} (F : Vec α × List (Vec α) → β) (d : β), (nodes.map F).getD b d = F (nodes.getD b ([], [])) := by
      intro β F d
      rw [List.getD_eq_getElem?_getD, List.getElem?_map, List.getD_eq_getElem?_getD, List.getElem?_eq_getElem hb]
      rfl
    have hmem : nodes.getD b ([], []) ∈ nodes := by
      rw [List.getD_eq_getElem?_getD, List.getElem?_eq_getElem hb]
      exact List.getElem_mem hb
    generalize hn : nodes.getD b ([], []) = n at hget hmem
    obtain ⟨h1, h2, h3⟩ := hs n hmem
    have hrows : (((List.range m).map fun i => nodes.map fun n => n.2.getD i []) ++ [nodes.map (ownVector e ∘ (·.1))]).map (fun t => t.getD b []) = n.2 ++ [ownVector e n.1] := by
      rw [List.map_append, List.map_map, List.map_cons, List.map_nil, hget]
      congr 1
      rw [← h2]
      conv => rhs; rw [← List.map_id n.2]
      rw [← map_range_get [] id n.2]
      apply List.map_congr_left
      intro i _
      exact hget (fun n => n.2.getD i []) []
    simp only [hrows, hget, Function.comp]
    have hown := ownVector_length hfit h1
    rw [mapM_map (g := fun v => add (total (List.zipWith mul (ownVector e n.1 ++ v) e.att)) e.attBias), Option.map_some, List.map_map]
    · congr 1
      unfold Spec.hetVector Spec.weightedSum
      rw [softmaxRow_eq]
      simp only
      apply List.map_congr_left
      intro q _
      rw [zipWith_fun_map]
      rfl
    · intro v hv
      apply Han.score_eq
      rw [hatt, List.length_append, hown]
      rcases List.mem_append.mp hv with hv | hv
      · rw [h3 v hv]; omega
      · rw [List.mem_singleton.mp hv, hown]; omega
  · apply List.all_eq_true.mpr
    intro t ht
    rw [Bool.and_eq_true]
    rcases List.mem_append.mp ht with ht | ht
    · obtain ⟨i, hi, rfl⟩ := List.mem_map.mp ht
      refine ⟨by simp, List.all_eq_true.mpr fun v hv => ?_⟩
      obtain ⟨n, hn, rfl⟩ := List.mem_map.mp hv
      obtain ⟨_, h2, h3⟩ := hs n hn
      have hi := List.mem_range.mp hi
      simp only [beq_iff_eq]
      rw [List.getD_eq_getElem?_getD, List.getElem?_eq_getElem (by omega)]
      exact h3 _ (List.getElem_mem _)
    · rw [List.mem_singleton.mp ht]
      refine ⟨by simp, List.all_eq_true.mpr fun v hv => ?_⟩
      obtain ⟨n, hn, rfl⟩ := List.mem_map.mp hv
      simp only [beq_iff_eq, Function.comp]
      exact ownVector_length hfit (hs n hn).1

/-- A kind of neighbours with embeddings of another width. -/
theorem combine_none {e : Het α} {w : Nat} (hfit : w ≠ e.outDim → Spec.AffineFits w e.outDim e.node) {own : Mat α} (hne : own ≠ []) (ho : ∀ x ∈ own, x.length = w)
    {embeds : List (Mat α)} {t : Mat α} (ht : t ∈ embeds) {v : Vec α} (hv : v ∈ t) (hl : v.length ≠ e.outDim) : e.combine embeds own = none := by
  unfold Het.combine
  rw [own_eq hfit hne ho, Option.bind_some]
  have hwid : width (own.map (ownVector e)) = e.outDim := width_of (by simpa using hne) (by
    intro v hv
    obtain ⟨x, hx, rfl⟩ := List.mem_map.mp hv
    exact ownVector_length hfit (ho x hx))
  simp only [hwid]
  rw [if_neg]
  intro h
  have h := List.all_eq_true.mp h t (List.mem_append_left _ ht)
  rw [Bool.and_eq_true] at h
  have h := List.all_eq_true.mp h.2 v hv
  exact hl (by simpa using h)

end

section
variable [Spec.RealFuns]

theorem hetVector_between (e : Het Rat) {q : Nat} (hq : q < e.outDim) (x : Vec Rat) (kinds : List (Vec Rat)) (lo hi : Rat)
    (hk : ∀ v ∈ kinds, lo ≤ v.getD q 0 ∧ v.getD q 0 ≤ hi) (ho : lo ≤ (ownVector e x).getD q 0 ∧ (ownVector e x).getD q 0 ≤ hi) :
    lo ≤ (Spec.hetVector e x kinds).getD q 0 ∧ (Spec.hetVector e x kinds).getD q 0 ≤ hi := by
  have hrows : ∀ v ∈ kinds ++ [ownVector e x], lo ≤ v.getD q 0 ∧ v.getD q 0 ≤ hi := by
    intro v hv
    rcases List.mem_append.mp hv with hv | hv
    · exact hk v hv
    · rw [List.mem_singleton.mp hv]; exact ho
  have hz : Spec.hetVector e x kinds = Spec.weightedSum e.outDim (Spec.softmax ((kinds ++ [ownVector e x]).map fun v =>
      leaky (add (total (List.zipWith mul (ownVector e x ++ v) e.att)) e.attBias))) (kinds ++ [ownVector e x]) := rfl
  rw [hz]
  generalize hR : kinds ++ [ownVector e x] = rows at hrows
  have hrne : rows ≠ [] := by rw [← hR]; simp
  generalize hL : rows.map (fun v => (leaky (add (total (List.zipWith mul (ownVector e x ++ v) e.att)) e.attBias) : Rat)) = l
  have hll : l.length = rows.length := by rw [← hL, List.length_map]
  obtain ⟨h1, h2⟩ := softmax_weights (l := l) (by intro h0; rw [h0] at hll; exact hrne (List.length_eq_zero_iff.mp hll.symm))
  have h3 := average_between lo hi (xs := rows.map (·.getD q 0)) (cs := Spec.softmax l) (by rw [softmax_length, hll, List.length_map]) h1 fun x hx => by
    obtain ⟨row, hrow, rfl⟩ := List.mem_map.mp hx
    exact hrows row hrow
  rw [h2, Rat.mul_one, Rat.mul_one] at h3
  have hcomm : ∀ (a b : List Rat), List.zipWith (· * ·) a b = List.zipWith (· * ·) b a := by
    intro a b
    apply List.zipWith_comm_of_comm
    exact Rat.mul_comm
  have hgo : (Spec.weightedSum e.outDim (Spec.softmax l) rows).getD q 0 = total (List.zipWith (· * ·) (Spec.softmax l) (rows.map (·.getD q 0))) := by
    unfold Spec.weightedSum
    rw [List.getD_eq_getElem?_getD, List.getElem?_map, List.getElem?_range hq]
    rfl
  rw [hgo, hcomm]
  exact h3

/-! ### GAT -/

theorem total_map_add {β : Type} (F G : β → Rat) : ∀ l : List β, total (l.map fun i => F i + G i) = total (l.map F) + total (l.map G)
  | [] => by show (0 : Rat) = 0 + 0; grind
  | x :: l => by
    rw [List.map_cons, List.map_cons, List.map_cons, total_cons, total_cons, total_cons, total_map_add F G l]
    grind

theorem total_map_mul {β : Type} (F : β → Rat) (z : Rat) : ∀ l : List β, total (l.map fun i => F i * z) = total (l.map F) * z
  | [] => by show (0 : Rat) = 0 * z; rw [Rat.zero_mul]
  | x :: l => by
    rw [List.map_cons, List.map_cons, total_cons, total_cons, total_map_mul F z l, Rat.add_mul]

theorem total_zero {β : Type} : ∀ l : List β, total (l.map fun _ => (0 : Rat)) = 0
  | [] => rfl
  | x :: l => by rw [List.map_cons, total_cons, total_zero l]; grind

/-- Sums with columns of weights that add up to 1. -/
theorem columns_total (n q : Nat) : ∀ {cs : List (List Rat)} {vs : Mat Rat}, cs.length = vs.length → (∀ c ∈ cs, c.length = n ∧ total c = 1) →
    total ((List.range n).map fun i => total (List.zipWith (fun c v => c.getD i 0 * v.getD q 0) cs vs)) = total (vs.map fun v => v.getD q 0)
  | [], [], _, _ => total_zero _
  | [], _ :: _, h, _ => by simp at h
  | _ :: _, [], h, _ => by simp at h
  | c :: cs, v :: vs, hl, hc => by
    have ih := columns_total n q (cs := cs) (vs := vs) (by simpa using hl) fun d hd => hc d (List.mem_cons_of_mem _ hd)
    obtain ⟨h1, h2⟩ := hc c List.mem_cons_self
    rw [List.map_cons, total_cons, ← ih]
    have : ((List.range n).map fun i => total (List.zipWith (fun c v => c.getD i 0 * v.getD q 0) (c :: cs) (v :: vs))) =
        (List.range n).map fun i => c.getD i 0 * v.getD q 0 + total (List.zipWith (fun (c : List Rat) (v : Vec Rat) => c.getD i 0 * v.getD q 0) cs vs) := by
      apply List.map_congr_left
      intro i _
      rw [List.zipWith_cons_cons, total_cons]
    rw [this, total_map_add, total_map_mul]
    have e : (List.range n).map (fun i => c.getD i 0) = c := by
      rw [← h1]
      conv => rhs; rw [← List.map_id c]
      exact map_range_get 0 id c
    rw [e, h2]
    grind

end

section
variable {α : Type} [Analysis α]

theorem gatSeq_eq {f w : Nat} {h : Head α} (hf : Spec.HeadFits f w h) (act : α → α) {seq : Mat α} (hs : ∀ v ∈ seq, v.length = f) :
    gatSeq h act seq = some ((List.range seq.length).map fun i => (List.range w).map fun q =>
      act (total (List.zipWith (fun c v => mul (c.getD i zero) (v.getD q zero))
        ((seq.map (Spec.linear h.w)).map fun t => Spec.softmax ((seq.map (Spec.linear h.w)).map fun s =>
          leaky (add (add (total (List.zipWith mul s h.left)) h.leftBias) (add (total (List.zipWith mul t h.right)) h.rightBias))))
        (seq.map (Spec.linear h.w))))) := by
  unfold gatSeq
  rw [mapM_map (g := Spec.linear h.w) fun v hv => dense_eq fun col hcol => by rw [hf.2.1 col hcol, hs v hv], Option.bind_some]
  have hl : ∀ s ∈ seq.map (Spec.linear h.w), s.length = w := by
    intro s hs'
    obtain ⟨v, _, rfl⟩ := List.mem_map.mp hs'
    rw [Han.linear_length, hf.1]
  rw [mapM_map (g := fun s => add (total (List.zipWith mul s h.left)) h.leftBias) fun s hs' => Han.score_eq (by rw [hl s hs', hf.2.2.1]), Option.bind_some,
    mapM_map (g := fun s => add (total (List.zipWith mul s h.right)) h.rightBias) fun s hs' => Han.score_eq (by rw [hl s hs', hf.2.2.2.1]), Option.map_some]
  simp only [List.length_map, hf.1, softmaxRow_eq, List.map_map]
  rfl

end

end DeepGNN.Encoders
