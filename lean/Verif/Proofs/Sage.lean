import Verif.Spec.Sage
import Verif.Proofs.LastN

/-
Proofs about GraphSAGE: reshaping gives back the groups, a layer works row by row, and level by level the rows are those of the trees.
-/

namespace DeepGNN.Sage

open Arith

theorem mapM_map {β γ : Type} {f : β → Option γ} {g : β → γ} : ∀ {l : List β}, (∀ x ∈ l, f x = some (g x)) → l.mapM f = some (l.map g)
  | [], _ => rfl
  | a :: l, h => by
    rw [List.mapM_cons, h a List.mem_cons_self, mapM_map (l := l) fun x hx => h x (List.mem_cons_of_mem _ hx)]
    rfl

/-! ### Pieces -/

theorem chunks_flatten {β : Type} {k : Nat} (hk : 0 < k) : ∀ {ls : List (List β)}, (∀ l ∈ ls, l.length = k) → chunks k ls.flatten = ls
  | [], _ => by simp [chunks]
  | l :: ls, h => by
    have hl := h l List.mem_cons_self
    have ih := chunks_flatten hk (ls := ls) fun x hx => h x (List.mem_cons_of_mem _ hx)
    unfold chunks at ih ⊢
    have e : (l :: ls).flatten.length / k = ls.flatten.length / k + 1 := by
      rw [List.flatten_cons, List.length_append, hl, Nat.add_comm, Nat.add_div_right _ hk]
    rw [e, List.range_succ_eq_map, List.map_cons, List.map_map]
    congr 1
    · rw [Nat.zero_mul, List.drop_zero, List.flatten_cons, ← hl, List.take_left]
    · refine Eq.trans ?_ ih
      apply List.map_congr_left
      intro i _
      show List.take k (List.drop ((i + 1) * k) (l ++ ls.flatten)) = _
      rw [show (i + 1) * k = l.length + i * k by rw [hl, Nat.succ_mul, Nat.add_comm], List.drop_length_add_append]

theorem pieces_flatten {β : Type} : ∀ (ls : List (List β)), Spec.pieces (ls.map List.length) ls.flatten = ls
  | [] => rfl
  | l :: ls => by
    rw [List.map_cons, List.flatten_cons, Spec.pieces, List.take_left, List.drop_left, pieces_flatten ls]

theorem flatten_pieces {β : Type} : ∀ (ns : List Nat) (l : List β), ns.sum = l.length →
    (Spec.pieces ns l).flatten = l ∧ (Spec.pieces ns l).map List.length = ns
  | [], l, h => by
    cases l with
    | nil => exact ⟨rfl, rfl⟩
    | cons => simp at h
  | n :: ns, l, h => by
    rw [List.sum_cons] at h
    obtain ⟨h1, h2⟩ := flatten_pieces ns (l.drop n) (by rw [List.length_drop]; omega)
    refine ⟨?_, ?_⟩
    · rw [Spec.pieces, List.flatten_cons, h1, List.take_append_drop]
    · rw [Spec.pieces, List.map_cons, h2, List.length_take, Nat.min_eq_left (by omega)]

theorem slices_flatten {β : Type} : ∀ (ls : List (List β)), slices (ls.map List.length) ls.flatten = ls
  | [] => rfl
  | l :: ls => by
    rw [List.map_cons, List.flatten_cons, slices, List.take_left, List.drop_left, slices_flatten ls]

variable {α : Type} [Arith α]

theorem flatten_length_const {β : Type} {k : Nat} : ∀ {ls : List (List β)}, (∀ l ∈ ls, l.length = k) → ls.flatten.length = ls.length * k
  | [], _ => by simp
  | l :: ls, h => by
    rw [List.flatten_cons, List.length_append, h l List.mem_cons_self, flatten_length_const (ls := ls) fun x hx => h x (List.mem_cons_of_mem _ hx),
      List.length_cons, Nat.succ_mul, Nat.add_comm]

theorem reshape_flatten {n w : Nat} (hn : 0 < n) (hw : 0 < w) {P : List (Mat α)} (hP : ∀ p ∈ P, p.length = n ∧ ∀ v ∈ p, v.length = w) :
    reshape n w P.flatten = some P := by
  have hnw : n * w ≠ 0 := Nat.mul_ne_zero (by omega) (by omega)
  have e : P.flatten.flatten = (P.map List.flatten).flatten := by rw [List.flatten_flatten]
  have hl : ∀ l ∈ P.map List.flatten, l.length = n * w := by
    intro l hl
    obtain ⟨p, hp, rfl⟩ := List.mem_map.mp hl
    rw [flatten_length_const (hP p hp).2, (hP p hp).1]
  unfold reshape
  rw [e, if_neg hnw, flatten_length_const hl, Nat.mul_mod_left, if_neg (by simp), chunks_flatten (Nat.pos_of_ne_zero hnw) hl, List.map_map]
  congr 1
  conv => rhs; rw [← List.map_id P]
  apply List.map_congr_left
  intro p hp
  exact chunks_flatten hw (hP p hp).2

/-! ### One layer -/

theorem dense_eq {w : Mat α} {x : Vec α} (h : ∀ col ∈ w, col.length = x.length) : dense w x = some (Spec.linear w x) := by
  unfold dense
  rw [if_pos (List.all_eq_true.mpr fun col hc => by simp [h col hc])]
  rfl

theorem rnn_length (cell : List α → Vec α → List α × Vec α) : ∀ (s : List α) (xs : List (Vec α)), (rnn cell s xs).length = xs.length
  | _, [] => rfl
  | s, x :: xs => by rw [rnn, List.length_cons, List.length_cons, rnn_length cell]

theorem rnn_get (cell : List α → Vec α → List α × Vec α) : ∀ (s : List α) (o : Vec α) (xs : List (Vec α)) (i : Nat), i < xs.length →
    (rnn cell s xs)[i]? = some ((xs.take (i + 1)).foldl (fun s x => cell s.1 x) (s, o)).2
  | s, _, [], i, h => by simp at h
  | s, o, x :: xs, 0, _ => by simp [rnn]
  | s, o, x :: xs, i + 1, h => by
    rw [rnn, List.getElem?_cons_succ, List.take_succ_cons, List.foldl_cons]
    exact rnn_get cell (cell s x).1 (cell s x).2 xs i (by simpa using h)

theorem flatten_get {β : Type} {n : Nat} : ∀ {ls : List (List β)} (_ : ∀ l ∈ ls, l.length = n) (i j : Nat), j < n → i < ls.length →
    ls.flatten[i * n + j]? = (ls.getD i [])[j]?
  | [], _, i, _, _, h => by simp at h
  | l :: ls, h, 0, j, hj, _ => by
    have hl := h l List.mem_cons_self
    rw [Nat.zero_mul, Nat.zero_add, List.flatten_cons, List.getElem?_append_left (by omega)]
    rfl
  | l :: ls, h, i + 1, j, hj, hi => by
    have hl := h l List.mem_cons_self
    rw [List.flatten_cons, List.getElem?_append_right (by rw [hl, Nat.succ_mul]; omega),
      show (i + 1) * n + j - l.length = i * n + j by rw [hl, Nat.succ_mul]; omega,
      flatten_get (ls := ls) (fun x hx => h x (List.mem_cons_of_mem _ hx)) i j hj (by simpa using hi)]
    rfl

theorem mapM_range'_get {γ : Type} {f : Nat → Option γ} : ∀ (l : List γ) (s : Nat), (∀ i < l.length, f (s + i) = l[i]?) →
    (List.range' s l.length).mapM f = some l
  | [], _, _ => rfl
  | a :: l, s, h => by
    have h0 := h 0 (by simp)
    rw [List.length_cons, List.range'_succ, List.mapM_cons, mapM_range'_get l (s + 1) fun i hi => by
      have := h (i + 1) (by simpa using hi)
      rwa [List.getElem?_cons_succ, show s + (i + 1) = s + 1 + i by omega] at this]
    rw [Nat.add_zero, List.getElem?_cons_zero] at h0
    rw [h0]
    rfl

theorem mapM_range_get {γ : Type} {f : Nat → Option γ} (l : List γ) {n : Nat} (hn : l.length = n) (h : ∀ i < n, f i = l[i]?) :
    (List.range n).mapM f = some l := by
  rw [List.range_eq_range', ← hn]
  exact mapM_range'_get l 0 fun i hi => by rw [Nat.zero_add]; exact h i (hn ▸ hi)

theorem usedRows_le {n : Nat} (hn : 0 < n) {rows : Mat α} (h : rows.length = n) : usedRows rows - 1 < n := by
  unfold usedRows
  have := List.length_filter_le (fun v : Vec α => v.any fun x => !isZero x) rows
  show Max.max _ 1 - 1 < n
  rw [Nat.max_def]
  split <;> omega

theorem lstmRows_eq (w : Weights α) {n : Nat} (hn : 0 < n) {neigh : List (Mat α)} (h : ∀ rows ∈ neigh, rows.length = n) (k : Nat) :
    lstmRows w n neigh = some (neigh.map (Spec.pool .lstm k w)) := by
  unfold lstmRows
  refine mapM_range_get _ (List.length_map _) fun i hi => ?_
  have hrow : neigh.getD i [] = neigh[i] := by simp [List.getD_eq_getElem?_getD, hi]
  have hlen := h neigh[i] (List.getElem_mem hi)
  have hj := usedRows_le hn hlen
  rw [hrow, flatten_get (n := n) _ _ _ hj (by simpa using hi)]
  · have e : (List.map (rnn w.cell w.start) neigh).getD i [] = rnn w.cell w.start neigh[i] := by
      simp [List.getD_eq_getElem?_getD, hi]
    rw [e, rnn_get w.cell w.start [] neigh[i] _ (by rw [hlen]; exact hj), List.getElem?_map, List.getElem?_eq_getElem hi]
    have e2 : usedRows neigh[i] - 1 + 1 = usedRows neigh[i] := by
      have : 1 ≤ usedRows neigh[i] := Nat.le_max_right _ _
      omega
    rw [e2]
    rfl
  · intro l hl
    obtain ⟨rows, hr, rfl⟩ := List.mem_map.mp hl
    rw [rnn_length, h rows hr]

theorem maxRows_eq (w : Nat) (rows : Mat α) : maxRows w rows = Spec.columnMaxima w rows := by
  unfold maxRows Spec.columnMaxima
  apply List.map_congr_left
  intro j _
  cases rows <;> rfl

theorem pooled_eq (a : Agg α) {n w d : Nat} (hn : 0 < n) (hf : Spec.WeightsFit a.kind w d a.weights) {neigh : List (Mat α)}
    (h : ∀ rows ∈ neigh, rows.length = n ∧ ∀ v ∈ rows, v.length = w) :
    pooled a n w neigh = some (neigh.map (Spec.pool a.kind w a.weights)) := by
  obtain ⟨-, -, -, hk⟩ := hf
  unfold pooled
  cases hkind : a.kind with
  | mean => rfl
  | maxpool =>
    rw [hkind] at hk
    simp only at hk ⊢
    rw [mapM_map (g := fun rows : Mat α => rows.map fun x => (List.zipWith add (Spec.linear a.weights.mlp x) a.weights.mlpBias).map relu)]
    · simp only [Option.bind_eq_bind, Option.bind_some, List.map_map]
      congr 1
      apply List.map_congr_left
      intro rows _
      exact maxRows_eq _ _
    · intro rows hr
      apply mapM_map
      intro x hx
      rw [dense_eq fun col hc => by rw [hk.1 col hc, (h rows hr).2 x hx]]
      simp only [Option.bind_eq_bind, Option.bind_some]
      rw [if_pos (by rw [Spec.linear, List.length_map, hk.2.1])]
  | lstm => exact lstmRows_eq a.weights hn (fun rows hr => (h rows hr).1) w

theorem after_length {cell : List α → Vec α → List α × Vec α} {h : Nat} (hc : ∀ s x, (cell s x).2.length = h) :
    ∀ (xs : List (Vec α)) (s : List α × Vec α), xs ≠ [] → (xs.foldl (fun s x => cell s.1 x) s).2.length = h
  | [], _, hx => absurd rfl hx
  | [x], s, _ => hc _ _
  | x :: y :: xs, s, _ => after_length hc (y :: xs) _ (by simp)

theorem pool_fits (a : Agg α) {n w d : Nat} (hn : 0 < n) (hf : Spec.WeightsFit a.kind w d a.weights) {rows : Mat α} (h : rows.length = n) :
    ∀ col ∈ a.weights.neigh, col.length = (Spec.pool a.kind w a.weights rows).length := by
  obtain ⟨-, -, -, hk⟩ := hf
  cases hkind : a.kind with
  | mean => rw [hkind] at hk; intro col hc; simp [Spec.pool, Spec.columnMeans, hk col hc]
  | maxpool => rw [hkind] at hk; intro col hc; simp [Spec.pool, Spec.columnMaxima, hk.2.2 col hc]
  | lstm =>
    rw [hkind] at hk
    obtain ⟨m, hm, hcols⟩ := hk
    intro col hc
    rw [hcols col hc]
    refine (after_length hm _ _ ?_).symm
    intro hnil
    have h1 := congrArg List.length hnil
    rw [List.length_take, List.length_nil, Nat.min_def] at h1
    have : 1 ≤ Nat.max (rows.filter fun v => v.any fun x => !isZero x).length 1 := Nat.le_max_right _ _
    split at h1 <;> omega

theorem zipWith_map_both {β γ δ ε ζ : Type} (f : δ → ε → ζ) (g : β → δ) (k : γ → ε) : ∀ (l : List β) (m : List γ),
    List.zipWith f (l.map g) (m.map k) = List.zipWith (fun a b => f (g a) (k b)) l m
  | [], _ => by simp
  | _ :: _, [] => by simp
  | a :: l, b :: m => by simp [zipWith_map_both f g k l m]

theorem call_eq (a : Agg α) {n w d : Nat} (hn : 0 < n) (hf : Spec.WeightsFit a.kind w d a.weights) {self : Mat α} {neigh : List (Mat α)}
    (hs : ∀ v ∈ self, v.length = w) (h : ∀ rows ∈ neigh, rows.length = n ∧ ∀ v ∈ rows, v.length = w) (hl : self.length = neigh.length) :
    call a n w self neigh = some (List.zipWith (Spec.sageRow a.kind a.concat a.act w a.weights) self neigh) := by
  unfold call
  rw [pooled_eq a hn hf h]
  simp only [Option.bind_eq_bind, Option.bind_some]
  rw [mapM_map (g := Spec.linear a.weights.neigh) (by
    intro v hv
    obtain ⟨rows, hr, rfl⟩ := List.mem_map.mp hv
    exact dense_eq (pool_fits a hn hf (h rows hr).1))]
  simp only [Option.bind_some]
  rw [mapM_map (g := Spec.linear a.weights.self) (by
    intro v hv
    exact dense_eq fun col hc => by rw [hf.2.2.1 col hc, hs v hv])]
  simp only [Option.bind_some, List.length_map]
  rw [if_neg (by simp [hl]), if_neg (by simp [hf.1, hf.2.1]), List.map_map, zipWith_map_both]
  congr 1
  cases hact : a.act with
  | false => rfl
  | true =>
    rw [if_pos rfl, List.map_zipWith]
    rfl

theorem sageRow_length (kind : Kind) (concat act : Bool) {w d : Nat} {ws : Weights α} (hf : Spec.WeightsFit kind w d ws) (self : Vec α)
    (neigh : List (Vec α)) : (Spec.sageRow kind concat act w ws self neigh).length = (if concat then 2 else 1) * d := by
  have e : ∀ l : List α, (if act then l.map (fun y => Arith.max y zero) else l).length = l.length := by
    intro l
    split <;> simp
  unfold Spec.sageRow
  simp only
  rw [e]
  cases concat
  · simp [Spec.linear, hf.1, hf.2.1]
  · simp [Spec.linear, hf.1, hf.2.1]
    omega

/-! ### Levels of the trees -/

/-- The nodes of every level. -/
def levelIds : List (List (List Int)) → List Int → List (List Int)
  | [], ids => [ids]
  | rows :: rest, ids => ids :: levelIds rest rows.flatten

/-- The trees of every level. -/
def forests : List (List (List Int)) → List Int → List (List Spec.Tree)
  | [], ids => [Spec.grow [] ids]
  | rows :: rest, ids => Spec.grow (rows :: rest) ids :: forests rest rows.flatten

/-- Answers with one row of the size asked for per node. -/
def Shaped : List Nat → List (List (List Int)) → List Int → Prop
  | [], [], _ => True
  | c :: cs, rows :: rest, ids => rows.length = ids.length ∧ (∀ r ∈ rows, r.length = c) ∧ Shaped cs rest rows.flatten
  | _, _, _ => False

theorem shaped_answers {sample : Nat → List Int → Nat → List (List Int)} (h : Spec.SamplerOk sample) : ∀ (cs : List Nat) (k : Nat) (ids : List Int),
    Shaped cs (Spec.answers sample k cs ids) ids
  | [], _, _ => trivial
  | c :: cs, k, ids => ⟨(h k ids c).1, (h k ids c).2, shaped_answers h cs (k + 1) _⟩

theorem grow_length : ∀ {cs : List Nat} {A : List (List (List Int))} {ids : List Int}, Shaped cs A ids → (Spec.grow A ids).length = ids.length
  | [], [], ids, _ => by simp [Spec.grow]
  | c :: cs, rows :: rest, ids, h => by
    have ih := grow_length h.2.2
    have hp := flatten_pieces (rows.map List.length) (Spec.grow rest rows.flatten) (by rw [ih, List.length_flatten])
    have hlen := congrArg List.length hp.2
    rw [List.length_map, List.length_map] at hlen
    rw [Spec.grow, List.length_zipWith, hlen, h.1, Nat.min_self]
  | [], _ :: _, _, h => h.elim
  | _ :: _, [], _, h => h.elim

theorem zipWith_node_id : ∀ (ids : List Int) (P : List (List Spec.Tree)), ids.length = P.length →
    (List.zipWith Spec.Tree.node ids P).map Spec.Tree.id = ids
  | [], _, _ => by simp
  | _ :: _, [], h => by simp at h
  | a :: ids, p :: P, h => by
    rw [List.zipWith_cons_cons, List.map_cons, zipWith_node_id ids P (by simpa using h)]
    rfl

theorem grow_pieces {c : Nat} {cs : List Nat} {rows : List (List Int)} {rest : List (List (List Int))} {ids : List Int}
    (h : Shaped (c :: cs) (rows :: rest) ids) : ∃ P, Spec.grow (rows :: rest) ids = List.zipWith Spec.Tree.node ids P ∧
      P.flatten = Spec.grow rest rows.flatten ∧ ids.length = P.length ∧ ∀ p ∈ P, p.length = c := by
  have ih := grow_length h.2.2
  have hp := flatten_pieces (rows.map List.length) (Spec.grow rest rows.flatten) (by rw [ih, List.length_flatten])
  refine ⟨_, rfl, hp.1, ?_, ?_⟩
  · have hlen := congrArg List.length hp.2
    rw [List.length_map, List.length_map] at hlen
    rw [hlen, h.1]
  · intro p hpm
    have h1 : p.length ∈ rows.map List.length := by rw [← hp.2]; exact List.mem_map.mpr ⟨p, hpm, rfl⟩
    obtain ⟨r, hr, he⟩ := List.mem_map.mp h1
    rw [← he, h.2.1 r hr]

theorem grow_ids : ∀ {cs : List Nat} {A : List (List (List Int))} {ids : List Int}, Shaped cs A ids → (Spec.grow A ids).map Spec.Tree.id = ids
  | [], [], ids, _ => by
    rw [Spec.grow, List.map_map]
    exact List.map_id _
  | c :: cs, rows :: rest, ids, h => by
    obtain ⟨P, e, -, hl, -⟩ := grow_pieces h
    rw [e, zipWith_node_id ids P hl]
  | [], _ :: _, _, h => h.elim
  | _ :: _, [], _, h => h.elim

theorem forests_length : ∀ {cs : List Nat} {A : List (List (List Int))} {ids : List Int}, Shaped cs A ids → (forests A ids).length = cs.length + 1
  | [], [], _, _ => rfl
  | c :: cs, rows :: rest, ids, h => by rw [forests, List.length_cons, forests_length h.2.2, List.length_cons]
  | [], _ :: _, _, h => h.elim
  | _ :: _, [], _, h => h.elim

theorem forests_head : ∀ (A : List (List (List Int))) (ids : List Int), (forests A ids)[0]? = some (Spec.grow A ids)
  | [], _ => rfl
  | _ :: _, _ => rfl

theorem forests_ids : ∀ {cs : List Nat} {A : List (List (List Int))} {ids : List Int}, Shaped cs A ids →
    (forests A ids).map (List.map Spec.Tree.id) = levelIds A ids
  | [], [], ids, h => by
    show [(Spec.grow [] ids).map Spec.Tree.id] = [ids]
    rw [grow_ids h]
  | c :: cs, rows :: rest, ids, h => by rw [forests, List.map_cons, forests_ids h.2.2, grow_ids h, levelIds]
  | [], _ :: _, _, h => h.elim
  | _ :: _, [], _, h => h.elim

theorem forests_step : ∀ {cs : List Nat} {A : List (List (List Int))} {ids : List Int}, Shaped cs A ids → ∀ k < cs.length,
    ∃ (js : List Int) (P : List (List Spec.Tree)) (n : Nat), cs[k]? = some n ∧ (forests A ids)[k]? = some (List.zipWith Spec.Tree.node js P) ∧
      (forests A ids)[k + 1]? = some P.flatten ∧ js.length = P.length ∧ ∀ p ∈ P, p.length = n
  | c :: cs, rows :: rest, ids, h, 0, _ => by
    obtain ⟨P, e1, e2, hl, hp⟩ := grow_pieces h
    refine ⟨ids, P, c, rfl, ?_, ?_, hl, hp⟩
    · rw [forests, List.getElem?_cons_zero, e1]
    · rw [forests, List.getElem?_cons_succ, forests_head, e2]
  | c :: cs, rows :: rest, ids, h, k + 1, hk => by
    obtain ⟨js, P, n, h1, h2, h3, h4⟩ := forests_step h.2.2 k (by simpa using hk)
    exact ⟨js, P, n, by rw [List.getElem?_cons_succ, h1], by rw [forests, List.getElem?_cons_succ, h2],
      by rw [forests, List.getElem?_cons_succ, h3], h4⟩
  | [], [], _, _, k, hk => by simp at hk
  | [], _ :: _, _, h, _, _ => h.elim
  | _ :: _, [], _, h, _, _ => h.elim

theorem hopLists_eq (counts : List Nat) (sample : Nat → List Int → Nat → List (List Int)) : ∀ (n k : Nat) (cs : List Nat) (cur : List Int),
    cs.length = n → (∀ j < n, counts.getD (counts.length - (k + j) - 1) 0 = cs.getD j 0) →
    hopLists counts sample n k cur = levelIds (Spec.answers sample k cs cur) cur
  | 0, k, cs, cur, hl, _ => by
    rw [List.length_eq_zero_iff.mp hl]
    rfl
  | n + 1, k, [], cur, hl, _ => by simp at hl
  | n + 1, k, c :: cs, cur, hl, h => by
    have h0 := h 0 (by omega)
    rw [Nat.add_zero] at h0
    rw [hopLists, h0, Spec.answers, levelIds]
    congr 1
    exact hopLists_eq counts sample n (k + 1) cs _ (by simpa using hl) fun j hj => by
      have := h (j + 1) (by omega)
      rw [show k + (j + 1) = k + 1 + j by omega] at this
      rw [this]
      rfl

theorem hopLists_all (counts : List Nat) (sample : Nat → List Int → Nat → List (List Int)) (inputs : List Int) :
    hopLists counts sample counts.length 0 inputs = levelIds (Spec.answers sample 0 counts.reverse inputs) inputs := by
  refine hopLists_eq counts sample _ 0 _ _ (List.length_reverse ..) fun j hj => ?_
  rw [Nat.zero_add, List.getD_eq_getElem?_getD, List.getD_eq_getElem?_getD, List.getElem?_reverse hj]
  congr 2
  omega

/-! ### All layers -/

theorem embed_length {kind : Kind} {concat : Bool} {ws : List (Weights α)} {counts dims : List Nat} {feat : Int → Vec α}
    (hm : Spec.ModelFits kind concat ws counts dims) (hf : ∀ i, (feat i).length = dims.getD 0 0) :
    ∀ (l : Nat), l ≤ counts.length → ∀ t, (Spec.embed kind concat ws dims feat l t).length = Spec.widthAt dims concat l
  | 0, _, t => hf _
  | l + 1, hl, t => by
    obtain ⟨h1, h2, h3, h4, h5⟩ := hm
    have hlt : l < ws.length := by omega
    have hw := h5 l (by omega) ws[l] (List.getElem?_eq_getElem hlt)
    rw [Spec.embed, show ws.getD l _ = ws[l] by simp [List.getD_eq_getElem?_getD, hlt], sageRow_length _ _ _ hw]
    rfl

theorem zipWith_embed {kind : Kind} {concat : Bool} {ws : List (Weights α)} {dims : List Nat} {feat : Int → Vec α} {l : Nat}
    {f : Vec α → List (Vec α) → Vec α} (hf : ∀ t, Spec.embed kind concat ws dims feat (l + 1) t =
      f (Spec.embed kind concat ws dims feat l t) (t.children.map (Spec.embed kind concat ws dims feat l))) :
    ∀ (js : List Int) (P : List (List Spec.Tree)), js.length = P.length →
      List.zipWith f ((List.zipWith Spec.Tree.node js P).map (Spec.embed kind concat ws dims feat l)) (P.map (List.map (Spec.embed kind concat ws dims feat l))) =
        (List.zipWith Spec.Tree.node js P).map (Spec.embed kind concat ws dims feat (l + 1))
  | [], _, _ => by simp
  | _ :: _, [], h => by simp at h
  | j :: js, p :: P, h => by
    simp only [List.zipWith_cons_cons, List.map_cons]
    rw [zipWith_embed hf js P (by simpa using h), hf]
    rfl

theorem aggLayer_eq {kind : Kind} {concat : Bool} {ws : List (Weights α)} {counts dims : List Nat} {feat : Int → Vec α}
    (hm : Spec.ModelFits kind concat ws counts dims) (hf : ∀ i, (feat i).length = dims.getD 0 0)
    {A : List (List (List Int))} {ids : List Int} (hA : Shaped counts.reverse A ids) {l : Nat} (hl : l < counts.length) :
    aggLayer (initAggs kind ws concat) counts dims concat l
        (((forests A ids).take (counts.length + 1 - l)).map (List.map (Spec.embed kind concat ws dims feat l))) =
      some (((forests A ids).take (counts.length - l)).map (List.map (Spec.embed kind concat ws dims feat (l + 1)))) := by
  have hwid := embed_length hm hf l (by omega)
  obtain ⟨h1, h2, h3, h4, h5⟩ := hm
  have hlt : l < ws.length := by omega
  have hfit := h5 l hl ws[l] (List.getElem?_eq_getElem hlt)
  have hdl : l < dims.length := by omega
  have hFl := forests_length hA
  rw [List.length_reverse] at hFl
  have ha : (initAggs kind ws concat)[l]? = some ⟨kind, ws[l], l != ws.length - 1, concat⟩ := by
    simp [initAggs, hlt]
  have hd : dims[l]? = some (dims.getD l 0) := by simp [List.getD_eq_getElem?_getD, hdl]
  have hw : (if (concat && l != 0) = true then 2 else 1) * dims.getD l 0 = Spec.widthAt dims concat l := by
    cases l with
    | zero => simp [Spec.widthAt]
    | succ l => cases concat <;> simp [Spec.widthAt]
  have hpos : 0 < Spec.widthAt dims concat l := by
    have hd0 : 0 < dims.getD l 0 := h4 _ (by rw [List.getD_eq_getElem?_getD, List.getElem?_eq_getElem hdl]; exact List.getElem_mem hdl)
    rw [← hw]
    split <;> omega
  unfold aggLayer
  rw [ha, hd]
  simp only [Option.bind_eq_bind, Option.bind_some]
  rw [hw]
  refine mapM_range_get _ (by rw [List.length_map, List.length_take, hFl, Nat.min_eq_left (by omega)]) fun hop hhop => ?_
  obtain ⟨js, P, n, e1, e2, e3, e4, e5⟩ := forests_step hA hop (by rw [List.length_reverse]; omega)
  rw [List.getElem?_reverse (by omega)] at e1
  have hn : 0 < n := h3 n (List.mem_of_getElem? e1)
  rw [show counts.length - hop - 1 = counts.length - 1 - hop by omega, e1]
  simp only [Option.bind_some]
  rw [List.getElem?_map, List.getElem?_take_of_lt (by omega), e2, List.getElem?_map, List.getElem?_take_of_lt (by omega), e3]
  simp only [Option.map_some, Option.bind_some]
  rw [show P.flatten.map (Spec.embed kind concat ws dims feat l) = (P.map (List.map (Spec.embed kind concat ws dims feat l))).flatten from
    List.map_flatten]
  have hP : ∀ p ∈ P.map (List.map (Spec.embed kind concat ws dims feat l)), p.length = n ∧ ∀ v ∈ p, v.length = Spec.widthAt dims concat l := by
    intro p hp
    obtain ⟨q, hq, rfl⟩ := List.mem_map.mp hp
    refine ⟨by rw [List.length_map, e5 q hq], fun v hv => ?_⟩
    obtain ⟨t, -, rfl⟩ := List.mem_map.mp hv
    exact hwid t
  rw [reshape_flatten hn hpos hP]
  simp only [Option.bind_some]
  rw [call_eq (d := dims.getD (l + 1) 0) _ hn hfit (by
      intro v hv
      obtain ⟨t, -, rfl⟩ := List.mem_map.mp hv
      exact hwid t) hP (by simp [e4])]
  rw [List.getElem?_map, List.getElem?_take_of_lt (by omega), e2]
  simp only [Option.map_some]
  congr 1
  refine zipWith_embed (f := Spec.sageRow kind concat (l != ws.length - 1) (Spec.widthAt dims concat l) ws[l]) (fun t => ?_) js P e4
  rw [Spec.embed, show ws.getD l _ = ws[l] by simp [List.getD_eq_getElem?_getD, hlt]]
  congr 1
  by_cases hlast : l + 1 = ws.length
  · simp [hlast]
    omega
  · have : l ≠ ws.length - 1 := by omega
    simp [hlast, this]

theorem aggLoop_eq {kind : Kind} {concat : Bool} {ws : List (Weights α)} {counts dims : List Nat} {feat : Int → Vec α}
    (hm : Spec.ModelFits kind concat ws counts dims) (hf : ∀ i, (feat i).length = dims.getD 0 0)
    {A : List (List (List Int))} {ids : List Int} (hA : Shaped counts.reverse A ids) : ∀ (n l : Nat), l + n = counts.length →
    aggLoop (initAggs kind ws concat) counts dims concat n l
        (((forests A ids).take (counts.length + 1 - l)).map (List.map (Spec.embed kind concat ws dims feat l))) =
      some (((forests A ids).take 1).map (List.map (Spec.embed kind concat ws dims feat counts.length)))
  | 0, l, h => by
    rw [aggLoop, show l = counts.length by omega, Nat.add_sub_cancel_left]
  | n + 1, l, h => by
    rw [aggLoop, aggLayer_eq hm hf hA (by omega)]
    simp only [Option.bind_eq_bind, Option.bind_some]
    rw [show counts.length - l = counts.length + 1 - (l + 1) by omega]
    exact aggLoop_eq hm hf hA n (l + 1) (by omega)

theorem aggregate_eq {kind : Kind} {concat : Bool} {ws : List (Weights α)} {counts dims : List Nat} {feat : Int → Vec α}
    (hm : Spec.ModelFits kind concat ws counts dims) (hf : ∀ i, (feat i).length = dims.getD 0 0)
    {A : List (List (List Int))} {ids : List Int} (hA : Shaped counts.reverse A ids) :
    aggregate ((levelIds A ids).map (List.map feat)) (initAggs kind ws concat) counts dims concat =
      some ((Spec.grow A ids).map (Spec.embed kind concat ws dims feat counts.length)) := by
  have h0 : (levelIds A ids).map (List.map feat) =
      ((forests A ids).take (counts.length + 1 - 0)).map (List.map (Spec.embed kind concat ws dims feat 0)) := by
    have hFl := forests_length hA
    rw [List.length_reverse] at hFl
    rw [Nat.sub_zero, List.take_of_length_le (by omega), ← forests_ids hA, List.map_map]
    apply List.map_congr_left
    intro f _
    show (f.map Spec.Tree.id).map feat = _
    rw [List.map_map]
    rfl
  unfold aggregate
  rw [h0, aggLoop_eq hm hf hA _ 0 (by omega)]
  have h1 : (forests A ids).take 1 = [Spec.grow A ids] := by
    cases A <;> rfl
  rw [h1]
  rfl

theorem idxOf_lookup {β : Type} (f : Int → β) (nodes : List Int) {x : Int} (hx : x ∈ nodes) : (nodes.map f)[nodes.idxOf x]? = some (f x) := by
  have h := List.idxOf_lt_length_iff.mpr hx
  rw [List.getElem?_map, List.getElem?_eq_getElem h, List.getElem_idxOf h]
  rfl

theorem hidden_eq (f : Int → Vec α) (lists : List (List Int)) :
    (slices (lists.map List.length) (lists.flatten.map ((sortUnique lists.flatten).idxOf ·))).mapM (lookup ((sortUnique lists.flatten).map f)) =
      some (lists.map (List.map f)) := by
  have e : lists.flatten.map ((sortUnique lists.flatten).idxOf ·) = (lists.map (List.map ((sortUnique lists.flatten).idxOf ·))).flatten :=
    List.map_flatten
  have e2 : lists.map List.length = (lists.map (List.map ((sortUnique lists.flatten).idxOf ·))).map List.length := by
    rw [List.map_map]
    apply List.map_congr_left
    intro l _
    exact (List.length_map _).symm
  rw [e, e2, slices_flatten, List.mapM_map]
  apply mapM_map
  intro l hl
  show lookup _ _ = _
  unfold lookup
  rw [List.mapM_map]
  apply mapM_map
  intro x hx
  exact idxOf_lookup f _ ((sortUnique_mem x _).mpr (List.mem_flatten.mpr ⟨l, hl, hx⟩))

end DeepGNN.Sage
