import Verif.Props.C76
import Verif.Props.C12

/-
C76: sparse features and strings of edges through the Python client.
-/

namespace DeepGNN

open PyClient

variable {C : WeightCodec} {wm : Option Nat} {m : Meta} {parts : List (List (List Rec))} {g : Graph}

namespace PyClient

theorem length_flatten_const {β : Type} {k : Nat} : ∀ {l : List (List β)}, (∀ x ∈ l, x.length = k) → l.flatten.length = l.length * k
  | [], _ => by simp
  | x :: l, h => by
    rw [List.flatten_cons, List.length_append, length_flatten_const (fun y hy => h y (List.mem_cons_of_mem _ hy)), h x List.mem_cons_self,
      List.length_cons, Nat.succ_mul, Nat.add_comm]

/-- The callback returns every feature if all coordinates and values fill their arrays. -/
theorem sparseArrays_ok {α : Type} (item : Nat) (hitem : 0 < item) (d : α → Nat) (rows : α → List (List Int)) (vals : α → List Bytes) :
    ∀ feats : List α, (∀ f ∈ feats, (∀ r ∈ rows f, r.length = d f + 1) ∧ (∀ v ∈ vals f, v.length = item) ∧ (rows f).length = (vals f).length) →
    sparseArrays item (feats.map fun f => (d f, (rows f).flatten, (vals f).flatten)) =
      (feats.map fun f => if rows f = [] then ⟨[0], []⟩ else ⟨[(rows f).length, d f + 1], (rows f).flatten⟩,
       feats.map fun f => ⟨[(vals f).length, item], (vals f).flatten⟩)
  | [], _ => rfl
  | f :: feats, h => by
    obtain ⟨h1, h2, h3⟩ := h f List.mem_cons_self
    have ih := sparseArrays_ok item hitem d rows vals feats (fun f hf => h f (List.mem_cons_of_mem _ hf))
    have l1 := length_flatten_const h1
    have l2 := length_flatten_const h2
    rw [List.map_cons, sparseArrays, ih]
    by_cases hr : rows f = []
    · have hv : vals f = [] := by
        rw [hr] at h3
        exact List.length_eq_zero_iff.1 h3.symm
      rw [if_pos (by rw [hr]; rfl)]
      simp [hr, hv]
    · have hne : (rows f).flatten ≠ [] := by
        intro h0
        rw [h0] at l1
        have : 0 < (rows f).length := List.length_pos_iff.2 hr
        have := Nat.mul_pos this (show 0 < d f + 1 by omega)
        simp only [List.length_nil] at l1
        omega
      rw [if_neg hne, if_neg (by rw [l1, Nat.mul_mod_left]; simp), if_neg (by rw [l2, Nat.mul_mod_left]; simp)]
      simp only [List.map_cons, if_neg hr, l1, l2, Nat.mul_div_cancel _ (Nat.succ_pos (d f)), Nat.mul_div_cancel _ hitem]

/-- The reply of the engine for values `val f`. -/
theorem sparse_client {item : Nat} (hitem : 0 < item) (feats : List Nat) (dim : Nat → Nat) (val : Nat → List (Option Spec.Sparse))
    (hv : ∀ f ∈ feats, ∀ v ∈ val f, ∀ x, v = some x → x.Ok ∧ x.dim = dim f ∧ ∀ b ∈ x.values, b.length = item) :
    sparseReply item (feats.map fun f => (if ∃ v ∈ val f, v.isSome then dim f else 0,
      (val f).zipIdx.flatMap fun (v, i) => v.toList.flatMap fun x => x.coords.flatMap fun row => (i : Int) :: row,
      (val f).flatMap fun v => v.toList.flatMap fun x => x.values.flatten)) = Spec.sparseOf item feats dim val := by
  let rows : Nat → List (List Int) := fun f => (val f).zipIdx.flatMap fun (v, i) => v.toList.flatMap fun x => x.coords.map fun row => (i : Int) :: row
  let vals : Nat → List Bytes := fun f => (val f).flatMap fun v => v.toList.flatMap fun x => x.values
  have e : (feats.map fun f => (if ∃ v ∈ val f, v.isSome then dim f else 0,
      (val f).zipIdx.flatMap fun (v, i) => v.toList.flatMap fun x => x.coords.flatMap fun row => (i : Int) :: row,
      (val f).flatMap fun v => v.toList.flatMap fun x => x.values.flatten)) =
      feats.map fun f => (if ∃ v ∈ val f, v.isSome then dim f else 0, (rows f).flatten, (vals f).flatten) := by
    apply List.map_congr_left
    intro f _
    simp only [rows, vals, List.flatMap_def, List.flatten_flatten, List.map_flatten, List.map_map, Function.comp_def, List.flatten_flatten]
  have hcount : ∀ f ∈ feats, (rows f).length = (vals f).length := by
    intro f hf
    have key : ∀ (l : List (Option Spec.Sparse)) (k : Nat), (∀ v ∈ l, ∀ x, v = some x → x.Ok) →
        ((l.zipIdx k).flatMap fun (v, i) => v.toList.flatMap fun x => x.coords.map fun row => (i : Int) :: row).length =
          (l.flatMap fun v => v.toList.flatMap fun x => x.values).length := by
      intro l
      induction l with
      | nil => intro k _; rfl
      | cons v l ih =>
        intro k h
        rw [List.zipIdx_cons, List.flatMap_cons, List.flatMap_cons, List.length_append, List.length_append,
          ih (k + 1) (fun v hv => h v (List.mem_cons_of_mem _ hv))]
        cases v with
        | none => rfl
        | some x =>
          have := (h (some x) List.mem_cons_self x rfl).count
          simp [this]
    exact key (val f) 0 (fun v hm x hx => (hv f hf v hm x hx).1)
  have hsome : ∀ f ∈ feats, rows f ≠ [] → ∃ v ∈ val f, v.isSome := by
    intro f _ hne
    obtain ⟨r, hr⟩ := List.exists_mem_of_ne_nil _ hne
    simp only [rows, List.mem_flatMap] at hr
    obtain ⟨⟨v, i⟩, hvi, x, hx, -⟩ := hr
    have hv := (List.mem_zipIdx' hvi).2
    refine ⟨v, by rw [hv]; exact List.getElem_mem _, ?_⟩
    cases v with
    | none => simp at hx
    | some y => rfl
  have hok := sparseArrays_ok item hitem (fun f => if ∃ v ∈ val f, v.isSome then dim f else 0) rows vals feats (by
    intro f hf
    refine ⟨?_, ?_, hcount f hf⟩
    · intro r hr
      rw [if_pos (hsome f hf (List.ne_nil_of_mem hr))]
      simp only [rows, List.mem_flatMap] at hr
      obtain ⟨⟨v, i⟩, hvi, x, hx, hr⟩ := hr
      obtain ⟨row, hrow, rfl⟩ := List.mem_map.1 hr
      have hm : v ∈ val f := by
        rw [(List.mem_zipIdx' hvi).2]
        exact List.getElem_mem _
      obtain ⟨h1, h2, -⟩ := hv f hf v hm x (by simpa using hx)
      rw [List.length_cons, h1.rows row hrow, h2]
    · intro b hb
      simp only [vals, List.mem_flatMap] at hb
      obtain ⟨v, hm, x, hx, hb⟩ := hb
      exact (hv f hf v hm x (by simpa using hx)).2.2 b hb)
  rw [e, sparseReply, hok, Spec.sparseOf]
  congr 1
  · apply List.map_congr_left
    intro f hf
    by_cases hr : rows f = []
    · rw [if_pos hr]
      exact (if_pos hr).symm
    · rw [if_neg hr, if_pos (hsome f hf hr)]
      exact (if_neg hr).symm
  · simp [Spec.vector]

end PyClient

theorem PyClient.zipIdx_flatMap_map {α β γ : Type} (f : α → Option β) (h : β → Nat → List γ) (F : α × Nat → List γ)
    (hF : ∀ n i, F (n, i) = (f n).toList.flatMap fun x => h x i) : ∀ (l : List α) (k : Nat),
    (l.zipIdx k).flatMap F = ((l.map f).zipIdx k).flatMap fun (v, i) => v.toList.flatMap fun x => h x i
  | [], k => rfl
  | n :: l, k => by
    rw [List.zipIdx_cons, List.flatMap_cons, List.map_cons, List.zipIdx_cons, List.flatMap_cons, zipIdx_flatMap_map f h F hF l (k + 1), hF]

theorem PyClient.flatMap_map_option {α β γ : Type} (f : α → Option β) (h : β → List γ) (F : α → List γ)
    (hF : ∀ n, F n = (f n).toList.flatMap h) (l : List α) : l.flatMap F = (l.map f).flatMap fun v => v.toList.flatMap h := by
  rw [List.flatMap_map]
  congr 1
  funext n
  exact hF n

theorem PyClient.ite_iff {p q : Prop} [Decidable p] [Decidable q] (h : p ↔ q) (a b : Nat) : (if p then a else b) = if q then a else b := by
  by_cases hp : p
  · rw [if_pos hp, if_pos (h.1 hp)]
  · rw [if_neg hp, if_neg fun hq => hp (h.2 hq)]

theorem PyClient.some_mem_map {α β : Type} (f : α → Option β) (l : List α) :
    (∃ n ∈ l, (f n).isSome) ↔ ∃ v ∈ l.map f, v.isSome := by
  constructor
  · rintro ⟨n, hn, h⟩
    exact ⟨f n, List.mem_map_of_mem hn, h⟩
  · rintro ⟨v, hv, h⟩
    obtain ⟨n, hn, rfl⟩ := List.mem_map.1 hv
    exact ⟨n, hn, h⟩

/-- `node_sparse_features`: for each feature a table of coordinates with the positions of the nodes, the values, and the number of
coordinates (C12). -/
theorem C76_node_sparse_partial (h : Built C wm m parts g) {item : Nat} (hitem : 0 < item) (ids : List Int) (feats : List Nat)
    (D : Nat → List (Option Bytes) → Option Spec.Sparse) (dim : Nat → Nat)
    (hD : ∀ n ∈ ids, ∀ f ∈ feats, ∀ r ∈ Spec.nodeRecords parts n, Spec.HasSparse r.features f (D f r.features) ∧
      ∀ x, D f r.features = some x → x.dim = dim f ∧ ∀ b ∈ x.values, b.length = item) :
    nodeSparse g item (Spec.vector ids) feats = .ok (Spec.sparseOf item feats dim fun f => ids.map (C12_value parts D f)) := by
  have hval : ∀ n ∈ ids, ∀ f ∈ feats, ∀ x, C12_value parts D f n = some x → x.Ok ∧ x.dim = dim f ∧ ∀ b ∈ x.values, b.length = item := by
    intro n hn f hf x hx
    obtain ⟨r, hr, hx⟩ := List.exists_of_findSome?_eq_some hx
    obtain ⟨h1, h2⟩ := hD n hn f hf r hr
    rw [hx] at h1
    exact ⟨h1.1, h2 x hx⟩
  have key := C12_nodes h ids feats D (fun n hn f hf r hr => (hD n hn f hf r hr).1) dim (fun n hn f hf x hx => (hval n hn f hf x hx).2.1)
  simp only [nodeSparse, vector_len, span_vector, Res.bind, key, native, Res.map]
  rw [← sparse_client hitem feats dim (fun f => ids.map (C12_value parts D f)) (by
    intro f hf v hv x hx
    obtain ⟨n, hn, rfl⟩ := List.mem_map.1 hv
    exact hval n hn f hf x hx)]
  congr 2
  apply List.map_congr_left
  intro f _
  refine Prod.ext (ite_iff (some_mem_map _ _) _ _) (Prod.ext ?_ ?_)
  · refine zipIdx_flatMap_map (C12_value parts D f) (fun x i => x.coords.flatMap fun row => (i : Int) :: row) _ ?_ ids 0
    intro n i
    cases hv : C12_value parts D f n <;> simp [hv]
  · refine flatMap_map_option (C12_value parts D f) (fun x => x.values.flatten) _ ?_ ids
    intro n
    cases hv : C12_value parts D f n <;> simp

/-- `edge_sparse_features`: the same for edges; each value is that of one of the records of the edge, and that of its record if the
edge was given once. -/
theorem C76_edge_sparse_partial (h : Built C wm m parts g) {item : Nat} (hitem : 0 < item) (edges : List (Int × Int × Int))
    (h32 : Spec.Int32 (edges.map (·.2.2))) (feats : List Nat) (D : Nat → List (Option Bytes) → Option Spec.Sparse) (dim : Nat → Nat)
    (hD : ∀ e ∈ edges, ∀ f ∈ feats, ∀ r ∈ Spec.edgesBetween parts e.1 e.2.1 e.2.2, Spec.HasSparse r.features f (D f r.features) ∧
      ∀ x, D f r.features = some x → x.dim = dim f ∧ ∀ b ∈ x.values, b.length = item) :
    ∃ val : Nat → Int × Int × Int → Option Spec.Sparse,
      edgeSparse g item (Spec.vector (edges.map (·.1))) (Spec.vector (edges.map (·.2.1))) (Spec.vector (edges.map (·.2.2))) feats =
        .ok (Spec.sparseOf item feats dim fun f => edges.map (val f)) ∧
      ∀ f e, (∀ x, val f e = some x → ∃ r ∈ Spec.edgesBetween parts e.1 e.2.1 e.2.2, D f r.features = some x) ∧
        ∀ r, Spec.edgesBetween parts e.1 e.2.1 e.2.2 = [r] → val f e = D f r.features := by
  obtain ⟨val, h1, h2⟩ := C12_edges h (edges.map fun e => ⟨e.1, e.2.1, e.2.2⟩) feats D
    (by
      intro e he f hf r hr
      obtain ⟨e, hm, rfl⟩ := List.mem_map.1 he
      exact (hD e hm f hf r hr).1) dim
    (by
      intro e he f hf r hr x hx
      obtain ⟨e, hm, rfl⟩ := List.mem_map.1 he
      exact ((hD e hm f hf r hr).2 x hx).1)
  refine ⟨fun f e => val f ⟨e.1, e.2.1, e.2.2⟩, ?_, fun f e => h1 f ⟨e.1, e.2.1, e.2.2⟩⟩
  simp only [edgeSparse, vector_len, List.length_map, Res.bind, ne_eq, not_true_eq_false, or_self, if_false, span_map,
    edge_columns edges h32, h2, native, Res.map]
  rw [← sparse_client hitem feats dim (fun f => edges.map fun e => val f ⟨e.1, e.2.1, e.2.2⟩) (by
    intro f hf v hv x hx
    obtain ⟨e, he, rfl⟩ := List.mem_map.1 hv
    obtain ⟨r, hr, hx⟩ := (h1 f ⟨e.1, e.2.1, e.2.2⟩).1 x hx
    obtain ⟨h3, h4⟩ := hD e he f hf r hr
    rw [hx] at h3
    exact ⟨h3.1, h4 x hx⟩)]
  congr 2
  apply List.map_congr_left
  intro f _
  have e : (edges.map fun e => val f ⟨e.1, e.2.1, e.2.2⟩) = (edges.map fun e => (⟨e.1, e.2.1, e.2.2⟩ : EdgeId)).map (val f) := by
    rw [List.map_map]; rfl
  rw [e]
  refine Prod.ext (ite_iff (some_mem_map _ _) _ _) (Prod.ext ?_ ?_)
  · refine zipIdx_flatMap_map (val f) (fun x i => x.coords.flatMap fun row => (i : Int) :: row) _ ?_ _ 0
    intro n i
    cases hv : val f n <;> simp [hv]
  · refine flatMap_map_option (val f) (fun x => x.values.flatten) _ ?_ _
    intro n
    cases hv : val f n <;> simp

/-- `edge_string_features` without timestamps: the values one after another and their numbers of elements (C11). -/
theorem C76_edge_strings_partial (h : Built C wm m parts g) (hm : m.edgeFeatureCount ≠ 0) (item : Nat) (edges : List (Int × Int × Int))
    (h32 : Spec.Int32 (edges.map (·.2.2))) (feats : List Nat) {ts : Option (Arr Int)} (hts : Spec.NoTimes ts)
    (hone : ∀ e ∈ edges, (Spec.edgesBetween parts e.1 e.2.1 e.2.2).length ≤ 1) :
    ∃ values : List (List Bytes),
      edgeStrings g item (Spec.vector (edges.map (·.1))) (Spec.vector (edges.map (·.2.1))) (Spec.vector (edges.map (·.2.2))) feats ts =
        .ok (⟨[values.flatten.flatten.length / item, item], values.flatten.flatten⟩,
          ⟨[edges.length, feats.length], values.flatten.map fun v => v.length / item⟩) ∧
      values.length = edges.length ∧ ∀ x ∈ edges.zip values, x.2.length = feats.length ∧ ∀ y ∈ feats.zip x.2,
        (Spec.edgesBetween parts x.1.1 x.1.2.1 x.1.2.2 = [] ∧ y.2 = []) ∨
        ∃ r, Spec.edgesBetween parts x.1.1 x.1.2.1 x.1.2.2 = [r] ∧ y.2 = Spec.featureOf r y.1 := by
  obtain ⟨rows, h1, h2, h3⟩ := C11_edges_partial h hm (edges.map fun e => ⟨e.1, e.2.1, e.2.2⟩) feats (by
    intro e he
    obtain ⟨e, hm, rfl⟩ := List.mem_map.1 he
    exact hone e hm)
  rw [List.length_map] at h2
  have h3' : ∀ x ∈ edges.zip rows, x.2.length = feats.length ∧ ∀ y ∈ feats.zip x.2,
        (Spec.edgesBetween parts x.1.1 x.1.2.1 x.1.2.2 = [] ∧ y.2 = []) ∨
        ∃ r, Spec.edgesBetween parts x.1.1 x.1.2.1 x.1.2.2 = [r] ∧ y.2 = Spec.featureOf r y.1 := by
    intro x hx
    exact h3 (⟨x.1.1, x.1.2.1, x.1.2.2⟩, x.2) (by
      rw [List.zip_map_left, List.mem_map]
      exact ⟨x, hx, rfl⟩)
  refine ⟨rows, ?_, h2, h3'⟩
  have hlen : (rows.flatten).length = edges.length * feats.length := by
    rw [← h2]
    refine length_flatten_const ?_
    intro r hr
    obtain ⟨i, hi, rfl⟩ := List.getElem_of_mem hr
    exact (h3' (edges[i]'(by omega), rows[i]) (by
      rw [List.mem_iff_getElem]
      exact ⟨i, by simp; omega, by simp⟩)).1
  have hz := zip_none (β := Int) (edges.map fun e => (⟨e.1, e.2.1, e.2.2⟩ : EdgeId))
  rw [List.length_map] at hz
  simp only [edgeStrings, vector_len, List.length_map, Res.bind, ne_eq, not_true_eq_false, or_self, if_false, span_map,
    edge_columns edges h32, tsSpan_none hts, tsList, hz, h1, native, Res.map, vector_data]
  simp only [List.length_map, hlen, Nat.sub_self, List.replicate_zero, List.append_nil, List.map_map, Function.comp_def]

/-- The hypotheses hold for the graph of C12: two of four nodes have values, of two coordinates and one byte. -/
example : ∃ g, Built intCodec none ⟨1, 0, -1⟩ C12_example g ∧
    (∀ n ∈ [3, 2, 1, 8], ∀ f ∈ [0], ∀ r ∈ Spec.nodeRecords C12_example n, Spec.HasSparse r.features f (C12_sparse f r.features) ∧
      ∀ x, C12_sparse f r.features = some x → x.dim = 2 ∧ ∀ b ∈ x.values, b.length = 1) ∧
    nodeSparse g 1 (Spec.vector [3, 2, 1, 8]) [0] =
      .ok ⟨[⟨[3, 3], [0, 7, 8, 2, 3, 4, 2, 5, 6]⟩], [⟨[3, 1], [9, 1, 2]⟩], ⟨[1], [2]⟩⟩ := by
  obtain ⟨g, hg, hb⟩ := built_of_check (wm := none) (m := ⟨1, 0, -1⟩) (parts := C12_example) (by decide +kernel)
  have this : (graphOf intCodec none ⟨1, 0, -1⟩ C12_example).map (fun g => nodeSparse g 1 (Spec.vector [3, 2, 1, 8]) [0]) =
      some (.ok ⟨[⟨[3, 3], [0, 7, 8, 2, 3, 4, 2, 5, 6]⟩], [⟨[3, 1], [9, 1, 2]⟩], ⟨[1], [2]⟩⟩) := by decide +kernel
  rw [hg] at this
  have h1 : Spec.nodeRecords C12_example 1 = [⟨1, -1, 0, 1, none, none, [some (encSparse C12_a)]⟩] := by
    decide +kernel
  have h2 : Spec.nodeRecords C12_example 2 = [⟨2, -1, 0, 1, none, none, [none]⟩] := by decide +kernel
  have h3 : Spec.nodeRecords C12_example 3 = [⟨3, -1, 0, 1, none, none, [some (encSparse C12_b)]⟩] := by
    decide +kernel
  have h4 : Spec.nodeRecords C12_example 8 = [] := by decide +kernel
  have d1 : C12_sparse 0 [some (encSparse C12_a)] = some C12_a := by decide +kernel
  have d2 : C12_sparse 0 [none] = none := by decide +kernel
  have d3 : C12_sparse 0 [some (encSparse C12_b)] = some C12_b := by decide +kernel
  refine ⟨g, hb, ?_, Option.some.inj this⟩
  intro n hn f hf r hr
  rw [List.mem_singleton] at hf
  subst hf
  simp only [List.mem_cons, List.not_mem_nil, or_false] at hn
  rcases hn with rfl | rfl | rfl | rfl
  · rw [h3, List.mem_singleton] at hr; subst hr
    simp only [d3, Spec.HasSparse]
    refine ⟨⟨C12_b_ok, _, Spec.Describes.mat 2 [[7, 8]] [[9]], _,
      convert_describes C12_b_ok (Spec.Describes.mat 2 [[7, 8]] [[9]]), rfl⟩, ?_⟩
    rintro x h; cases h; decide
  · rw [h2, List.mem_singleton] at hr; subst hr
    simp [d2, Spec.HasSparse]
  · rw [h1, List.mem_singleton] at hr; subst hr
    simp only [d1, Spec.HasSparse]
    refine ⟨⟨C12_a_ok, _, Spec.Describes.mat 2 [[3, 4], [5, 6]] [[1], [2]], _,
      convert_describes C12_a_ok (Spec.Describes.mat 2 [[3, 4], [5, 6]] [[1], [2]]), rfl⟩, ?_⟩
    rintro x h; cases h; decide
  · rw [h4] at hr; simp at hr

/-- Edges of the graph of C12 through the client, and arrays of different lengths. -/
example : ∃ g, Built intCodec none ⟨0, 1, -1⟩ C12_edge_example g ∧
    edgeSparse g 1 (Spec.vector [3, 1, 1, 3]) (Spec.vector [2, 3, 2, 2]) (Spec.vector [1, 0, 0, 0]) [0] =
      .ok ⟨[⟨[3, 3], [0, 7, 8, 2, 3, 4, 2, 5, 6]⟩], [⟨[3, 1], [9, 1, 2]⟩], ⟨[1], [2]⟩⟩ ∧
    edgeSparse g 1 (Spec.vector [3, 1]) (Spec.vector [2]) (Spec.vector [1, 0]) [0] = .raised ∧
    (edgeStrings g 1 (Spec.vector [1, 3, 3]) (Spec.vector [3, 2, 2]) (Spec.vector [0, 1, 0]) [0] none).map
      (fun r => (r.1.data.length, r.2)) = .ok (25, ⟨[3, 1], [0, 25, 0]⟩) := by
  obtain ⟨g, hg, hb⟩ := built_of_check (wm := none) (m := ⟨0, 1, -1⟩) (parts := C12_edge_example) (by decide +kernel)
  have h1 : (graphOf intCodec none ⟨0, 1, -1⟩ C12_edge_example).map (fun g =>
      edgeSparse g 1 (Spec.vector [3, 1, 1, 3]) (Spec.vector [2, 3, 2, 2]) (Spec.vector [1, 0, 0, 0]) [0]) =
      some (.ok ⟨[⟨[3, 3], [0, 7, 8, 2, 3, 4, 2, 5, 6]⟩], [⟨[3, 1], [9, 1, 2]⟩], ⟨[1], [2]⟩⟩) := by decide +kernel
  have h2 : (graphOf intCodec none ⟨0, 1, -1⟩ C12_edge_example).map (fun g =>
      edgeSparse g 1 (Spec.vector [3, 1]) (Spec.vector [2]) (Spec.vector [1, 0]) [0]) = some .raised := by decide +kernel
  have h3 : (graphOf intCodec none ⟨0, 1, -1⟩ C12_edge_example).map (fun g =>
      (edgeStrings g 1 (Spec.vector [1, 3, 3]) (Spec.vector [3, 2, 2]) (Spec.vector [0, 1, 0]) [0] none).map (fun r => (r.1.data.length, r.2))) =
      some (.ok (25, ⟨[3, 1], [0, 25, 0]⟩)) := by decide +kernel
  rw [hg] at h1 h2 h3
  exact ⟨g, hb, Option.some.inj h1, Option.some.inj h2, Option.some.inj h3⟩

/-- Two nodes whose values of one feature have two coordinates and one coordinate. -/
def C76_mixed : List (List (List Rec)) :=
  [[[⟨1, -1, 0, 1, none, none, [some (encSparse C12_a)]⟩, ⟨2, -1, 0, 1, none, none, [some (encSparse ⟨1, [[4]], [[7]]⟩)]⟩]]]

/-- The full claim fails if the nodes of a request have different numbers of coordinates: in one order of the nodes the call returns no
array of the feature although it reports success, in the other it returns rows of mixed coordinates, one more than there are values. -/
theorem C76_sparse_refuted : ∃ g, Built intCodec none ⟨1, 0, -1⟩ C76_mixed g ∧
    nodeSparse g 1 (Spec.vector [2, 1]) [0] = .ok ⟨[], [], ⟨[1], [2]⟩⟩ ∧
    nodeSparse g 1 (Spec.vector [1, 2]) [0] = .ok ⟨[⟨[4, 2], [0, 3, 4, 0, 5, 6, 1, 4]⟩], [⟨[3, 1], [1, 2, 7]⟩], ⟨[1], [1]⟩⟩ := by
  obtain ⟨g, hg, hb⟩ := built_of_check (wm := none) (m := ⟨1, 0, -1⟩) (parts := C76_mixed) (by decide +kernel)
  have h1 : (graphOf intCodec none ⟨1, 0, -1⟩ C76_mixed).map (fun g => nodeSparse g 1 (Spec.vector [2, 1]) [0]) =
      some (.ok ⟨[], [], ⟨[1], [2]⟩⟩) := by decide +kernel
  have h2 : (graphOf intCodec none ⟨1, 0, -1⟩ C76_mixed).map (fun g => nodeSparse g 1 (Spec.vector [1, 2]) [0]) =
      some (.ok ⟨[⟨[4, 2], [0, 3, 4, 0, 5, 6, 1, 4]⟩], [⟨[3, 1], [1, 2, 7]⟩], ⟨[1], [1]⟩⟩) := by decide +kernel
  rw [hg] at h1 h2
  exact ⟨g, hb, Option.some.inj h1, Option.some.inj h2⟩

/-- Values whose bytes do not fill elements of the requested type are left out silently: there are coordinates but no array of values. -/
theorem C76_sparse_type_refuted {g : Graph} {item dim : Nat} {ids : List Int} {f : Nat} {idx : List Int} {vals : Bytes}
    (h : g.nodeSparse [f] ids = some [(dim, idx, vals)]) (hi : idx ≠ []) (hd : idx.length % (dim + 1) = 0) (hv : vals.length % item ≠ 0) :
    ∃ a, nodeSparse g item (Spec.vector ids) [f] = .ok ⟨[a], [], ⟨[1], [dim]⟩⟩ := by
  refine ⟨⟨[idx.length / (dim + 1), dim + 1], idx⟩, ?_⟩
  simp only [nodeSparse, vector_len, span_vector, Res.bind, h, native, Res.map, sparseReply, sparseArrays, if_neg hi]
  rw [if_neg (by simp [hd]), if_pos hv]
  rfl

end DeepGNN
