import Verif.Spec.PyClient
import Verif.Spec.Sampling
import Verif.Spec.Recent
import Verif.Proofs.LastN

namespace DeepGNN

open PyClient

/-! Arrays -/

theorem vector_len {β : Type} (l : List β) : (Spec.vector l).len = .ok l.length := rfl

theorem vector_data {β : Type} (l : List β) : (Spec.vector l).data = l := rfl

theorem span_vector {β : Type} (l : List β) : span (Spec.vector l) l.length = .ok l := by
  simp [span, Spec.vector]

theorem tsSpan_none {ts : Option (Arr Int)} (h : Spec.NoTimes ts) (n : Nat) : tsSpan ts n = .ok none := by
  rcases h with rfl | rfl
  · rfl
  · simp [tsSpan, Spec.vector, Arr.len, Res.bind]

theorem tsSpan_some (t : List Int) (h : t ≠ []) : tsSpan (some (Spec.vector t)) t.length = .ok (some t) := by
  have : t.length ≠ 0 := by simpa using h
  simp [tsSpan, Spec.vector, Arr.len, Res.bind, Res.map, span, this]

theorem put_row {β : Type} (a : Arr (Option β)) (out : List β) (h : a.data.length = out.length) :
    put a out = .ok ⟨a.shape, out.map some⟩ := by
  simp [put, h, List.drop_eq_nil_of_le (Nat.le_of_eq h)]

theorem put_empty {β : Type} {n : Nat} {out : List β} (h : out.length = n) : put (empty [n]) out = .ok (Spec.filled out) := by
  subst h
  rw [put_row]
  · simp [empty, Spec.filled, Spec.vector]
  · simp [empty, vol]

theorem flatten_width {β : Type} {w : Nat} : ∀ {rows : List (List β)}, (∀ r ∈ rows, r.length = w) → rows.flatten.length = rows.length * w
  | [], _ => by simp
  | r :: rows, h => by
    simp only [List.flatten_cons, List.length_append, List.length_cons]
    rw [h r (by simp), flatten_width fun r hr => h r (by simp [hr]), Nat.succ_mul, Nat.add_comm]

theorem put_table {β : Type} {n w : Nat} {rows : List (List β)} (hn : rows.length = n) (h : ∀ r ∈ rows, r.length = w) (a : Arr (Option β))
    (hs : a.shape = [n, w]) (ha : a.data.length = vol [n, w]) : put a rows.flatten = .ok (Spec.table w rows) := by
  subst hn
  rw [put_row, hs]
  · rfl
  · rw [ha, flatten_width h]; simp [vol]

theorem put_full {β : Type} {n w : Nat} {rows : List (List β)} (hn : rows.length = n) (h : ∀ r ∈ rows, r.length = w) (v : β) :
    put (full [n, w] v) rows.flatten = .ok (Spec.table w rows) := put_table hn h _ rfl (by simp [full])

theorem put_full_map {α β : Type} {n w : Nat} {rows : List (List α)} (hn : rows.length = n) (h : ∀ r ∈ rows, r.length = w) (f : α → β) (v : β) :
    put (full [n, w] v) (rows.flatten.map f) = .ok (Spec.table w (rows.map (·.map f))) := by
  rw [List.map_flatten]
  refine put_full (by simpa using hn) ?_ v
  intro r hr
  obtain ⟨r', hr', rfl⟩ := List.mem_map.1 hr
  simpa using h r' hr'

theorem zip_right {α β : Type} : ∀ {l : List α} {rows : List β}, rows.length = l.length → ∀ r ∈ rows, ∃ a, (a, r) ∈ l.zip rows
  | [], [], _, r, hr => by simp at hr
  | a :: l, b :: rows, h, r, hr => by
    simp only [List.mem_cons] at hr
    rcases hr with rfl | hr
    · exact ⟨a, by simp⟩
    · obtain ⟨c, hc⟩ := zip_right (l := l) (rows := rows) (by simpa using h) r hr
      exact ⟨c, by simp [hc]⟩

theorem zip_map_mem {α γ β : Type} (f : α → γ) {l : List α} {rows : List β} {x : α × β} (hx : x ∈ l.zip rows) :
    (f x.1, x.2) ∈ (l.map f).zip rows := by
  rw [List.zip_map_left]
  exact List.mem_map.2 ⟨x, hx, rfl⟩

theorem zip_map_self {α β : Type} (f : α → β) : ∀ {l : List α} {x : α × β}, x ∈ l.zip (l.map f) → x.1 ∈ l ∧ x.2 = f x.1
  | [], x, hx => by simp at hx
  | a :: l, x, hx => by
    simp only [List.map_cons, List.zip_cons_cons, List.mem_cons] at hx
    rcases hx with rfl | hx
    · simp
    · have := zip_map_self f hx
      exact ⟨by simp [this.1], this.2⟩

theorem zip_fst_snd {α β : Type} : ∀ l : List (α × β), (l.map (·.1)).zip (l.map (·.2)) = l
  | [] => rfl
  | a :: l => by simp [zip_fst_snd l]

theorem span_map {α β : Type} (f : α → β) (l : List α) : span (Spec.vector (l.map f)) l.length = .ok (l.map f) := by
  have := span_vector (l.map f)
  rwa [List.length_map] at this

theorem tsSpan_map {α : Type} (f : α → Int) {l : List α} (h : l ≠ []) :
    tsSpan (some (Spec.vector (l.map f))) l.length = .ok (some (l.map f)) := by
  have := tsSpan_some (l.map f) (by simpa using h)
  rwa [List.length_map] at this

theorem putNbrs_rows {n count : Nat} {rows : List (List Nbr)} (hn : rows.length = n) (h : ∀ r ∈ rows, r.length = count) (default : Nbr) :
    putNbrs n count default rows.flatten = .ok (Spec.sampleOf count rows) := by
  simp only [putNbrs, put_full_map hn h, Res.bind, Res.map, Spec.sampleOf]

theorem zip_none {α β : Type} : ∀ l : List α, l.zip (List.replicate l.length (none : Option β)) = l.map fun i => (i, none)
  | [] => rfl
  | a :: l => by simp [List.replicate_succ, zip_none l]

theorem zip_times : ∀ l : List (Int × Int), (l.map (·.1)).zip ((l.map (·.2)).map some) = l.map fun q => (q.1, some q.2)
  | [] => rfl
  | a :: l => by
    have := zip_times l
    simp only [List.map_map] at this
    simp [this]

theorem selection_length {α : Type} {l : List α} {n : Nat} {d : α} {out : List α} (h : Spec.Selection l (List.replicate n d) out) :
    out.length = n := by
  obtain ⟨chosen, ps, rfl, h2, -⟩ := h
  simp only [List.length_replicate] at h2
  simp only [List.length_append, List.length_drop, List.length_replicate]
  omega

theorem sum_scaled (item : Nat) : ∀ feats : List (Nat × Nat), ((feats.map fun f => (f.1, f.2 * item)).map (·.2)).sum = (feats.map (·.2)).sum * item
  | [] => by simp
  | f :: feats => by
    have := sum_scaled item feats
    simp only [List.map_map] at this
    simp [this, Nat.add_mul]

theorem table_inj {β : Type} {w : Nat} : ∀ {a b : List (List β)}, (∀ r ∈ a, r.length = w) → (∀ r ∈ b, r.length = w) →
    Spec.table w a = Spec.table w b → a = b := by
  intro a b ha hb h
  simp only [Spec.table, Arr.mk.injEq, List.cons.injEq, and_true] at h
  obtain ⟨hl, hd'⟩ := h
  have hd : a.flatten = b.flatten := (List.map_inj_right (fun x y h => Option.some.inj h)).1 hd'
  clear hd'
  induction a generalizing b with
  | nil =>
    cases b with
    | nil => rfl
    | cons r b => simp at hl
  | cons r a ih =>
    cases b with
    | nil => simp at hl
    | cons r' b =>
      simp only [List.flatten_cons] at hd
      obtain ⟨h1, h2⟩ := List.append_inj hd (by rw [ha r (by simp), hb r' (by simp)])
      rw [h1, ih (fun r hr => ha r (by simp [hr])) (fun r hr => hb r (by simp [hr])) (by simpa using hl) h2]

/-! Types -/

theorem toI32_id {x : Int} (h : -(2 ^ 31) ≤ x ∧ x < 2 ^ 31) : toI32 x = x := by
  unfold toI32; omega

theorem etypes_eq {types : List Int} (h : Spec.Int32 types) : etypes types = sortUnique types := by
  have : (sortUnique types).map toI32 = (sortUnique types).map id :=
    List.map_congr_left fun t ht => toI32_id (h t ((sortUnique_mem t types).1 ht))
  simpa [etypes] using this

theorem neighbors_sortUnique (parts : List (List (List Rec))) (n : Int) (types : List Int) :
    Spec.neighbors parts n (sortUnique types) = Spec.neighbors parts n types := by
  simp only [Spec.neighbors, sortUnique_mem]

theorem neighborsAt_sortUnique (parts : List (List (List Rec))) (n t : Int) (types : List Int) :
    Spec.neighborsAt parts n t (sortUnique types) = Spec.neighborsAt parts n t types := by
  simp only [Spec.neighborsAt, sortUnique_mem]

theorem liveSlots_sortUnique (parts : List (List (List Rec))) (n t : Int) (types : List Int) :
    Spec.liveSlots parts n t (sortUnique types) = Spec.liveSlots parts n t types := by
  simp only [Spec.liveSlots, sortUnique_mem]

theorem noGap_sortUnique {parts : List (List (List Rec))} {n : Int} {types : List Int} (h : Spec.NoGap parts n types) :
    Spec.NoGap parts n (sortUnique types) := by
  simpa only [Spec.NoGap, sortUnique_mem] using h

theorem getD_counts {all perType : List Nat} (h : Spec.CountsOf all perType) {t : Nat} (ht : t < perType.length) :
    perType.getD t 0 = all.count t := by
  rw [h.1]
  simp [List.getD_eq_getElem?_getD, ht]

theorem count_mem_sum : ∀ (l : List Int) (all : List Nat), l.Pairwise (· < ·) → (∀ t ∈ l, 0 ≤ t) →
    (l.map fun t => all.count t.toNat).sum = (all.filter fun t : Nat => decide ((t : Int) ∈ l)).length
  | [], all, _, _ => by rw [List.filter_eq_nil_iff.2 (by simp)]; rfl
  | a :: l, all, hs, h0 => by
    rw [List.map_cons, List.sum_cons, count_mem_sum l all (List.pairwise_cons.1 hs).2 fun t ht => h0 t (by simp [ht])]
    have ha := h0 a (by simp)
    have hn : a ∉ l := fun hm => by have := (List.pairwise_cons.1 hs).1 a hm; omega
    clear hs
    induction all with
    | nil => simp
    | cons b all ih =>
      have e : (b == a.toNat) = decide ((b : Int) = a) := by
        by_cases hb : (b : Int) = a
        · have : b = a.toNat := by omega
          simp [this]; omega
        · have : b ≠ a.toNat := by omega
          simp [hb, this]
      rw [List.count_cons, e]
      by_cases hb : (b : Int) = a
      · have : (b : Int) ∉ l := by rw [hb]; exact hn
        simp [hb, hn] at ih ⊢
        omega
      · by_cases hl : (b : Int) ∈ l
        · simp [hb, hl] at ih ⊢; omega
        · simp [hb, hl] at ih ⊢; omega

/-- The columns of a table of edges give the edges back. -/
theorem edge_columns : ∀ (edges : List (Int × Int × Int)), Spec.Int32 (edges.map (·.2.2)) →
    ((edges.map (·.1)).zip ((edges.map (·.2.1)).zip (edges.map (·.2.2)))).map
      (fun x => (⟨x.1, x.2.1, toI32 x.2.2⟩ : EdgeId)) = edges.map fun e => ⟨e.1, e.2.1, e.2.2⟩
  | [], _ => rfl
  | e :: l, h32 => by
    have := toI32_id (h32 e.2.2 (by simp))
    simp only [List.map_cons, List.zip_cons_cons, this]
    rw [edge_columns l fun t ht => h32 t (by simp only [List.map_cons, List.mem_cons]; exact Or.inr ht)]

end DeepGNN
