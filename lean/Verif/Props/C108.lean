import Verif.Props.C15
import Verif.Props.C106
import Verif.Props.C107
import Verif.Proofs.UniformRate

/-
C108: uniform sampling with replacement gives every neighbour the same chance.
-/

namespace DeepGNN

open Toss
open DeepGNN.Spec (slotHits replacingNumbers fan)

variable {C : WeightCodec} {wm : Option Nat} {m : Meta} {parts : List (List (List Rec))} {g : Graph}

/-- However the neighbours are split into blocks (edge types, partitions), a slot holds each of them after the same number of draws: the
number of draws for `x` is the share of `x` among all elements. -/
theorem C108_fair {α : Type} [BEq α] [LawfulBEq α] (blocks : List (List α)) (x : α) :
    slotHits blocks x * blocks.flatten.length = blocks.flatten.count x * (drawsFor 0 blocks).length := by
  have := slot_fair x none 0 blocks
  simpa [slotHits] using this

/-- The full statement is that every neighbour over the requested types has the same share of the draws for every slot.  Missing: gaps in the requested
types, timestamps and single precision, see `C108_rate_partial` and `C108_overwritten_refuted`. -/
theorem C108_share_partial (h : Built C wm m parts g) (n : Int) (types : List Int) (hgap : Spec.NoGap parts n types)
    (hn : Spec.neighbors parts n types ≠ []) :
    ∃ blocks : List (List (Int × Int)), blocks.flatten = (Spec.neighbors parts n types).map Spec.reported ∧
      (∀ x, slotHits blocks x * (Spec.neighbors parts n types).length =
        ((Spec.neighbors parts n types).map Spec.reported).count x * (drawsFor 0 blocks).length) ∧
      ∀ (R : Draws) (default : Int × Int) (out : List (Int × Int)) (s : Nat), ∃ out' s',
        g.sampleWith1 R none types out.length default n out s = some (out', s') ∧ out'.length = out.length ∧
        ∀ i, i < out.length → ∃ d ∈ drawsFor 0 blocks, slotAfter none blocks d = out'[i]? := by
  obtain ⟨items, hg, -⟩ := h.graphOk
  have hf : (foundBlocks items n (sortUnique types)).flatten = (Spec.neighbors parts n types).map Spec.reported := by
    rw [foundBlocks_flatten, found_reported hg n types hgap]
  refine ⟨foundBlocks items n (sortUnique types), hf, ?_, ?_⟩
  · intro x
    have := C108_fair (foundBlocks items n (sortUnique types)) x
    rw [hf, List.length_map] at this
    exact this
  · intro R default out s
    obtain ⟨es, bs, h1, h2, h3⟩ := hg.sampleBlocks_eq n false (sortUnique types)
    obtain ⟨o, s', h4, h5, h6⟩ := offered_run (fun xs st => withReplacementAdd R (store xs) out.length xs.length st) out.length
      (foundBlocks items n (sortUnique types)) (by
        intro xs hx o seen s ho
        have := with_offered R (foundBlocks_ne _ _ _ xs hx) o seen s
        rw [ho] at this
        exact this) out 0 s rfl
    have hne : foundBlocks items n (sortUnique types) ≠ [] := by
      intro e
      rw [e] at hf
      exact hn (List.map_eq_nil_iff.1 hf.symm)
    refine ⟨o, s', ?_, h5, ?_⟩
    · simp only [Graph.sampleWith1, h1, Option.bind_eq_bind, Option.bind_some]
      have h2' : es.mapM (fun (x : Partition × Nat) =>
        match x with | (p, id) => p.sampleBlocks false id none (sortUnique types)) = _ := h2
      rw [h2', Option.bind_some, h3]
      rw [show List.foldlM (fun st (xs : List (Int × Int)) => withReplacementAdd R (store xs) out.length xs.length st)
        (out, 0, s) (foundBlocks items n (sortUnique types)) = _ from h4]
      simp only [Option.bind_some, length_flatten2, hf]
      rw [if_pos (by rw [List.length_map]; exact List.length_pos_iff.2 hn)]
      rfl
    · intro i hi
      obtain ⟨d, h7, h8⟩ := h6 i hi
      exact ⟨d, h7, by rw [← slotAfter_start _ hne h7, h8]⟩

theorem Toss.slotAfter_mem {α} : ∀ (blocks : List (List α)) (a : Option α) (seen : Nat) (d : List (Nat × Nat)), d ∈ drawsFor seen blocks →
    slotAfter a blocks d = a ∨ ∃ x ∈ blocks.flatten, slotAfter a blocks d = some x
  | [], a, seen, d, h => Or.inl (by cases d <;> rfl)
  | xs :: blocks, a, seen, d, h => by
    simp only [drawsFor, List.mem_flatMap, List.mem_map] at h
    obtain ⟨c, -, e, he, ds, hds, rfl⟩ := h
    have he := List.mem_range.1 he
    rw [slotAfter]
    rcases slotAfter_mem blocks (if c < xs.length then xs[e]? else a) _ ds hds with h1 | ⟨x, hx, h1⟩
    · rw [h1]
      split
      · exact Or.inr ⟨xs[e], by simp, List.getElem?_eq_getElem he⟩
      · exact Or.inl rfl
    · exact Or.inr ⟨x, by simp [hx], h1⟩

/-- The first block fills the slot with one of its elements. -/
theorem Toss.slotAfter_found {α} {blocks : List (List α)} (hb : blocks ≠ []) {d : List (Nat × Nat)} (hd : d ∈ drawsFor 0 blocks) :
    ∃ x ∈ blocks.flatten, slotAfter none blocks d = some x := by
  match blocks, hb with
  | xs :: blocks, _ =>
    have hd' := hd
    simp only [drawsFor, List.mem_flatMap, List.mem_map] at hd
    obtain ⟨c, hc, e, he, ds, hds, rfl⟩ := hd
    have hc := List.mem_range.1 hc
    have he := List.mem_range.1 he
    rw [slotAfter, if_pos (by omega), List.getElem?_eq_getElem he]
    rcases slotAfter_mem blocks (some xs[e]) _ ds hds with h1 | ⟨x, hx, h1⟩
    · exact ⟨xs[e], by simp, h1⟩
    · exact ⟨x, by simp [hx], h1⟩

theorem sampleRounded_blocks {items : List Item} (hg : GraphOk C m g items parts) (T : Nat → Nat) (n : Int) (types : List Int) (default : Int × Int)
    (count : Nat) (out : List (Int × Int)) (s : Nat) (hne : (foundBlocks items n (sortUnique types)).flatten ≠ []) :
    g.sampleRounded1 T none types count default n out s =
      ((foundBlocks items n (sortUnique types)).foldlM (fun st xs => addRounded T (store xs) count xs.length st) (out, 0, s)).map fun x => (x.1, x.2.2) := by
  obtain ⟨es, bs, h1, h2, h3⟩ := hg.sampleBlocks_eq n false (sortUnique types)
  simp only [Graph.sampleRounded1, h1, Option.bind_eq_bind, Option.bind_some]
  have h2' : es.mapM (fun (x : Partition × Nat) =>
    match x with | (p, id) => p.sampleBlocks false id none (sortUnique types)) = _ := h2
  rw [h2', Option.bind_some, h3]
  simp only [length_flatten2]
  rw [Option.map_eq_bind]
  congr 1
  funext x
  rw [if_pos (List.length_pos_iff.2 hne)]
  rfl

/-- In single precision, too, only neighbours over the requested types are returned, for all results `T` of the generator. -/
theorem C108_in_range (h : Built C wm m parts g) (n : Int) (types : List Int) (hgap : Spec.NoGap parts n types)
    (hn : Spec.neighbors parts n types ≠ []) (T : Nat → Nat) (hT : ∀ i, ∃ x, toss x = some (T i)) (default : Int × Int) (out : List (Int × Int)) (s : Nat) :
    ∃ out' s', g.sampleRounded1 T none types out.length default n out s = some (out', s') ∧ out'.length = out.length ∧
      ∀ x ∈ out', x ∈ (Spec.neighbors parts n types).map Spec.reported := by
  obtain ⟨items, hg, -⟩ := h.graphOk
  have hf : (foundBlocks items n (sortUnique types)).flatten = (Spec.neighbors parts n types).map Spec.reported := by
    rw [foundBlocks_flatten, found_reported hg n types hgap]
  have hne : (foundBlocks items n (sortUnique types)).flatten ≠ [] := by
    rw [hf]
    exact fun e => hn (List.map_eq_nil_iff.1 e)
  obtain ⟨o, s', h4, h5, h6⟩ := offered_run (fun xs st => addRounded T (store xs) out.length xs.length st) out.length
    (foundBlocks items n (sortUnique types)) (by
      intro xs hx o seen s ho
      obtain ⟨o', s', e1, e2, e3⟩ := rounded_offered T (fun i => toss_le (hT i).choose_spec) (foundBlocks_ne _ _ _ xs hx) o seen s
      rw [ho] at e1 e2 e3
      exact ⟨o', s', e1, e2, fun i hi => (e3 i hi).1⟩) out 0 s rfl
  refine ⟨o, s', by rw [sampleRounded_blocks hg T n types default _ out s hne, h4]; rfl, h5, ?_⟩
  intro x hx
  obtain ⟨i, hi, rfl⟩ := List.mem_iff_getElem.1 hx
  obtain ⟨d, h7, h8⟩ := h6 i (by omega)
  have hb : foundBlocks items n (sortUnique types) ≠ [] := fun e => hne (by rw [e]; rfl)
  rw [slotAfter_start _ hb h7] at h8
  obtain ⟨x, hx, h9⟩ := slotAfter_found hb h7
  rw [h8, List.getElem?_eq_getElem hi] at h9
  rw [Option.some.inj h9, ← hf]
  exact hx

/-- In single precision the share of the numbers of the generator that replace a slot is `w / seen` up to a relative error of 1 / 2^21. -/
theorem C108_rate_partial {w seen : Nat} (hw : w ≤ seen) (hs : 0 < seen) :
    seen * replacingNumbers w seen ≤ w * 2 ^ 64 + w * 2 ^ 43 + 4 * seen ∧
      w * 2 ^ 64 ≤ seen * replacingNumbers w seen + w * 2 ^ 43 + 4 * seen := replacing_close hw hs

namespace Toss

/-- The largest result of the generator. -/
abbrev top : Nat := 2 ^ 64 - 2 ^ 40

theorem toss_top : toss (2 ^ 64 - 2 ^ 40) = some top := by decide +kernel

theorem toss_zero : toss 0 = some 0 := by decide +kernel

/-- The results `L` of the generator starting at draw `s`. -/
def Starts (T : Nat → Nat) (s : Nat) (L : List Nat) : Prop := ∀ j t, L[j]? = some t → T (s + j) = t

theorem Starts.append {T : Nat → Nat} {s : Nat} {L M : List Nat} (h : Starts T s (L ++ M)) : Starts T s L ∧ Starts T (s + L.length) M := by
  constructor
  · intro j t hj
    refine h j t ?_
    rw [List.getElem?_append_left (List.getElem?_eq_some_iff.1 hj).1]
    exact hj
  · intro j t hj
    rw [Nat.add_assoc]
    refine h _ t ?_
    rw [List.getElem?_append_right (by omega), Nat.add_sub_cancel_left]
    exact hj

/-- One slot, kept. -/
theorem one_kept {α : Type} {xs : List α} {o : α} {seen s : Nat} {T : Nat → Nat} (h0 : 0 < seen) (h : seen + xs.length ≤ 2 ^ 24) (hT : Starts T s [top]) :
    addRounded T (store xs) 1 xs.length ([o], seen, s) = some ([o], seen + xs.length, s + 1) := by
  have hr := rate_kept (w := xs.length) (seen := seen + xs.length) (by omega) h
  have ht : T s = top := hT 0 top rfl
  have hne : rate xs.length (seen + xs.length) ≠ 2 ^ 64 := by omega
  have hrep : replaces xs.length (seen + xs.length) (T s) = false := by
    unfold replaces
    rw [ht, Bool.or_eq_false_iff]
    exact ⟨beq_eq_false_iff_ne.2 hne, decide_eq_false (by unfold top; omega)⟩
  simp only [addRounded, List.range_succ, List.range_zero, List.nil_append, List.foldlM_cons, List.foldlM_nil]
  rw [if_neg hne, if_neg (by rw [hrep]; decide)]
  rfl

/-- One slot, replaced by element `k`. -/
theorem one_replaced {α : Type} {xs : List α} {o : α} {seen s : Nat} {t : Nat} {k : Nat} (hk : k < xs.length) (h : seen + xs.length ≤ 2 ^ 24)
    (ht : index xs.length t = k) : ∃ L : List Nat, (∀ u ∈ L, u = 0 ∨ u = t) ∧ ∀ T, Starts T s L →
      addRounded T (store xs) 1 xs.length ([o], seen, s) = some ([xs[k]], seen + xs.length, s + L.length) := by
  by_cases hr : rate xs.length (seen + xs.length) = 2 ^ 64
  · refine ⟨[t], by simp, fun T hT => ?_⟩
    have h1 : T s = t := hT 0 t rfl
    simp only [addRounded, List.range_succ, List.range_zero, List.nil_append, List.foldlM_cons, List.foldlM_nil]
    rw [if_pos hr, h1, ht, store_some (by simp) hk]
    rfl
  · refine ⟨[0, t], by simp, fun T hT => ?_⟩
    have h1 : T s = 0 := hT 0 0 rfl
    have h2 : T (s + 1) = t := hT 1 t rfl
    have hp := rate_pos (w := xs.length) (seen := seen + xs.length) (by omega) (by omega) (by omega)
    have hrep : replaces xs.length (seen + xs.length) (T s) = true := by
      unfold replaces
      rw [h1, Bool.or_eq_true]
      exact Or.inr (decide_eq_true hp)
    simp only [addRounded, List.range_succ, List.range_zero, List.nil_append, List.foldlM_cons, List.foldlM_nil]
    rw [if_neg hr, if_pos hrep, h2, ht, store_some (by simp) hk]
    rfl

/-- One slot, kept over several blocks. -/
theorem kept_run {α : Type} (o : α) : ∀ (blocks : List (List α)) (seen s : Nat), 0 < seen → seen + blocks.flatten.length ≤ 2 ^ 24 → ∀ T,
    Starts T s (List.replicate blocks.length top) → ∃ st,
      blocks.foldlM (fun st xs => addRounded T (store xs) 1 xs.length st) ([o], seen, s) = some ([o], st)
  | [], seen, s, _, _, T, _ => ⟨_, rfl⟩
  | xs :: blocks, seen, s, h0, h, T, hT => by
    rw [List.flatten_cons, List.length_append] at h
    rw [List.length_cons, List.replicate_succ, ← List.singleton_append] at hT
    obtain ⟨t1, t2⟩ := hT.append
    obtain ⟨st, hst⟩ := kept_run o blocks (seen + xs.length) (s + 1) (by omega) (by omega) T t2
    refine ⟨st, ?_⟩
    rw [List.foldlM_cons, one_kept h0 (by omega) t1]
    exact hst

theorem reach_run {α : Type} {x : α} : ∀ (blocks : List (List α)) (o : α) (seen s : Nat), (∀ xs ∈ blocks, xs ≠ []) → x ∈ blocks.flatten →
    seen + blocks.flatten.length ≤ 2 ^ 23 → ∃ L : List Nat, (∀ t ∈ L, ∃ y, toss y = some t) ∧ ∀ T, Starts T s L → ∃ st,
      blocks.foldlM (fun st xs => addRounded T (store xs) 1 xs.length st) ([o], seen, s) = some ([x], st)
  | [], o, seen, s, _, hx, _ => by simp at hx
  | xs :: blocks, o, seen, s, hb, hx, h => by
    rw [List.flatten_cons, List.length_append] at h
    have hp : 0 < xs.length := List.length_pos_iff.2 (hb xs List.mem_cons_self)
    by_cases hm : x ∈ blocks.flatten
    · -- the first block may do anything
      obtain ⟨y, -, hy⟩ := C106_reachable_partial (n := xs.length) (by omega) (k := 0) hp
      obtain ⟨t, ht, hi⟩ := pick_some hy
      obtain ⟨L, l1, l2⟩ := one_replaced (o := o) (seen := seen) (s := s) hp (by omega) hi
      obtain ⟨M, m1, m2⟩ := reach_run blocks xs[0] (seen + xs.length) (s + L.length) (fun ys hy => hb ys (List.mem_cons_of_mem _ hy)) hm (by omega)
      refine ⟨L ++ M, ?_, ?_⟩
      · intro u hu
        rcases List.mem_append.1 hu with hu | hu
        · rcases l1 u hu with rfl | rfl
          · exact ⟨0, toss_zero⟩
          · exact ⟨y, ht⟩
        · exact m1 u hu
      · intro T hT
        obtain ⟨t1, t2⟩ := hT.append
        obtain ⟨st, hst⟩ := m2 T t2
        refine ⟨st, ?_⟩
        rw [List.foldlM_cons, l2 T t1]
        exact hst
    · have hx' : x ∈ xs := by
        rw [List.flatten_cons, List.mem_append] at hx
        exact hx.resolve_right hm
      obtain ⟨k, hk, rfl⟩ := List.mem_iff_getElem.1 hx'
      obtain ⟨y, -, hy⟩ := C106_reachable_partial (n := xs.length) (by omega) hk
      obtain ⟨t, ht, hi⟩ := pick_some hy
      obtain ⟨L, l1, l2⟩ := one_replaced (o := o) (seen := seen) (s := s) hk (by omega) hi
      refine ⟨L ++ List.replicate blocks.length top, ?_, ?_⟩
      · intro u hu
        rcases List.mem_append.1 hu with hu | hu
        · rcases l1 u hu with rfl | rfl
          · exact ⟨0, toss_zero⟩
          · exact ⟨y, ht⟩
        · exact ⟨_, (List.eq_of_mem_replicate hu) ▸ toss_top⟩
      · intro T hT
        obtain ⟨t1, t2⟩ := hT.append
        obtain ⟨st, hst⟩ := kept_run xs[k] blocks (seen + xs.length) (s + L.length) (by omega) (by omega) T t2
        refine ⟨st, ?_⟩
        rw [List.foldlM_cons, l2 T t1]
        exact hst

end Toss

/-- Every neighbour of a node with up to 2^23 neighbours over the requested types is returned for some results of the generator.  Missing: larger nodes, see
`C108_overwritten_refuted`. -/
theorem C108_reachable_partial (h : Built C wm m parts g) (n : Int) (types : List Int) (hgap : Spec.NoGap parts n types)
    (hd : (Spec.neighbors parts n types).length ≤ 2 ^ 23) (x : Int × Int) (hx : x ∈ (Spec.neighbors parts n types).map Spec.reported)
    (default o : Int × Int) (s : Nat) :
    ∃ T : Nat → Nat, (∀ i, ∃ y, toss y = some (T i)) ∧ ∃ s', g.sampleRounded1 T none types 1 default n [o] s = some ([x], s') := by
  obtain ⟨items, hg, -⟩ := h.graphOk
  have hf : (foundBlocks items n (sortUnique types)).flatten = (Spec.neighbors parts n types).map Spec.reported := by
    rw [foundBlocks_flatten, found_reported hg n types hgap]
  obtain ⟨L, h1, h2⟩ := reach_run (x := x) (foundBlocks items n (sortUnique types)) o 0 s (foundBlocks_ne _ _ _) (by rw [hf]; exact hx)
    (by rw [hf, List.length_map]; omega)
  refine ⟨fun j => L.getD (j - s) 0, ?_, ?_⟩
  · intro i
    show ∃ y, toss y = some (L.getD (i - s) 0)
    rw [List.getD_eq_getElem?_getD]
    cases e : L[i - s]? with
    | none => exact ⟨0, toss_zero⟩
    | some t => exact h1 t (List.mem_of_getElem? e)
  · obtain ⟨st, hst⟩ := h2 (fun j => L.getD (j - s) 0) (by
      intro j t hj
      simp [Nat.add_sub_cancel_left, hj])
    rw [sampleRounded_blocks hg _ n types default 1 [o] s (by rw [hf]; exact List.ne_nil_of_mem hx), hst]
    exact ⟨_, rfl⟩

theorem fan_blockIds (n : Int) (edges : List (Int × Int)) (hd : ∀ e ∈ edges, e.1 ≠ -1) : blockIds none (fan n edges).flatten.flatten = [n] := by
  have : ∀ edges : List (Int × Int), (∀ e ∈ edges, e.1 ≠ -1) →
      blockIds (some n) (edges.map fun e => (⟨n, e.1, e.2, 1, none, none, []⟩ : Rec)) = [] := by
    intro edges h
    induction edges with
    | nil => rfl
    | cons e es ih =>
      rw [List.map_cons, blockIds, if_neg (h e List.mem_cons_self), if_pos rfl]
      exact ih fun x hx => h x (List.mem_cons_of_mem _ hx)
  simp only [fan, List.flatten_cons, List.flatten_nil, List.append_nil, blockIds, if_true]
  rw [this edges hd]

theorem fan_effEdges (n : Int) (edges : List (Int × Int)) (hd : ∀ e ∈ edges, e.1 ≠ -1) (c r : Int) :
    effEdges c r (edges.map fun e => (⟨n, e.1, e.2, 1, none, none, []⟩ : Rec)) =
      edges.map fun e => (n, effEdge c r ⟨n, e.1, e.2, 1, none, none, []⟩) := by
  induction edges with
  | nil => rfl
  | cons e es ih =>
    rw [List.map_cons, effEdges, if_neg (hd e List.mem_cons_self), ih fun x hx => hd x (List.mem_cons_of_mem _ hx), List.map_cons]

/-- The blocks offered for a fan. -/
theorem fan_blocks {n : Int} {edges : List (Int × Int)} (hd : ∀ e ∈ edges, e.1 ≠ -1) {items : List Item} (hg : GraphOk C m g items (fan n edges))
    (types : List Int) : foundBlocks items n types = (walk (·.1) (runs (·.2) edges) types).map (·.2) := by
  have hs := hg.src
  obtain ⟨it, rfl, hf⟩ : ∃ it, items = [it] ∧ ItemFrom [⟨n, -1, 0, 1, none, none, []⟩ :: edges.map fun e => ⟨n, e.1, e.2, 1, none, none, []⟩] it := by
    unfold fan at hs
    cases hs with
    | cons hf hs =>
      cases hs with
      | nil => exact ⟨_, rfl, hf⟩
  have hids := hf.ids
  have hb := fan_blockIds n edges hd
  simp only [fan, List.flatten_cons, List.flatten_nil, List.append_nil] at hb hids
  rw [hb] at hids
  obtain ⟨b, hbl, hbid⟩ : ∃ b, it.blks = [b] ∧ b.id = n := by
    match hm : it.blks, hids with
    | [b], e => exact ⟨b, rfl, by simpa using e⟩
  have hed := hf.edges
  rw [hbl] at hed
  simp only [List.flatMap_cons, List.flatMap_nil, List.append_nil, effEdges, if_true] at hed
  rw [fan_effEdges n edges hd] at hed
  have hed' : b.edges = edges.map fun e => effEdge (pyOr none 0) (pyOr none (-1)) ⟨n, e.1, e.2, 1, none, none, []⟩ := by
    have := congrArg (List.map Prod.snd) hed
    simpa [Function.comp_def] using this
  simp only [foundBlocks, List.flatMap_cons, List.flatMap_nil, List.append_nil, hbl]
  rw [List.filter_cons_of_pos (by simpa using hbid), List.filter_nil]
  simp only [List.flatMap_cons, List.flatMap_nil, List.append_nil, walkBlocks]
  rw [hed', runs_map, walk_map, List.map_map]
  apply List.map_congr_left
  intro x _
  simp [edgePair, effEdge, Function.comp_def]

theorem runs_two {α} (key : α → Int) {t1 t2 : Int} (hne : t1 ≠ t2) (b : List α) (hb : b ≠ []) (hkb : ∀ x ∈ b, key x = t2) :
    ∀ a : List α, a ≠ [] → (∀ x ∈ a, key x = t1) → runs key (a ++ b) = [(t1, a), (t2, b)]
  | [], h, _ => absurd rfl h
  | [x], _, h => by
    rw [List.singleton_append, runs, runs_const key t2 b hb hkb]
    have := h x (by simp)
    simp [this, hne]
  | x :: y :: a, _, h => by
    have ih := runs_two key hne b hb hkb (y :: a) (by simp) fun x hx => h x (List.mem_cons_of_mem _ hx)
    rw [List.cons_append, runs, ih]
    simp [h x]

theorem fan_two {n t1 t2 : Int} (ht : t1 < t2) {a b : List Int} (ha : a ≠ []) (hb : b ≠ []) (hd : ∀ d ∈ a ++ b, d ≠ -1) {items : List Item}
    (hg : GraphOk C m g items (fan n (a.map (·, t1) ++ b.map (·, t2)))) :
    foundBlocks items n (sortUnique [t1, t2]) = [a.map (·, t1), b.map (·, t2)] := by
  have hs : sortUnique [t1, t2] = [t1, t2] := by
    simp [sortUnique, insertUnique, ht]
  rw [hs, fan_blocks (by
    intro e he
    rcases List.mem_append.1 he with he | he <;> obtain ⟨d, hm, rfl⟩ := List.mem_map.1 he
    · exact hd d (List.mem_append_left _ hm)
    · exact hd d (List.mem_append_right _ hm)) hg]
  rw [runs_two (fun x : Int × Int => x.2) (show t1 ≠ t2 by omega) (b.map (·, t2)) (by simpa using hb) (by simp) (a.map (·, t1)) (by simpa using ha) (by simp)]
  rw [walk_eq_filter _ _ _ (by simpa using ht) (by simpa using ht)]
  · simp
  · intro p x y q e _ _
    cases p with
    | nil =>
      simp only [List.nil_append, List.cons.injEq] at e
      rw [← e.1]; simp
    | cons z p =>
      have := congrArg List.length e
      simp at this
      omega

/-- The claim is false for large nodes: a node has edges of two types, and there are so many of the second type that `float` cannot tell their
number from the number of all edges.  Then no edge of the first type is ever returned, whatever the generator returns. -/
theorem C108_overwritten_refuted {n t1 t2 : Int} (ht : t1 < t2) {a b : List Int} (ha : a ≠ []) (hb : b ≠ []) (hd : ∀ d ∈ a ++ b, d ≠ -1)
    (h : Built C wm m (fan n (a.map (·, t1) ++ b.map (·, t2))) g) (hr : round24 b.length = round24 (a.length + b.length))
    (T : Nat → Nat) (hT : ∀ i, ∃ x, toss x = some (T i)) (default : Int × Int) (out : List (Int × Int)) (s : Nat) :
    ∃ out' s', g.sampleRounded1 T none [t1, t2] out.length default n out s = some (out', s') ∧ out'.length = out.length ∧
      ∀ x ∈ out', x.2 = t2 := by
  obtain ⟨items, hg, -⟩ := h.graphOk
  have hf := fan_two ht ha hb hd hg
  have hT' : ∀ i, T i ≤ 2 ^ 64 - 2 ^ 40 := fun i => toss_le (hT i).choose_spec
  obtain ⟨o1, s1, e1, e2, -⟩ := rounded_offered T hT' (xs := a.map (·, t1)) (by simpa using ha) out 0 s
  obtain ⟨o2, s2, f1, f2, f3⟩ := rounded_offered T hT' (xs := b.map (·, t2)) (by simpa using hb) o1 (0 + (a.map (·, t1)).length) s1
  refine ⟨o2, s2, ?_, by omega, ?_⟩
  · rw [sampleRounded_blocks hg T n _ default _ out s (by rw [hf]; simpa using fun h => absurd h ha), hf]
    rw [List.foldlM_cons, e1]
    simp only [Option.bind_eq_bind, Option.bind_some, List.foldlM_cons, List.foldlM_nil]
    rw [e2] at f1
    rw [f1]
    rfl
  · intro x hx
    obtain ⟨i, hi, rfl⟩ := List.mem_iff_getElem.1 hx
    have hone : rate (b.map (·, t2)).length (0 + (a.map (·, t1)).length + (b.map (·, t2)).length) = 2 ^ 64 := by
      simp only [List.length_map, Nat.zero_add]
      exact rate_one (by have := List.length_pos_iff.2 hb; omega) hr
    obtain ⟨x, hx, e⟩ := (f3 i (by omega)).2 hone
    rw [List.getElem?_eq_getElem hi] at e
    rw [Option.some.inj e]
    obtain ⟨d, -, rfl⟩ := List.mem_map.1 hx
    rfl

/-- Every fan with sorted types can be converted and loaded, whatever its size. -/
theorem fan_built {n : Int} {edges : List (Int × Int)} (hn : 0 ≤ n ∧ n < 2 ^ 63) (ht : ∀ e ∈ edges, 0 ≤ e.2 ∧ e.2 < 2 ^ 31)
    (hd : ∀ e ∈ edges, 0 ≤ e.1 ∧ e.1 < 2 ^ 63) (ho : edges.Pairwise fun x y => x.2 ≤ y.2) (hl : edges.length < 2 ^ 32) :
    ∃ g, Built intCodec none ⟨0, 0, -1⟩ (fan n edges) g := by
  have hrec : ∀ r ∈ (fan n edges).flatten.flatten, r = ⟨n, -1, 0, 1, none, none, []⟩ ∨ ∃ e ∈ edges, r = ⟨n, e.1, e.2, 1, none, none, []⟩ := by
    intro r hr
    simp only [fan, List.flatten_cons, List.flatten_nil, List.append_nil, List.mem_cons, List.mem_map] at hr
    rcases hr with rfl | ⟨e, he, rfl⟩
    · exact Or.inl rfl
    · exact Or.inr ⟨e, he, rfl⟩
  obtain ⟨-, g, -, -, hb⟩ := C58_accepts intCodec none (fan n edges) (by
    intro calls hc
    have hc' : calls ∈ fan n edges := hc
    have hcf : ∀ r ∈ calls.flatten, r ∈ (fan n edges).flatten.flatten := by
      intro r hr
      obtain ⟨l, h1, h2⟩ := List.mem_flatten.1 hr
      exact List.mem_flatten.2 ⟨l, List.mem_flatten.2 ⟨calls, hc', h1⟩, h2⟩
    refine ⟨?_, ?_, ?_⟩
    · intro r hr
      rcases hrec r (hcf r hr) with rfl | ⟨e, he, rfl⟩
      · exact ⟨hn, Or.inl rfl, by dsimp only; decide, by simp [Spec.TimeFits], by simp [Spec.TimeFits]⟩
      · exact ⟨hn, Or.inr (hd e he), ht e he, by simp [Spec.TimeFits], by simp [Spec.TimeFits]⟩
    · intro a r s b e h1 h2 _
      simp only [fan, List.mem_singleton] at hc
      subst hc
      simp only [List.flatten_cons, List.flatten_nil, List.append_nil] at e
      cases a with
      | nil =>
        simp only [List.nil_append, List.cons.injEq] at e
        rw [← e.1] at h1
        simp at h1
      | cons z a =>
        simp only [List.cons_append, List.cons.injEq] at e
        have hp : (edges.map fun e => (⟨n, e.1, e.2, 1, none, none, []⟩ : Rec)).Pairwise fun x y => x.typ ≤ y.typ := by
          rw [List.pairwise_map]
          exact ho
        rw [e.2] at hp
        exact (List.pairwise_cons.1 (List.pairwise_append.1 hp).2.1).1 s (by simp)
    · intro call hcall
      simp only [fan, List.mem_singleton] at hc
      subst hc
      rw [List.mem_singleton] at hcall
      subst hcall
      simp only [Spec.LifetimesNested, if_true]
      have : ∀ es : List (Int × Int), (∀ e ∈ es, 0 ≤ e.1) →
          Spec.LifetimesNested 0 none (es.map fun e => (⟨n, e.1, e.2, 1, none, none, []⟩ : Rec)) := by
        intro es hes
        induction es with
        | nil => trivial
        | cons e es ih =>
          rw [List.map_cons, Spec.LifetimesNested, if_neg (by have := hes e List.mem_cons_self; show ¬ e.1 = -1; omega)]
          exact ⟨by simp [Spec.removalLe], ih fun x hx => hes x (List.mem_cons_of_mem _ hx)⟩
      exact this edges fun e he => (hd e he).1)
    (by
      intro calls hc
      simp only [fan, List.mem_singleton] at hc
      subst hc
      simp only [Spec.inputSize, List.flatten_cons, List.flatten_nil, List.append_nil, List.map_cons, List.map_map, List.sum_cons]
      have : ((edges.map (Spec.recordSize ∘ fun e => (⟨n, e.1, e.2, 1, none, none, []⟩ : Rec)))).sum = edges.length * 24 := by
        rw [show (Spec.recordSize ∘ fun e : Int × Int => (⟨n, e.1, e.2, 1, none, none, []⟩ : Rec)) = fun _ => 24 from rfl, List.map_const',
          List.sum_replicate_nat]
      rw [this]
      simp only [Spec.recordSize, List.map_nil, List.sum_nil]
      omega)
    (by
      intro r hr
      have hr' := (List.mem_filter.1 hr).1
      have hr2 := (List.mem_filter.1 hr).2
      rcases hrec r hr' with rfl | ⟨e, he, rfl⟩
      · simp at hr2
      · exact ⟨by dsimp only; decide, by dsimp only; decide⟩)
    ⟨0, 0, -1⟩ (by simp) (by
      intro r hr
      rcases hrec r hr with rfl | ⟨e, he, rfl⟩ <;> simp)
  exact ⟨g, hb⟩

/-- One edge of type 0 and 2^24 edges of type 1: the first is never returned. -/
example (T : Nat → Nat) (hT : ∀ i, ∃ x, toss x = some (T i)) :
    ∃ g, Built intCodec none ⟨0, 0, -1⟩ (fan 7 ([(1 : Int)].map (·, 0) ++ ((List.range (2 ^ 24)).map Int.ofNat).map (·, 1))) g ∧
      ∃ out s', g.sampleRounded1 T none [0, 1] 2 (-1, -1) 7 [(0, 0), (0, 0)] 0 = some (out, s') ∧ (1, 0) ∉ out := by
  have hlen : ((List.range (2 ^ 24)).map Int.ofNat).length = 2 ^ 24 := by rw [List.length_map, List.length_range]
  have hd : ∀ d ∈ (List.range (2 ^ 24)).map Int.ofNat, 0 ≤ d ∧ d < 2 ^ 63 := by
    intro d hm
    obtain ⟨k, hk, rfl⟩ := List.mem_map.1 hm
    have := List.mem_range.1 hk
    simp only [Int.ofNat_eq_natCast]
    omega
  generalize (List.range (2 ^ 24)).map Int.ofNat = b at *
  have hb : b ≠ [] := by
    rintro rfl
    simp at hlen
  obtain ⟨g, hg⟩ := fan_built (n := 7) (edges := [(1 : Int)].map (·, 0) ++ b.map (·, 1)) (by decide)
    (by
      intro e he
      rcases List.mem_append.1 he with he | he <;> obtain ⟨d, -, rfl⟩ := List.mem_map.1 he <;> dsimp only <;> decide)
    (by
      intro e he
      rcases List.mem_append.1 he with he | he <;> obtain ⟨d, hm, rfl⟩ := List.mem_map.1 he
      · obtain rfl := List.mem_singleton.1 hm
        dsimp only; decide
      · exact hd d hm)
    (by
      rw [List.pairwise_append]
      refine ⟨by simp, ?_, ?_⟩
      · rw [List.pairwise_map]
        exact List.pairwise_of_forall fun _ _ => Int.le_refl _
      · intro x hx y hy
        obtain ⟨_, -, rfl⟩ := List.mem_map.1 hx
        obtain ⟨_, -, rfl⟩ := List.mem_map.1 hy
        dsimp only; decide)
    (by rw [List.length_append, List.length_map, List.length_map, hlen]; decide)
  refine ⟨g, hg, ?_⟩
  obtain ⟨out, s', h1, -, h2⟩ := C108_overwritten_refuted (t1 := 0) (t2 := 1) (by decide) (a := [1]) (by simp) hb (by
    intro d hm
    rcases List.mem_append.1 hm with hm | hm
    · obtain rfl := List.mem_singleton.1 hm
      decide
    · have := hd d hm
      omega) hg (by rw [hlen]; decide +kernel) T hT (-1, -1) [(0, 0), (0, 0)] 0
  exact ⟨out, s', h1, fun hm => absurd (h2 _ hm) (by decide)⟩

/-- Two blocks, one with an element twice: of the 90 draws the share of that element is 2 / 5. -/
example : slotHits [[1, 2, 1], [3, 4]] 1 = 36 ∧ slotHits [[1, 2, 1], [3, 4]] 3 = 18 ∧ (drawsFor 0 [[1, 2, 1], [3, 4]]).length = 90 := by decide +kernel

example : ∃ g, Built intCodec none ⟨0, 0, -1⟩ (fan 1 [(5, 0), (6, 0), (7, 1)]) g ∧
    (∃ T : Nat → Nat, (∀ i, ∃ y, toss y = some (T i)) ∧ ∃ s', g.sampleRounded1 T none [0, 1] 1 (-1, -1) 1 [(0, 0)] 0 = some ([(5, 0)], s')) ∧
    ∃ blocks : List (List (Int × Int)), blocks.flatten = [(5, 0), (6, 0), (7, 1)] ∧ slotHits blocks (5, 0) * 3 = (drawsFor 0 blocks).length := by
  obtain ⟨g, hb⟩ := fan_built (n := 1) (edges := [(5, 0), (6, 0), (7, 1)]) (by decide) (by decide) (by decide) (by decide) (by decide)
  refine ⟨g, hb, C108_reachable_partial hb 1 [0, 1] (by decide +kernel) (by decide +kernel) (5, 0) (by decide +kernel) (-1, -1) (0, 0) 0, ?_⟩
  obtain ⟨blocks, h1, h2, -⟩ := C108_share_partial hb 1 [0, 1] (by decide +kernel) (by decide +kernel)
  rw [show (Spec.neighbors (fan 1 [(5, 0), (6, 0), (7, 1)]) 1 [0, 1]).map Spec.reported = [(5, 0), (6, 0), (7, 1)] by decide +kernel] at h1
  refine ⟨blocks, h1, ?_⟩
  have := h2 (5, 0)
  rw [show (Spec.neighbors (fan 1 [(5, 0), (6, 0), (7, 1)]) 1 [0, 1]).length = 3 by decide +kernel,
    show ((Spec.neighbors (fan 1 [(5, 0), (6, 0), (7, 1)]) 1 [0, 1]).map Spec.reported).count (5, 0) = 1 by decide +kernel] at this
  omega

end DeepGNN
