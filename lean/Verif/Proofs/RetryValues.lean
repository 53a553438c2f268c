import Verif.Proofs.Retry
import Verif.Proofs.RemoteWeighted

/-
Failed calls and repeated attempts: strings, sparse features and sampled neighbours.
-/

namespace DeepGNN.Retry

variable {ρ σ ε β : Type}

/-! Methods that store replies in a vector. -/

def recvOf : Act ρ ε → Option (Nat × ρ)
  | .recv i r => some (i, r)
  | .step _ _ => none

theorem foldl_set (rs : List ρ) (ps : List (Nat × ρ)) (hps : ∀ p ∈ ps, rs[p.1]? = some p.2) (l : List ρ) (hl : l.length = rs.length)
    (i : Nat) (hi : (∃ p ∈ ps, p.1 = i) ∨ l[i]? = rs[i]?) : (ps.foldl (fun l p => l.set p.1 p.2) l)[i]? = rs[i]? := by
  induction ps generalizing l with
  | nil =>
    rcases hi with ⟨p, hp, -⟩ | hi
    · cases hp
    · exact hi
  | cons q ps ih =>
    rw [List.foldl_cons]
    refine ih (fun p hp => hps p (List.mem_cons_of_mem _ hp)) _ (by simpa using hl) ?_
    by_cases hq : q.1 = i
    · right
      have hr := hps q (List.mem_cons_self ..)
      obtain ⟨hlt, -⟩ := List.getElem?_eq_some_iff.1 hr
      rw [hq, List.getElem?_set_self (by omega), ← hr, hq]
    · rcases hi with ⟨p, hp, rfl⟩ | hi
      · rcases List.mem_cons.1 hp with rfl | hp
        · exact absurd rfl hq
        · exact .inl ⟨p, hp, rfl⟩
      · right
        rw [List.getElem?_set_ne hq, hi]

theorem foldl_set_length (ps : List (Nat × ρ)) (l : List ρ) : (ps.foldl (fun l p => l.set p.1 p.2) l).length = l.length := by
  induction ps generalizing l with
  | nil => rfl
  | cons q ps ih => rw [List.foldl_cons, ih, List.length_set]

theorem mem_recvOf {m : Method ρ σ ε β} {rs : List ρ} {tr : List (Act ρ ε)} (hs : ∀ x ∈ tr, x.shard < rs.length)
    (hc : ∀ i, i < rs.length → ∃ r, rs[i]? = some r ∧ only i tr = contribution m i r) (i : Nat) (r : ρ) :
    Act.recv i r ∈ tr ↔ rs[i]? = some r := by
  constructor
  · intro h
    obtain ⟨r', h1, h2⟩ := hc i (hs _ h)
    have h3 : Act.recv i r ∈ only i tr := List.mem_filter.2 ⟨h, by simp [Act.shard]⟩
    rw [h2, contribution] at h3
    rcases List.mem_cons.1 h3 with h3 | h3
    · cases h3
      exact h1
    · obtain ⟨e, -, he⟩ := List.mem_map.1 h3
      cases he
  · intro h
    obtain ⟨hi, -⟩ := List.getElem?_eq_some_iff.1 h
    obtain ⟨r', h1, h2⟩ := hc i hi
    rw [h] at h1
    cases h1
    have : Act.recv i r ∈ only i tr := by rw [h2]; exact List.mem_cons_self ..
    exact (List.mem_filter.1 this).1

/-- The replies after an attempt in which every server answered. -/
theorem stored_replies {m : Method ρ σ ε β} {rs : List ρ} {tr : List (Act ρ ε)} (hs : ∀ x ∈ tr, x.shard < rs.length)
    (hc : ∀ i, i < rs.length → ∃ r, rs[i]? = some r ∧ only i tr = contribution m i r) (l : List ρ) (hl : l.length = rs.length) :
    (tr.filterMap recvOf).foldl (fun l p => l.set p.1 p.2) l = rs := by
  have hmem : ∀ i r, (i, r) ∈ tr.filterMap recvOf ↔ rs[i]? = some r := by
    intro i r
    rw [← mem_recvOf hs hc i r, List.mem_filterMap]
    constructor
    · rintro ⟨x, hx, he⟩
      cases x with
      | recv j r' => cases he; exact hx
      | step j e => cases he
    · intro h
      exact ⟨_, h, rfl⟩
  apply List.ext_getElem?
  intro i
  by_cases hi : i < rs.length
  · refine foldl_set rs _ (fun p hp => (hmem p.1 p.2).1 hp) l hl i (.inl ⟨(i, rs[i]), (hmem _ _).2 (List.getElem?_eq_getElem hi), rfl⟩)
  · rw [List.getElem?_eq_none (l := rs) (by omega), List.getElem?_eq_none (by rw [foldl_set_length]; omega)]

/-- Methods with a vector of replies, where the replies that come have the steps `sc`. -/
theorem foldl_pair {A : Type} (m : Method ρ (Option A × List ρ) ε β) (ex : ε → Option A → Option A) (Q : Nat → ρ → Prop)
    (hexec : ∀ e s, m.exec e s = (ex e s.1, s.2)) (hrecv : ∀ i r s, Q i r → m.recv i r s = (s.1, s.2.set i r))
    (tr : List (Act ρ ε)) (htr : ∀ i r, Act.recv i r ∈ tr → Q i r) (s : Option A × List ρ) :
    tr.foldl (Act.run m) s = (((tr.filterMap stepOf).map (·.2)).foldl (fun a e => ex e a) s.1,
      (tr.filterMap recvOf).foldl (fun l p => l.set p.1 p.2) s.2) := by
  induction tr generalizing s with
  | nil => rfl
  | cons x xs ih =>
    have htr' : ∀ i r, Act.recv i r ∈ xs → Q i r := fun i r h => htr i r (List.mem_cons_of_mem _ h)
    cases x with
    | recv i r =>
      rw [List.foldl_cons, List.filterMap_cons_none (by rfl), List.filterMap_cons_some (b := (i, r)) (by rfl), List.foldl_cons,
        Act.run, hrecv i r s (htr i r (List.mem_cons_self ..))]
      exact ih htr' _
    | step i e =>
      rw [List.foldl_cons, List.filterMap_cons_some (b := (i, e)) (by rfl), List.filterMap_cons_none (by rfl), List.map_cons,
        List.foldl_cons, Act.run, hexec]
      exact ih htr' _

/-- The steps of an attempt in which every server answered; scripts may depend on the server. -/
theorem interleaved_shards (m : Method ρ σ ε β) (rs : List ρ) (tr : List (Act ρ ε)) (hs : ∀ x ∈ tr, x.shard < rs.length)
    (hc : ∀ i, i < rs.length → ∃ r, rs[i]? = some r ∧ only i tr = contribution m i r) :
    Spec.Interleaved (rs.zipIdx.map fun x => m.script x.2 x.1) ((tr.filterMap stepOf).map (·.2)) := by
  refine ⟨_, rfl, fun i => ?_⟩
  rw [filter_stepOf]
  by_cases hi : i < rs.length
  · obtain ⟨r, h1, h2⟩ := hc i hi
    rw [h2, List.getD_eq_getElem?_getD, List.getElem?_map, List.getElem?_zipIdx, h1, contribution, List.filterMap_cons_none (by rfl),
      List.filterMap_map, List.map_filterMap]
    simp [Function.comp_def, stepOf]
  · have : only i tr = [] := by
      refine List.filter_eq_nil_iff.2 fun x hx => ?_
      have := hs x hx
      simp only [decide_eq_true_eq]
      omega
    rw [this, List.getD_eq_getElem?_getD, List.getElem?_eq_none (by simpa using hi)]
    rfl

theorem mapM_zipIdx {γ : Type} {f : ρ × Nat → Option γ} {rs : List ρ} {k : Nat} {ys : List γ} (h : (rs.zipIdx k).mapM f = some ys) :
    (∀ i r, rs[i]? = some r → ∃ y, f (r, k + i) = some y ∧ ys[i]? = some y) ∧ ys.length = rs.length := by
  induction rs generalizing k ys with
  | nil =>
    cases h
    exact ⟨fun i r hr => by simp at hr, rfl⟩
  | cons a rs ih =>
    rw [List.zipIdx_cons, List.mapM_cons] at h
    obtain ⟨y, hy, h⟩ := Option.bind_eq_some_iff.1 h
    obtain ⟨zs, hzs, h⟩ := Option.bind_eq_some_iff.1 h
    cases h
    obtain ⟨h1, h2⟩ := ih hzs
    refine ⟨fun i r hr => ?_, by simp [h2]⟩
    cases i with
    | zero =>
      cases hr
      exact ⟨y, hy, rfl⟩
    | succ i =>
      obtain ⟨z, hz, hz'⟩ := h1 i r (by simpa using hr)
      exact ⟨z, by rw [← hz]; congr 2; omega, by simpa using hz'⟩

theorem scripts_eq {γ : Type} {f : ρ × Nat → Option (List γ)} {rs : List ρ} {ys : List (List γ)} (h : rs.zipIdx.mapM f = some ys) :
    (rs.zipIdx.map fun x => (f x).getD []) = ys := by
  obtain ⟨h1, h2⟩ := mapM_zipIdx h
  apply List.ext_getElem?
  intro i
  rw [List.getElem?_map, List.getElem?_zipIdx]
  cases hr : rs[i]? with
  | none =>
    have := List.getElem?_eq_none_iff.1 hr
    rw [List.getElem?_eq_none (by omega)]
    rfl
  | some r =>
    obtain ⟨y, h3, h4⟩ := h1 i r hr
    simp only [Nat.zero_add] at h3 ⊢
    rw [h4, Option.map_some, Option.map_some, h3]
    rfl

/-! Sparse features. -/

theorem foldl_bind {A E : Type} (f : A → E → Option A) (es : List E) (a : Option A) :
    es.foldl (fun a e => a.bind fun t => f t e) a = a.bind fun t => es.foldlM f t := by
  induction es generalizing a with
  | nil => cases a <;> rfl
  | cons e es ih =>
    rw [List.foldl_cons, ih]
    cases a with
    | none => rfl
    | some t => rw [Option.bind_some, Option.bind_some, List.foldlM_cons]; rfl

theorem sparse_returned (len F n : Nat) (rs : List SparseReply) (hn : rs.length = n) (seqs : List (List SparseStep))
    (hseq : sparseSeqs F rs = some seqs) (M : Nat) (buffer : List (Nat × List Int × Bytes)) (evs : List (Event SparseReply))
    (hev : Spec.Serves rs evs) (s : State _ _ (List (Nat × List Int × Bytes)))
    (hr : run (sparseMethod len F n) n M buffer evs = some s) (out : List (Nat × List Int × Bytes))
    (ho : s.phase = .returned out) :
    ∃ steps, Spec.Interleaved seqs steps ∧ remoteSparse len F rs steps = some out := by
  obtain ⟨buf, tr, -, h2, h3, h4⟩ := run_returned (P := fun _ => True) rs hn (fun _ _ _ _ _ _ => trivial) buffer trivial
    evs hev s hr out ho
  subst hn
  refine ⟨(tr.filterMap stepOf).map (·.2), ?_, ?_⟩
  · have := interleaved_shards _ rs tr h3 h4
    rwa [show (rs.zipIdx.map fun x => (sparseMethod len F rs.length).script x.2 x.1) = seqs from scripts_eq hseq] at this
  · rw [foldl_pair (sparseMethod len F rs.length) (fun w a => a.bind fun t => SparseStep.run t w) (fun i r => rs[i]? = some r)
      (fun _ _ => rfl) (by
        intro i r s hir
        obtain ⟨y, hy, -⟩ := (mapM_zipIdx hseq).1 i r hir
        simp only [Nat.zero_add] at hy
        simp only [sparseMethod, hy, Option.bind_some]) tr (fun i r h => (mem_recvOf h3 h4 i r).1 h), foldl_bind,
      stored_replies h3 h4 _ (by simp [sparseMethod])] at h2
    rw [← h2]
    rfl

/-! Strings. -/

theorem textStep_length (s : List (Nat × Nat × Int) × List Nat) (w : TextStep) :
    (TextStep.run s w).1.length = s.1.length ∧ (TextStep.run s w).2.length = s.2.length := by
  unfold TextStep.run
  split
  · exact ⟨rfl, rfl⟩
  · split
    · simp
    · exact ⟨rfl, rfl⟩

/-- What the dimensions of an attempt consist of. -/
structure Stale (W : TextStep → Prop) (len : Nat) (s : List (Nat × Nat × Int) × List Nat) : Prop where
  index : s.1.length = len
  dims : s.2.length = len
  stamp : ∀ (k : Nat) (x : Nat × Nat × Int), s.1[k]? = some x → -1 ≤ x.2.2
  stale : ∀ k d, s.2[k]? = some d → d ≠ 0 → ∃ w, W w ∧ w.cell = k ∧ -1 ≤ w.ts

theorem Stale.step {W : TextStep → Prop} {len : Nat} {s : List (Nat × Nat × Int) × List Nat} (h : Stale W len s) (w : TextStep)
    (hw : W w) : Stale W len (TextStep.run s w) := by
  refine ⟨(textStep_length s w).1.trans h.index, (textStep_length s w).2.trans h.dims, ?_, ?_⟩
  all_goals
    unfold TextStep.run
    split
    · first
      | exact h.stamp
      | exact h.stale
    · rename_i old hold
      split
      · rename_i hle
        have h0 := h.stamp _ _ hold
        intro k x hx
        rw [List.getElem?_set] at hx
        split at hx
        · rename_i hk
          split at hx
          · cases hx
            first
            | (show -1 ≤ w.ts; omega)
            | exact fun _ => ⟨w, hw, hk, by omega⟩
          · cases hx
        · first
          | exact h.stamp _ _ hx
          | exact h.stale _ _ hx
      · first
        | exact h.stamp
        | exact h.stale

/-- Steps from different dimensions. -/
theorem texts_agree (steps : List TextStep) (a b : List (Nat × Nat × Int) × List Nat) (hi : a.1 = b.1)
    (hl : a.2.length = b.2.length) (hw : ∀ w ∈ steps, w.cell < a.1.length) (hlen : a.1.length = a.2.length)
    (h : ∀ k, a.2[k]? = b.2[k]? ∨ ((∃ x, a.1[k]? = some x ∧ x.2.2 = -1) ∧ ∃ w ∈ steps, w.cell = k ∧ -1 ≤ w.ts)) :
    steps.foldl TextStep.run a = steps.foldl TextStep.run b := by
  induction steps generalizing a b with
  | nil =>
    refine Prod.ext hi (List.ext_getElem? fun k => ?_)
    rcases h k with h | ⟨-, w, hw, -⟩
    · exact h
    · cases hw
  | cons w ws ih =>
    rw [List.foldl_cons, List.foldl_cons]
    have hlt := hw w (List.mem_cons_self ..)
    have hold : a.1[w.cell]? = some a.1[w.cell] := List.getElem?_eq_getElem hlt
    have hold' : b.1[w.cell]? = some a.1[w.cell] := by rw [← hi]; exact hold
    have ea := textStep_length a w
    have eb := textStep_length b w
    refine ih _ _ ?_ (by rw [ea.2, eb.2, hl]) (fun x hx => by rw [ea.1]; exact hw x (List.mem_cons_of_mem _ hx)) (by rw [ea.1, ea.2, hlen]) ?_
    · simp only [TextStep.run, hold, hold']
      split <;> simp [hi]
    · intro k
      simp only [TextStep.run, hold, hold']
      by_cases hle : a.1[w.cell].2.2 ≤ w.ts
      · rw [if_pos hle, if_pos hle]
        by_cases hk : w.cell = k
        · left
          subst hk
          rw [List.getElem?_set_self (by omega), List.getElem?_set_self (by omega)]
        · rw [List.getElem?_set_ne hk, List.getElem?_set_ne hk, List.getElem?_set_ne hk]
          rcases h k with h | ⟨h1, w', hw', h2, h3⟩
          · exact .inl h
          · rcases List.mem_cons.1 hw' with rfl | hw'
            · exact absurd h2 hk
            · exact .inr ⟨h1, w', hw', h2, h3⟩
      · rw [if_neg hle, if_neg hle]
        rcases h k with h | ⟨⟨x, h1, h1'⟩, w', hw', h2, h3⟩
        · exact .inl h
        · rcases List.mem_cons.1 hw' with rfl | hw'
          · exfalso
            subst h2
            have := Option.some.inj (hold.symm.trans h1)
            rw [this, h1'] at hle
            omega
          · exact .inr ⟨⟨x, h1, h1'⟩, w', hw', h2, h3⟩

theorem foldl_map_some {A E : Type} (f : A → E → A) (es : List E) (a : A) :
    es.foldl (fun a e => a.map fun t => f t e) (some a) = some (es.foldl f a) := by
  induction es generalizing a with
  | nil => rfl
  | cons e es ih => rw [List.foldl_cons, List.foldl_cons]; exact ih _

theorem textLoop_cell (shard : Nat) (ds : List Nat) : ∀ (cell off : Nat) (st : List Int) (ws : List TextStep),
    textLoop shard cell off ds st = some ws → ∀ w ∈ ws, w.cell < cell + ds.length := by
  induction ds with
  | nil =>
    intro cell off st ws h w hw
    cases h
    cases hw
  | cons d ds ih =>
    intro cell off st ws h w hw
    rw [List.length_cons]
    by_cases hd : d = 0
    · simp only [textLoop, if_pos hd] at h
      have := ih _ _ _ _ h w hw
      omega
    · simp only [textLoop, if_neg hd] at h
      split at h
      · cases h
      · obtain ⟨ws', h1, rfl⟩ := Option.map_eq_some_iff.1 h
        rcases List.mem_cons.1 hw with rfl | hw
        · show cell < _
          omega
        · have := ih _ _ _ _ h1 w hw
          omega

theorem textSteps_cell {shard : Nat} {r : TextReply} {ws : List TextStep} (h : textSteps shard r = some ws) :
    ∀ w ∈ ws, w.cell < r.dims.length := by
  unfold textSteps at h
  split at h
  · cases h
    intro w hw
    cases hw
  · intro w hw
    have := textLoop_cell _ _ _ _ _ _ h w hw
    omega

theorem texts_returned (len n : Nat) (rs : List TextReply) (hn : rs.length = n) (hdims : ∀ r ∈ rs, r.dims.length = len)
    (seqs : List (List TextStep)) (hseq : textSeqs rs = some seqs) (M : Nat) (evs : List (Event TextReply))
    (hev : Spec.Serves rs evs) (s : State _ _ (List Nat × Bytes))
    (hr : run (textsMethod len n) n M (List.replicate len 0, []) evs = some s) (out : List Nat × Bytes)
    (ho : s.phase = .returned out) :
    ∃ steps, Spec.Interleaved seqs steps ∧ remoteStrings len rs steps = some out := by
  let W : TextStep → Prop := fun w => ∃ i r, rs[i]? = some r ∧ w ∈ (textSteps i r).getD []
  have hrecv : ∀ i r s, rs[i]? = some r → (textsMethod len n).recv i r s = (s.1, s.2.set i r) := by
    intro i r s hir
    obtain ⟨y, hy, -⟩ := (mapM_zipIdx hseq).1 i r hir
    simp only [Nat.zero_add] at hy
    simp only [textsMethod, hy, Option.bind_some]
  have hfold : ∀ (buf : List Nat × Bytes) (tr : List (Act TextReply TextStep)), (∀ i r, Act.recv i r ∈ tr → rs[i]? = some r) →
      tr.foldl (Act.run (textsMethod len n)) ((textsMethod len n).enter buf) =
        (some (((tr.filterMap stepOf).map (·.2)).foldl TextStep.run (List.replicate len (0, 0, -1), buf.1)),
          (tr.filterMap recvOf).foldl (fun l p => l.set p.1 p.2) (List.replicate n ⟨[], [], []⟩)) := by
    intro buf tr htr
    rw [foldl_pair (textsMethod len n) (fun w a => a.map fun t => TextStep.run t w) (fun i r => rs[i]? = some r)
      (fun _ _ => rfl) hrecv tr htr]
    simp only [textsMethod, foldl_map_some]
  have hstart : ∀ dims : List Nat, dims.length = len → (∀ k d, dims[k]? = some d → d ≠ 0 → ∃ w, W w ∧ w.cell = k ∧ -1 ≤ w.ts) →
      Stale W len (List.replicate len (0, 0, -1), dims) := by
    intro dims h1 h2
    refine ⟨by simp, h1, fun k x hx => ?_, h2⟩
    have := List.mem_of_getElem? hx
    rw [(List.mem_replicate.1 this).2]
    decide
  have hkeep : Keeps (textsMethod len n) (fun i r => rs[i]? = some r)
      (fun b => b.1.length = len ∧ ∀ k d, b.1[k]? = some d → d ≠ 0 → ∃ w, W w ∧ w.cell = k ∧ -1 ≤ w.ts) := by
    intro buf tr b hb htr hl
    rw [hfold buf tr (fun i r h => htr _ h)] at hl
    simp only [textsMethod, Option.map_some, Option.some.injEq] at hl
    subst hl
    have hsteps : ∀ w ∈ (tr.filterMap stepOf).map (·.2), W w := by
      intro w hw
      obtain ⟨y, hy, rfl⟩ := List.mem_map.1 hw
      obtain ⟨x, hx, hxy⟩ := List.mem_filterMap.1 hy
      cases x with
      | recv i r => cases hxy
      | step i e =>
        cases hxy
        obtain ⟨r, h1, h2⟩ := htr _ hx
        exact ⟨i, r, h1, h2⟩
    have : ∀ (ws : List TextStep), (∀ w ∈ ws, W w) → ∀ s, Stale W len s → Stale W len (ws.foldl TextStep.run s) := by
      intro ws
      induction ws with
      | nil => exact fun _ s h => h
      | cons w ws ih => exact fun h s hs => ih (fun x hx => h x (List.mem_cons_of_mem _ hx)) _ (hs.step w (h w (List.mem_cons_self ..)))
    have hfin := this _ hsteps _ (hstart buf.1 hb.1 hb.2)
    exact ⟨hfin.dims, hfin.stale⟩
  obtain ⟨buf, tr, h1, h2, h3, h4⟩ := run_returned rs hn hkeep (List.replicate len 0, []) (by
    refine ⟨by simp, fun k d hd hd0 => ?_⟩
    have := List.mem_of_getElem? hd
    exact absurd (List.mem_replicate.1 this).2 hd0) evs hev s hr out ho
  subst hn
  have hint : Spec.Interleaved seqs ((tr.filterMap stepOf).map (·.2)) := by
    have := interleaved_shards _ rs tr h3 h4
    rwa [show (rs.zipIdx.map fun x => (textsMethod len rs.length).script x.2 x.1) = seqs from scripts_eq hseq] at this
  refine ⟨_, hint, ?_⟩
  rw [hfold buf tr (fun i r h => (mem_recvOf h3 h4 i r).1 h), stored_replies h3 h4 _ (by simp)] at h2
  have hmemsteps : ∀ i r w, rs[i]? = some r → w ∈ (textSteps i r).getD [] → w ∈ (tr.filterMap stepOf).map (·.2) := by
    intro i r w hir hw
    obtain ⟨hi, -⟩ := List.getElem?_eq_some_iff.1 hir
    obtain ⟨r', h5, h6⟩ := h4 i hi
    rw [hir] at h5
    cases h5
    have : Act.step i w ∈ only i tr := by
      rw [h6]
      exact List.mem_cons_of_mem _ (List.mem_map_of_mem hw)
    exact List.mem_map.2 ⟨(i, w), List.mem_filterMap.2 ⟨_, (List.mem_filter.1 this).1, rfl⟩, rfl⟩
  have hcell : ∀ w ∈ (tr.filterMap stepOf).map (·.2), w.cell < len := by
    intro w hw
    obtain ⟨y, hy, rfl⟩ := List.mem_map.1 hw
    obtain ⟨x, hx, hxy⟩ := List.mem_filterMap.1 hy
    cases x with
    | recv i r => cases hxy
    | step i e =>
      cases hxy
      obtain ⟨r, h5, h6⟩ := h4 i (h3 _ hx)
      have h7 : Act.step i e ∈ only i tr := List.mem_filter.2 ⟨hx, by simp [Act.shard]⟩
      rw [h6, contribution] at h7
      rcases List.mem_cons.1 h7 with h7 | h7
      · cases h7
      · obtain ⟨e', he', h8⟩ := List.mem_map.1 h7
        cases h8
        obtain ⟨y, hy, -⟩ := (mapM_zipIdx hseq).1 i r h5
        simp only [Nat.zero_add] at hy
        simp only [textsMethod, hy, Option.getD_some] at he'
        rw [← hdims r (List.mem_of_getElem? h5)]
        exact textSteps_cell hy _ he'
  have hagree := texts_agree ((tr.filterMap stepOf).map (·.2)) (List.replicate len (0, 0, -1), buf.1)
    (List.replicate len (0, 0, -1), List.replicate len 0) rfl (by simpa using h1.1) (by simpa using hcell) (by simpa using h1.1.symm) (by
      intro k
      by_cases hk : k < len
      · have hkb : k < buf.1.length := by omega
        by_cases h0 : buf.1[k] = 0
        · left
          show buf.1[k]? = _
          rw [List.getElem?_eq_getElem hkb, h0, List.getElem?_replicate, if_pos hk]
        · right
          obtain ⟨w, ⟨i, r, h5, h6⟩, h7, h8⟩ := h1.2 k _ (List.getElem?_eq_getElem hkb) h0
          exact ⟨⟨(0, 0, -1), by rw [List.getElem?_replicate, if_pos hk], rfl⟩, w, hmemsteps i r w h5 h6, h7, h8⟩
      · left
        show buf.1[k]? = _
        rw [List.getElem?_eq_none (by omega), List.getElem?_eq_none (by simpa using hk)])
  rw [hagree] at h2
  exact h2

/-! Sampled neighbours. -/

theorem uniform_returned (R : Draws) (wr : Bool) (count : Nat) (default : Int × Int) (nodes : List Int) (n M : Nat)
    (buffer : List (List (Int × Int))) (evs : List (Event (UReply (Int × Int)))) (Q : Nat → UReply (Int × Int) → Prop)
    (hQ : ∀ a i r, Event.recv a i r ∈ evs → Q i r) (s : State _ _ (List (List (Int × Int))))
    (hr : run (uniformMethod R wr count default nodes n) n M buffer evs = some s) (out : List (List (Int × Int)))
    (ho : s.phase = .returned out) :
    ∃ rs : List (UReply (Int × Int)), rs.length = n ∧ (∀ i r, rs[i]? = some r → Event.recv s.attempt i r ∈ evs) ∧
      ∃ t, remoteUniform R wr count default nodes rs 0 = some (out, t) := by
  obtain ⟨rs, buf, tr, h1, h2, -, h4, h5, h6⟩ := run_returned_last (P := fun _ => True) (Q := Q) (fun _ _ _ _ _ _ => trivial)
    buffer trivial evs hQ s hr out ho
  refine ⟨rs, h1, h2, ?_⟩
  have hfold : ∀ (tr : List (Act (UReply (Int × Int)) Unit)) (l : List (UReply (Int × Int))), tr.foldl (Act.run (uniformMethod R wr count default nodes n)) l =
      (tr.filterMap recvOf).foldl (fun l p => l.set p.1 p.2) l := by
    intro tr
    induction tr with
    | nil => intro l; rfl
    | cons x xs ih =>
      intro l
      cases x with
      | recv i r =>
        rw [List.foldl_cons, List.filterMap_cons_some (b := (i, r)) (by rfl), List.foldl_cons]
        exact ih _
      | step i e =>
        rw [List.foldl_cons, List.filterMap_cons_none (by rfl)]
        exact ih _
  rw [hfold, stored_replies h5 h6 _ (by simp [uniformMethod, h1])] at h4
  obtain ⟨y, h7, h8⟩ := Option.map_eq_some_iff.1 h4
  exact ⟨y.2, by rw [h7, ← h8]⟩

/-- Rows before and after merges of replies that know only nodes with `K`. -/
def Kept (count : Nat) (K : Int → Prop) : List WCell → List WCell → Prop
  | [], [] => True
  | c :: cs, d :: ds => (d.node = c.node ∧ (c.row.length = count → d.row.length = count) ∧ (¬ K c.node → d.row = c.row)) ∧ Kept count K cs ds
  | _, _ => False

theorem Kept.refl (count : Nat) (K : Int → Prop) : ∀ cs, Kept count K cs cs
  | [] => trivial
  | _ :: cs => ⟨⟨rfl, id, fun _ => rfl⟩, Kept.refl count K cs⟩

theorem Kept.trans {count : Nat} {K : Int → Prop} : ∀ {a b c : List WCell}, Kept count K a b → Kept count K b c → Kept count K a c
  | [], [], [], _, _ => trivial
  | x :: xs, y :: ys, z :: zs, h1, h2 => by
    refine ⟨⟨h2.1.1.trans h1.1.1, fun h => h2.1.2.1 (h1.1.2.1 h), fun h => ?_⟩, Kept.trans h1.2 h2.2⟩
    rw [h2.1.2.2 (by rw [h1.1.1]; exact h), h1.1.2.2 h]

theorem Kept.append {count : Nat} {K : Int → Prop} : ∀ {a b c d : List WCell}, Kept count K a b → Kept count K c d → Kept count K (a ++ c) (b ++ d)
  | [], [], _, _, _, h2 => h2
  | _ :: _, _ :: _, _, _, h1, h2 => ⟨h1.1, Kept.append h1.2 h2⟩

theorem Kept.get {count : Nat} {K : Int → Prop} : ∀ {a b : List WCell}, Kept count K a b → ∀ {p : Nat} {d : WCell}, b[p]? = some d →
    ∃ c, a[p]? = some c ∧ d.node = c.node ∧ (c.row.length = count → d.row.length = count) ∧ (¬ K c.node → d.row = c.row)
  | [], [], _, p, d, h => by simp at h
  | x :: xs, y :: ys, h1, 0, d, h => by
    cases h
    exact ⟨x, rfl, h1.1⟩
  | x :: xs, y :: ys, h1, p + 1, d, h => Kept.get h1.2 (by simpa using h)

theorem Kept.length {count : Nat} {K : Int → Prop} : ∀ {a b : List WCell}, Kept count K a b → b.length = a.length
  | [], [], _ => rfl
  | _ :: _, _ :: _, h => by rw [List.length_cons, List.length_cons, Kept.length h.2]

theorem mergeWeightedLoop_kept (D : WDraws) (count : Nat) (default : Nbr) (K : Int → Prop) (rs : List (Int × Int))
    (hK : ∀ x ∈ rs, K x.1) : ∀ (flat : List Nbr) (cells : List WCell) (r : Nat) (y : List WCell × Nat),
    mergeWeightedLoop D count default rs flat cells r = some y → Kept count K cells y.1 := by
  induction rs with
  | nil =>
    intro flat cells r y h
    cases h
    exact Kept.refl ..
  | cons x rs ih =>
    obtain ⟨n, w⟩ := x
    intro flat cells r y h
    rw [mergeWeightedLoop] at h
    split at h
    · cases h
    · rename_i c cs hdrop
      split at h
      · cases h
      · rename_i hflat
        obtain ⟨z, hz, rfl⟩ := Option.map_eq_some_iff.1 h
        have h1 := ih (fun x hx => hK x (List.mem_cons_of_mem _ hx)) _ _ _ _ hz
        have hcells : cells = cells.takeWhile (fun c => decide (c.node ≠ n)) ++ c :: cs := by
          rw [← hdrop]
          exact (List.takeWhile_append_dropWhile ..).symm
        have hnode : c.node = n := by
          have := List.head?_dropWhile_not (fun c : WCell => decide (c.node ≠ n)) cells
          rw [hdrop] at this
          simpa using this
        conv => lhs; rw [hcells]
        refine Kept.append (Kept.refl ..) ⟨⟨rfl, fun hl => ?_, fun hk => ?_⟩, h1⟩
        · show List.length (Prod.fst (if _ then _ else _)) = count
          split
          · simp
          · rw [overwriteRow_length]; exact hl
        · exact absurd (by rw [hnode]; exact hK _ (List.mem_cons_self ..)) hk

end DeepGNN.Retry
