import Verif.Model.RemoteTemporalSparse
import Verif.Proofs.TemporalSparse
import Verif.Props.C67

/-
Sparse features at given times from several servers: the client only compares the timestamps of a reply with -1, so
replies with creation times give what replies with zeros give.
-/

namespace DeepGNN
open Spec

/-- A reply, an iteration and a critical section with timestamps as far as the client looks at them. -/
def normReply (r : SparseReply) : SparseReply := { r with stamps := r.stamps.map normT }
def normPut (p : SparsePut) : SparsePut := { p with ts := normT p.ts }
def normStep (w : SparseStep) : SparseStep := { w with puts := w.puts.map normPut }

theorem normT_neg (t : Int) : normT t ≤ -1 ↔ t ≤ -1 := by
  simp only [normT]; split <;> omega

theorem sparsePuts_norm (r : SparseReply) (F j width inc stop : Nat) : ∀ k no vo,
    sparsePuts (normReply r) F j width inc stop k no vo =
      (sparsePuts r F j width inc stop k no vo).map fun p => (p.1.map normPut, p.2)
  | 0, _, _ => rfl
  | k + 1, no, vo => by
    simp only [sparsePuts]
    by_cases h : no < stop
    · rw [if_pos h, if_pos h]
      have h1 : (normReply r).indices = r.indices := rfl
      rw [h1]
      cases r.indices[no]? with
      | none => rfl
      | some it =>
        simp only [Option.bind_some]
        by_cases h2 : it < 0
        · rw [if_pos h2, if_pos h2]; rfl
        · rw [if_neg h2, if_neg h2]
          have h3 : (normReply r).stamps = r.stamps.map normT := rfl
          rw [h3, List.getElem?_map]
          cases r.stamps[it.toNat * F + j]? with
          | none => rfl
          | some t =>
            simp only [Option.map_some, Option.bind_some]
            rw [sparsePuts_norm r F j width inc stop k]
            cases sparsePuts r F j width inc stop k (no + width) (vo + inc) <;> rfl
    · rw [if_neg h, if_neg h]; rfl

theorem sparseLoop_norm (r : SparseReply) (shard F : Nat) : ∀ ds j no vo cum,
    sparseLoop (normReply r) shard F ds j no vo cum =
      (sparseLoop r shard F ds j no vo cum).map (List.map normStep)
  | [], _, _, _, _ => rfl
  | d :: ds, j, no, vo, cum => by
    simp only [sparseLoop]
    by_cases h : d = 0
    · rw [if_pos h, if_pos h]; exact sparseLoop_norm r shard F ds (j + 1) no vo cum
    · rw [if_neg h, if_neg h]
      have h1 : (normReply r).indexCounts = r.indexCounts := rfl
      have h2 : (normReply r).valueCounts = r.valueCounts := rfl
      have h3 : (normReply r).indices = r.indices := rfl
      rw [h1, h2, h3]
      cases r.indexCounts[j]? with
      | none => rfl
      | some ic =>
        simp only [Option.bind_some]
        cases r.valueCounts[j]? with
        | none => rfl
        | some vc =>
          simp only [Option.bind_some]
          by_cases h4 : ic = 0
          · rw [if_pos h4, if_pos h4]; rfl
          · rw [if_neg h4, if_neg h4, sparsePuts_norm]
            cases sparsePuts r F j (d + 1) (vc * (d + 1) / ic) (cum + ic) r.indices.length no vo with
            | none => rfl
            | some p =>
              simp only [Option.map_some, Option.bind_some]
              rw [sparseLoop_norm r shard F ds]
              cases sparseLoop r shard F ds (j + 1) p.2.1 p.2.2 (cum + ic) <;> rfl

theorem sparseSteps_norm (shard F : Nat) (r : SparseReply) :
    sparseSteps shard F (normReply r) = (sparseSteps shard F r).map (List.map normStep) := by
  simp only [sparseSteps]
  have h3 : (normReply r).indices = r.indices := rfl
  have h4 : (normReply r).dims = r.dims := rfl
  rw [h3, h4, sparseLoop_norm]
  by_cases h : r.indices = []
  · rw [if_pos h, if_pos h]; rfl
  · rw [if_neg h, if_neg h]

theorem mapM_norm {α β γ : Type} (f : α → Option β) (f' : α → Option γ) (n : β → γ) (h : ∀ x, f' x = (f x).map n) :
    ∀ l : List α, l.mapM f' = (l.mapM f).map (List.map n)
  | [] => rfl
  | x :: xs => by
    rw [List.mapM_cons, List.mapM_cons, mapM_norm f f' n h xs, h]
    cases f x with
    | none => rfl
    | some y => cases xs.mapM f <;> rfl

theorem sparseSeqs_norm (F : Nat) (replies : List SparseReply) :
    sparseSeqs F (replies.map normReply) = (sparseSeqs F replies).map (List.map (List.map normStep)) := by
  simp only [sparseSeqs]
  rw [List.zipIdx_map, List.mapM_map]
  exact mapM_norm (α := SparseReply × Nat) _ _ _ (fun x => sparseSteps_norm x.2 F x.1) _

theorem SparsePut.run_norm (shard width inc : Nat) (cells : List SparseCell) (p : SparsePut) :
    SparsePut.run shard width inc cells (normPut p) = SparsePut.run shard width inc cells p := by
  simp only [SparsePut.run, normPut, normT_neg]

theorem SparseStep.run_norm (s : List SparseCell × List Nat) (w : SparseStep) :
    SparseStep.run s (normStep w) = SparseStep.run s w := by
  simp only [SparseStep.run, normStep, List.foldl_map, SparsePut.run_norm]

theorem extractSparse_norm (replies : List SparseReply) (c : SparseCell) :
    extractSparse (replies.map normReply) c = extractSparse replies c := by
  simp only [extractSparse]
  cases c.shard with
  | none => rfl
  | some s =>
    simp only [List.getElem?_map]
    cases replies[s]? <;> rfl

theorem remoteSparse_norm (n F : Nat) (replies : List SparseReply) (steps : List SparseStep) :
    remoteSparse n F (replies.map normReply) (steps.map normStep) = remoteSparse n F replies steps := by
  have h1 : extractSparse (replies.map normReply) = extractSparse replies := funext (extractSparse_norm replies)
  have h2 : ∀ (steps : List SparseStep) s, (steps.map normStep).foldlM SparseStep.run s = steps.foldlM SparseStep.run s := by
    intro steps
    induction steps with
    | nil => intro s; rfl
    | cons w ws ih =>
      intro s
      rw [List.map_cons, List.foldlM_cons, List.foldlM_cons, SparseStep.run_norm]
      cases SparseStep.run s w with
      | none => rfl
      | some s' => exact ih s'
  simp only [remoteSparse, h1, h2]

theorem Interleaved.map_steps {α β : Type} (f : α → β) {seqs : List (List α)} {steps : List α} (h : Interleaved seqs steps) :
    Interleaved (seqs.map (List.map f)) (steps.map f) := by
  obtain ⟨tagged, h1, h2⟩ := h
  refine ⟨tagged.map fun x => (x.1, f x.2), ?_, fun i => ?_⟩
  · rw [← h1, List.map_map, List.map_map]; rfl
  · rw [List.filter_map, List.map_map]
    have h3 := congrArg (List.map f) (h2 i)
    rw [List.map_map] at h3
    refine Eq.trans ?_ (h3.trans ?_)
    · rfl
    · rw [List.getD_eq_getElem?_getD, List.getD_eq_getElem?_getD, List.getElem?_map]
      cases seqs[i]? <;> rfl

/-- A server without timestamps that answers with the values `val f x`. -/
def plainServer {α : Type} (val : Nat → α → Option Sparse) (feats : List Nat) (x : α) (i : Nat) (ss : List SparseState) :
    Option (List SparseState) :=
  some (List.zipWith (fun f t => stepSparse i (val f x) t) feats ss)

theorem stepSparse_sim (i : Int) (v : Option Sparse) {a b : SparseState} (h : a.out = b.out) (ha : a.flag = -1)
    (hb : b.flag = -1) : (stepSparse i v a).out = (stepSparse i v b).out ∧
      (stepSparse i v b).flag = if v.isSome then 0 else -1 := by
  simp only [SparseState.out, Prod.mk.injEq] at h
  obtain ⟨h1, h2, h3⟩ := h
  cases v <;> simp [stepSparse, ha, hb, SparseState.out, h1, h2, h3]

theorem sim_step {α : Type} (val : Nat → α → Option Sparse) (x : α) (i : Int) :
    ∀ (feats : List Nat) (ss ss' : List (SparseState × Nat)) (tt : List SparseState), feats.length = ss.length →
      feats.length = ss'.length → ss.map (fun s => s.1.out) = tt.map SparseState.out → (∀ s ∈ ss, s.1.flag = -1) →
      (∀ t ∈ tt, t.flag = -1) →
      (∀ y ∈ (feats.zip ss).zip ss', y.2.1.out = (stepSparse i (val y.1.1 x) y.1.2.1).out ∧
        normT y.2.1.flag = if (val y.1.1 x).isSome then 0 else -1) →
      ss'.map (fun s => s.1.out) = (List.zipWith (fun f t => stepSparse i (val f x) t) feats tt).map SparseState.out ∧
      (ss'.map (·.1.flag)).map normT = (List.zipWith (fun f t => stepSparse i (val f x) t) feats tt).map (·.flag)
  | [], [], [], _, _, _, _, _, _, _ => by simp
  | [], _ :: _, _, _, h, _, _, _, _, _ => by simp at h
  | [], [], _ :: _, _, _, h, _, _, _, _ => by simp at h
  | _ :: _, [], _, _, h, _, _, _, _, _ => by simp at h
  | _ :: _, _ :: _, [], _, _, h, _, _, _, _ => by simp at h
  | _ :: _, _ :: _, _ :: _, [], _, _, h, _, _, _ => by simp at h
  | f :: fs, s :: ss, s' :: ss', t :: tt, h1, h2, h3, h4, h5, h6 => by
    simp only [List.zip_cons_cons, List.mem_cons, forall_eq_or_imp] at h6
    simp only [List.map_cons, List.cons.injEq] at h3
    obtain ⟨h7, h8⟩ := stepSparse_sim i (val f x) h3.1 (h4 s (List.mem_cons_self ..)) (h5 t (List.mem_cons_self ..))
    obtain ⟨h9, h10⟩ := sim_step val x i fs ss ss' tt (by simpa using h1) (by simpa using h2) h3.2
      (fun s hs => h4 s (List.mem_cons_of_mem _ hs)) (fun s hs => h5 s (List.mem_cons_of_mem _ hs)) h6.2
    simp only [List.map_cons, List.zipWith_cons_cons, h9, h10, h6.1.1, h6.1.2, h7, h8, and_self]

/-- A server that keeps creation times in the flags gives what one without timestamps gives. -/
theorem serveSparsesAt_sim {α : Type} (q : α → Nat → List (SparseState × Nat) → Option (List (SparseState × Nat)))
    (feats : List Nat) (val : Nat → α → Option Sparse) : ∀ (xs : List α)
    (_ : ∀ x ∈ xs, ∀ (i : Nat) (ss : List (SparseState × Nat)), feats.length = ss.length → (∀ s ∈ ss, s.1.flag = -1) →
      ∃ ss', q x i ss = some ss' ∧ feats.length = ss'.length ∧ ∀ y ∈ (feats.zip ss).zip ss',
        y.2.1.out = (stepSparse i (val y.1.1 x) y.1.2.1).out ∧
        normT y.2.1.flag = if (val y.1.1 x).isSome then 0 else -1)
    (i : Nat) (ss : List (SparseState × Nat)) (tt : List SparseState), feats.length = ss.length →
      ss.map (fun s => s.1.out) = tt.map SparseState.out →
      ∃ r t, serveSparsesAt q xs i ss = some r ∧ serveSparses (plainServer val feats) xs i tt = some t ∧
        r.1.map (fun s => s.1.out) = t.1.map SparseState.out ∧ r.2.map normT = t.2
  | [], _, _, ss, tt, _, h => ⟨(ss, []), (tt, []), rfl, rfl, h, rfl⟩
  | x :: xs, hq, i, ss, tt, hl, h => by
    obtain ⟨ss', h1, h2, h3⟩ := hq x (List.mem_cons_self ..) i (ss.map fun s => ({ s.1 with flag := -1 }, s.2))
      (by simpa using hl) (by
        intro s hs
        obtain ⟨t, -, rfl⟩ := List.mem_map.1 hs
        rfl)
    obtain ⟨h4, h5⟩ := sim_step val x i feats (ss.map fun s => ({ s.1 with flag := -1 }, s.2)) ss'
      (tt.map fun s => { s with flag := -1 }) (by simpa using hl) h2 (by
        rw [List.map_map, List.map_map]
        exact h) (by
        intro s hs
        obtain ⟨t, -, rfl⟩ := List.mem_map.1 hs
        rfl) (by
        intro s hs
        obtain ⟨t, -, rfl⟩ := List.mem_map.1 hs
        rfl) h3
    obtain ⟨r, t, h6, h7, h8, h9⟩ := serveSparsesAt_sim q feats val xs (fun y hy => hq y (List.mem_cons_of_mem _ hy))
      (i + 1) ss' _ h2 h4
    refine ⟨(r.1, ss'.map (·.1.flag) ++ r.2),
      (t.1, (List.zipWith (fun f t => stepSparse i (val f x) t) feats (tt.map fun s => { s with flag := -1 })).map (·.flag) ++ t.2),
      by simp only [serveSparsesAt, h1, Option.bind_some, h6, Option.map_some], ?_, h8, ?_⟩
    · have h10 : plainServer val feats x i (tt.map fun s => { s with flag := -1 }) =
        some (List.zipWith (fun f t => stepSparse i (val f x) t) feats (tt.map fun s => { s with flag := -1 })) := rfl
      simp only [serveSparses, h10, Option.bind_some, h7, Option.map_some]
    · simp only [List.map_append, h5, h9]

theorem sparseReply_sim {a : List SparseState × List Int} {b : List SparseState × List Int}
    (h1 : a.1.map SparseState.out = b.1.map SparseState.out) (h2 : a.2.map normT = b.2) :
    normReply (sparseReply a) = sparseReply b := by
  have e1 : ∀ l : List SparseState, l.map (·.dim) = (l.map SparseState.out).map (·.1) := by
    intro l; rw [List.map_map]; rfl
  have e2 : ∀ l : List SparseState, l.flatMap (·.indices) = (l.map SparseState.out).flatMap (·.2.1) := by
    intro l; rw [List.flatMap_map]; rfl
  have e3 : ∀ l : List SparseState, l.map (·.indices.length) = (l.map SparseState.out).map (·.2.1.length) := by
    intro l; rw [List.map_map]; rfl
  have e4 : ∀ l : List SparseState, l.flatMap (·.values) = (l.map SparseState.out).flatMap (·.2.2) := by
    intro l; rw [List.flatMap_map]; rfl
  have e5 : ∀ l : List SparseState, l.map (·.values.length) = (l.map SparseState.out).map (·.2.2.length) := by
    intro l; rw [List.map_map]; rfl
  simp only [normReply, sparseReply, h2]
  rw [e1 a.1, e2 a.1, e3 a.1, e4 a.1, e5 a.1, h1, ← e1, ← e2, ← e3, ← e4, ← e5]

theorem mapM_norm_some {σ : Type} (f f0 : σ → Option SparseReply) : ∀ (l : List σ) (rs : List SparseReply),
    (∀ s ∈ l, ∃ r, f s = some r ∧ f0 s = some (normReply r)) → l.mapM f0 = some rs →
    ∃ rs', l.mapM f = some rs' ∧ rs = rs'.map normReply
  | [], rs, _, h => by
    cases h
    exact ⟨[], rfl, rfl⟩
  | s :: l, rs, hs, h => by
    obtain ⟨r, h1, h2⟩ := hs s (List.mem_cons_self ..)
    rw [List.mapM_cons, h2] at h
    cases h3 : l.mapM f0 with
    | none => rw [h3] at h; cases h
    | some rs0 =>
      rw [h3] at h
      obtain ⟨rs', h4, h5⟩ := mapM_norm_some f f0 l rs0 (fun s hs' => hs s (List.mem_cons_of_mem _ hs')) h3
      refine ⟨r :: rs', by rw [List.mapM_cons, h1, h4]; rfl, ?_⟩
      rw [List.map_cons, ← h5]
      exact (Option.some.inj h).symm

/-- Servers that keep creation times and whose queries return the values `val s f x`. -/
theorem sparse_servers_at {σ α : Type} (servers : List σ)
    (q : σ → α → Nat → List (SparseState × Nat) → Option (List (SparseState × Nat)))
    (val : σ → Nat → α → Option Sparse) (xs : List α) (feats : List Nat) (dim size : Nat → Nat)
    (hq : ∀ s ∈ servers, ∀ x ∈ xs, ∀ (i : Nat) (ss : List (SparseState × Nat)), feats.length = ss.length →
      (∀ t ∈ ss, t.1.flag = -1) → ∃ ss', q s x i ss = some ss' ∧ feats.length = ss'.length ∧
        ∀ y ∈ (feats.zip ss).zip ss', y.2.1.out = (stepSparse i (val s y.1.1 x) y.1.2.1).out ∧
          normT y.2.1.flag = if (val s y.1.1 x).isSome then 0 else -1)
    (hval : ∀ s ∈ servers, ∀ x ∈ xs, ∀ f ∈ feats, ∀ v, val s f x = some v →
      v.Ok ∧ v.dim = dim f ∧ ∀ b ∈ v.values, b.length = size f) :
    ∃ replies, servers.mapM (fun s => (serveSparsesAt (q s) xs 0 (List.replicate feats.length ({}, 0))).map fun x =>
        sparseReply (x.1.map (·.1), x.2)) = some replies ∧
      ∃ seqs, sparseSeqs feats.length replies = some seqs ∧ ∀ steps, Interleaved seqs steps →
        ∃ pick : Nat → Nat → Option Sparse,
          remoteSparse xs.length feats.length replies steps =
            some (feats.zipIdx.map fun f => sparseOut xs.length (dim f.1) fun i => pick i f.2) ∧
          ∀ (i : Nat) (x : α) (j f : Nat), xs[i]? = some x → feats[j]? = some f →
            (∃ s ∈ servers, pick i j = val s f x ∧ (pick i j).isSome) ∨
            (pick i j = none ∧ ∀ s ∈ servers, val s f x = none) := by
  obtain ⟨replies0, h1, seqs0, h2, h3⟩ := sparse_servers servers (fun s => plainServer (val s) feats) val xs feats dim size
    (fun s _ x _ i ss _ _ => rfl) hval
  obtain ⟨replies, h4, h5⟩ := mapM_norm_some
    (fun s => (serveSparsesAt (q s) xs 0 (List.replicate feats.length ({}, 0))).map fun x =>
        sparseReply (x.1.map (·.1), x.2)) _ servers replies0 (by
      intro s hs
      obtain ⟨r, t, h6, h7, h8, h9⟩ := serveSparsesAt_sim (q s) feats (val s) xs (hq s hs) 0
        (List.replicate feats.length ({}, 0)) (List.replicate feats.length {}) (by simp) (by simp)
      refine ⟨sparseReply (r.1.map (·.1), r.2), by simp only [h6, Option.map_some], ?_⟩
      simp only [h7, Option.map_some]
      congr 1
      symm
      refine sparseReply_sim ?_ h9
      rw [← h8, List.map_map]
      rfl) h1
  subst h5
  rw [sparseSeqs_norm] at h2
  cases h6 : sparseSeqs feats.length replies with
  | none => rw [h6] at h2; cases h2
  | some seqs =>
    rw [h6, Option.map_some, Option.some.injEq] at h2
    refine ⟨replies, h4, seqs, h6, fun steps hst => ?_⟩
    obtain ⟨pick, h7, h8⟩ := h3 (steps.map normStep) (by rw [← h2]; exact Interleaved.map_steps normStep hst)
    exact ⟨pick, by rw [← h7, remoteSparse_norm], h8⟩

/-- A server loop without `values_sizes`. -/
theorem serveSparses_pairs {α : Type} (q : α → Nat → List SparseState → Option (List SparseState)) :
    ∀ (xs : List α) (i : Nat) (ss : List SparseState),
      serveSparsesAt (fun x i ss => (q x i (ss.map (·.1))).map (List.map fun s => (s, 0))) xs i (ss.map fun s => (s, 0)) =
        (serveSparses q xs i ss).map fun r => (r.1.map fun s => (s, 0), r.2)
  | [], _, _ => rfl
  | x :: xs, i, ss => by
    simp only [serveSparsesAt, serveSparses, List.map_map]
    have h : (List.map ((fun x => x.1) ∘ (fun s : SparseState × Nat => (({ s.1 with flag := -1 } : SparseState), s.2)) ∘
        fun s => (s, 0)) ss) = ss.map fun s => { s with flag := -1 } := rfl
    rw [h]
    cases q x i (ss.map fun s => { s with flag := -1 }) with
    | none => rfl
    | some ss' =>
      simp only [Option.map_some, Option.bind_some]
      rw [serveSparses_pairs q xs (i + 1) ss']
      cases serveSparses q xs (i + 1) ss' with
      | none => rfl
      | some r => simp only [Option.map_some, List.map_map]; rfl

end DeepGNN
