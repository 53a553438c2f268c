import Verif.Spec.Datasets
import Verif.Props.C33

namespace DeepGNN.Datasets

open Samplers Spec

/-! ### Arguments -/

/-- The value a dataset has for a parameter of a sampler. -/
def Dataset.value (d : Dataset) (k : Key) : Option Int :=
  if k = .graph then d.graph else (d.kwargs k).or (d.attr k)

theorem samplerArgs_lookup (d : Dataset) : ∀ (ks : List Key), (Key.graph ∈ ks → d.graph.isSome = true) →
    ∃ l, d.samplerArgs ks = some l ∧ ∀ k, l.lookup k = if k ∈ ks then d.value k else none
  | [], _ => ⟨[], rfl, fun k => by simp⟩
  | k :: ks, h => by
    obtain ⟨l, e, hl⟩ := samplerArgs_lookup d ks fun h' => h (List.mem_cons_of_mem _ h')
    have cons : ∀ v, d.value k = some v → ∀ k', ((k, v) :: l).lookup k' = if k' ∈ k :: ks then d.value k' else none := by
      intro v hv k'
      rw [List.lookup_cons]
      by_cases hk : k' = k
      · subst hk; simp [hv]
      · rw [beq_eq_false_iff_ne.2 hk, hl k']
        simp [hk]
    rw [Dataset.samplerArgs]
    by_cases hg : k = .graph
    · rw [if_pos hg]
      cases hd : d.graph with
      | none => have := h (by simp [hg]); rw [hd] at this; cases this
      | some g =>
        refine ⟨(k, g) :: l, by simp [e], cons g (by rw [Dataset.value, if_pos hg, hd])⟩
    · rw [if_neg hg]
      cases hk : d.kwargs k with
      | some v => exact ⟨(k, v) :: l, by simp [e], cons v (by rw [Dataset.value, if_neg hg, hk]; rfl)⟩
      | none =>
        cases ha : d.attr k with
        | some v => exact ⟨(k, v) :: l, by simp [e], cons v (by rw [Dataset.value, if_neg hg, hk, ha]; rfl)⟩
        | none =>
          refine ⟨l, by simp [e], fun k' => ?_⟩
          rw [hl k']
          by_cases hk' : k' = k
          · subst hk'
            have : d.value k' = none := by rw [Dataset.value, if_neg hg, hk, ha]; rfl
            simp [this]
          · simp [hk']

/-- What a sampler sees. -/
theorem initSampler_eq (d : Dataset) (sig : Sig) (hg : Key.graph ∈ sig.map (·.1) → d.graph.isSome = true)
    (hr : ∀ p ∈ sig, p.2 = none → (d.value p.1).isSome = true) :
    ∃ a, d.initSampler sig = some a ∧
      ∀ k ∈ sig.map (·.1), a k = (d.value k).getD (((sig.lookup k).getD none).getD 0) := by
  obtain ⟨l, e, hl⟩ := samplerArgs_lookup d (sig.map (·.1)) hg
  refine ⟨_, by
    rw [Dataset.initSampler, e, Option.bind_some, Sig.bind, if_pos]
    rw [List.all_eq_true]
    intro p hp
    have hk : p.1 ∈ sig.map (·.1) := List.mem_map.2 ⟨p, hp, rfl⟩
    rw [hl, if_pos hk]
    cases h2 : p.2 with
    | some _ => rfl
    | none => simpa using hr p hp h2, fun k hk => ?_⟩
  rw [hl, if_pos hk]

/-- What the sampler of a loader process of a training worker is given. -/
def given (graph : Option Int) (call : Args) (workers n w i : Nat) : Key → Option Int
  | .graph => graph
  | .numWorkers => some workers
  | .workerIndex => some w
  | .batchSize => some ((call .batchSize).getD 1)
  | .epochs => some ((call .epochs).getD 1)
  | .parallelNum => if n = 0 then call .parallelNum else some n
  | .parallelIndex => if n = 0 then call .parallelIndex else some i
  | k => call k

theorem argsOf_eq (graph : Option Int) (call : Args) (sig : Sig) (workers n w i : Nat)
    (hg : Key.graph ∈ sig.map (·.1) → graph.isSome = true)
    (hr : ∀ p ∈ sig, p.2 = none → (given graph call workers n w i p.1).isSome = true) :
    ∃ a, argsOf graph call sig workers n w i = some a ∧
      ∀ k ∈ sig.map (·.1), a k = (given graph call workers n w i k).getD (((sig.lookup k).getD none).getD 0) := by
  have key : ∃ d : Dataset, argsOf graph call sig workers n w i = d.initSampler sig ∧ d.graph = graph ∧
      ∀ k, d.value k = given graph call workers n w i k := by
    rw [argsOf, workerInfo]
    by_cases hn : n = 0
    · rw [if_pos hn]
      refine ⟨_, rfl, rfl, fun k => ?_⟩
      cases k <;> simp [Dataset.value, Dataset.new, Dataset.attr, named, Args.set, given, hn]
    · rw [if_neg hn]
      refine ⟨_, rfl, rfl, fun k => ?_⟩
      cases k <;> simp [Dataset.value, Dataset.new, Dataset.attr, named, Args.set, given, hn]
  obtain ⟨d, e, h1, h2⟩ := key
  obtain ⟨a, h3, h4⟩ := initSampler_eq d sig (by rw [h1]; exact hg) (fun p hp hn => by rw [h2]; exact hr p hp hn)
  exact ⟨a, by rw [e, h3], fun k hk => by rw [h4 k hk, h2]⟩

/-! ### Lists -/

theorem flatMap_append_perm {ι α : Type} (f g : ι → List α) : ∀ l : List ι,
    (l.flatMap fun x => f x ++ g x).Perm (l.flatMap f ++ l.flatMap g)
  | [] => by simp
  | x :: l => by
    have ih := flatMap_append_perm f g l
    simp only [List.flatMap_cons]
    refine (List.Perm.append_left _ ih).trans ?_
    simp only [List.append_assoc]
    refine List.Perm.append_left _ ?_
    rw [← List.append_assoc, ← List.append_assoc]
    exact List.perm_append_comm.append_right _

theorem flatMap_perm_of {ι α : Type} {f g : ι → List α} : ∀ {l : List ι}, (∀ x ∈ l, (f x).Perm (g x)) → (l.flatMap f).Perm (l.flatMap g)
  | [], _ => by simp
  | x :: l, h => by
    simp only [List.flatMap_cons]
    exact (h x (by simp)).append (flatMap_perm_of fun y hy => h y (by simp [hy]))

theorem flatMap_epochs {ι α : Type} (f : ι → List α) (l : List ι) : ∀ E : Nat,
    (l.flatMap fun x => (List.replicate E (f x)).flatten).Perm (List.replicate E (l.flatMap f)).flatten
  | 0 => by simp
  | E + 1 => by
    simp only [List.replicate_succ, List.flatten_cons]
    exact (flatMap_append_perm f (fun x => (List.replicate E (f x)).flatten) l).trans
      (List.Perm.append_left _ (flatMap_epochs f l E))

theorem replicate_flatten_perm {α : Type} {a b : List α} (h : a.Perm b) : ∀ E : Nat,
    (List.replicate E a).flatten.Perm (List.replicate E b).flatten
  | 0 => by simp
  | E + 1 => by
    simp only [List.replicate_succ, List.flatten_cons]
    exact h.append (replicate_flatten_perm h E)

theorem flatMap_replicate_sum {α : Type} (x : α) (k : Nat → Nat) {b : Nat} : ∀ n : Nat, (∀ w < n, k w ≤ b) →
    ∃ m, m ≤ n * b ∧ (List.range n).flatMap (fun w => List.replicate (k w) x) = List.replicate m x
  | 0, _ => ⟨0, by simp, by simp⟩
  | n + 1, h => by
    obtain ⟨m, h1, h2⟩ := flatMap_replicate_sum x k n fun w hw => h w (by omega)
    have h3 := h n (by omega)
    refine ⟨m + k n, by rw [Nat.succ_mul]; omega, ?_⟩
    rw [List.range_succ, List.flatMap_append, h2]
    simp [List.replicate_append_replicate]

theorem flatMap_length_le {α : Type} (f : Nat → List α) {b : Nat} : ∀ n : Nat, (∀ w < n, (f w).length ≤ b) →
    ((List.range n).flatMap f).length ≤ n * b
  | 0, _ => by simp
  | n + 1, h => by
    have h1 := flatMap_length_le f n fun w hw => h w (by omega)
    have h2 := h n (by omega)
    rw [List.range_succ, List.flatMap_append, List.length_append, Nat.succ_mul, List.flatMap_cons,
      List.flatMap_nil, List.append_nil]
    omega

/-! ### Iterators -/

theorem yields_queried {α β σ : Type} (query : α → β) {next : σ → Option (α × σ)} {s : σ} {out : List α}
    (h : Yields next s out) : Yields (queried query next) s (out.map query) := by
  induction h with
  | stop h => exact .stop (by rw [queried, h]; rfl)
  | more h _ ih => exact .more (by rw [queried, h]; rfl) ih

/-- Rows divided among training workers are divided among the loader processes. -/
theorem array_divided {α : Type} {workers n batch E : Nat} {dl : Bool} (hb : 0 < batch) (bf : α) {rows : Nat → List α}
    {all : List α} (hall : ((List.range workers).flatMap rows).Perm all) (hrow : ∀ w < workers, rows w ≠ [])
    {perm : Nat → Nat → Nat → Nat → List Nat} (hperm : ∀ w i e m, (perm w i e m).Perm (List.range m))
    {a : Nat → Nat → Key → Int} (hbatch : ∀ w < workers, ∀ i < max n 1, a w i .batchSize = batch)
    (hep : ∀ w < workers, ∀ i < max n 1, (a w i .epochs).toNat = E)
    (hdl : ∀ w < workers, ∀ i < max n 1, decide (a w i .dropLast ≠ 0) = dl)
    (hnum : ∀ w < workers, ∀ i < max n 1, a w i .parallelNum = (max n 1 : Nat))
    (hidx : ∀ w < workers, ∀ i < max n 1, a w i .parallelIndex = i)
    (hsh : (∀ w < workers, ∀ i < max n 1, a w i .shuffle = 0) ∨ n ≤ 1) :
    ∃ outs : Nat → Nat → List (List α),
      (∀ w < workers, ∀ i < max n 1, ∃ p, arrayIter (rows w) bf (perm w i) (a w i) = some p ∧ Yields p.1.next p.2 (outs w i)) ∧
      Divided dl workers (max n 1) batch (workers * (batch - 1)) bf outs (List.replicate E all).flatten := by
  have hN : 0 < max n 1 := by omega
  let it : Nat → ArrayIter α := fun w =>
    { data := rows w, order := fun e => if a w 0 .shuffle ≠ 0 then perm w 0 e (rows w).length else List.range (rows w).length,
      batch, epochs := E, backfill := bf, dropLast := dl, num := max n 1 }
  have hord : ∀ w e, ((it w).order e).Perm (List.range (it w).data.length) := by
    intro w e
    simp only [it]
    split
    · exact hperm _ _ _ _
    · exact .refl _
  have hit : ∀ w < workers, ∀ i < max n 1, arrayIter (rows w) bf (perm w i) (a w i) = some (it w, (it w).start i) := by
    intro w hw i hi
    have hr : (rows w).length > 0 := List.length_pos_iff.2 (hrow w hw)
    have ho : (fun e => if a w i .shuffle ≠ 0 then perm w i e (rows w).length else List.range (rows w).length) = (it w).order := by
      rcases hsh with h | h
      · simp only [it]
        rw [h w hw i hi, h w hw 0 hN]
        simp
      · have : i = 0 := by omega
        subst this
        rfl
    simp only [arrayIter, if_pos hr]
    rw [ho, hbatch w hw i hi, hep w hw i hi, hdl w hw i hi, hnum w hw i hi, hidx w hw i hi]
    rfl
  have key : ∀ w, ∃ out : Nat → List (List α), (∀ i < max n 1, Yields (it w).next ((it w).start i) (out i)) ∧
      (∀ i < max n 1, ∀ b ∈ out i, b.length = batch) ∧
      (dl = false → ∃ k, k ≤ batch - 1 ∧ ((List.range (max n 1)).flatMap fun i => (out i).flatten).Perm
          ((List.replicate E (rows w)).flatten ++ List.replicate k bf)) ∧
      (dl = true → ∃ dropped : List α, dropped.length ≤ batch - 1 ∧
          (((List.range (max n 1)).flatMap fun i => (out i).flatten) ++ dropped).Perm (List.replicate E (rows w)).flatten) := by
    intro w
    by_cases hd : dl = false
    · obtain ⟨out, h1, h2, k, h3, h4⟩ := C33_epochs_partial (it w) hb hN hd (hord w)
      exact ⟨out, h1, h2, fun _ => ⟨k, by have : k < batch := h3; omega, h4⟩, fun h => by rw [hd] at h; cases h⟩
    · have hd : dl = true := by simpa using hd
      obtain ⟨out, h1, h2, k, h3, h4⟩ := C33_drop_last_partial (it w) hb hN hd (hord w)
      exact ⟨out, h1, h2, fun h => (by rw [hd] at h; cases h), fun _ => ⟨k, by have : k.length < batch := h3; omega, h4⟩⟩
  obtain ⟨outs, houts⟩ := Classical.axiomOfChoice key
  refine ⟨outs, fun w hw i hi => ⟨_, hit w hw i hi, (houts w).1 i hi⟩, fun w hw i hi => (houts w).2.1 i hi, ?_⟩
  cases dl with
  | false =>
    obtain ⟨k, hk⟩ := Classical.axiomOfChoice fun w => (houts w).2.2.1 rfl
    obtain ⟨m, hm, em⟩ := flatMap_replicate_sum bf k workers fun w _ => (hk w).1
    refine ⟨m, hm, ?_⟩
    rw [everything]
    refine (flatMap_perm_of fun w _ => (hk w).2).trans ?_
    refine (flatMap_append_perm _ _ _).trans ?_
    rw [em]
    exact ((flatMap_epochs rows _ E).trans (replicate_flatten_perm hall E)).append_right _
  | true =>
    obtain ⟨k, hk⟩ := Classical.axiomOfChoice fun w => (houts w).2.2.2 rfl
    refine ⟨(List.range workers).flatMap k, flatMap_length_le k workers fun w _ => (hk w).1, ?_⟩
    rw [everything]
    refine (flatMap_append_perm _ _ _).symm.trans ?_
    refine (flatMap_perm_of fun w _ => (hk w).2).trans ?_
    exact (flatMap_epochs rows _ E).trans (replicate_flatten_perm hall E)

/-! ### Division of files and lines among training workers -/

/-- The files of the workers are the files. -/
theorem files_perm {assign : List Files.Name → Nat → Nat → Option (List Files.Name)} {files : List Files.Name}
    {listing : Nat → List Files.Name} {workers : Nat} (hf : files.Nodup) (h : Spec.SplitsFiles assign files listing workers) :
    ((List.range workers).flatMap fun w => (assign (listing w) w workers).getD []).Perm files := by
  refine Convert.flatMap_range_perm hf (fun w hw => ?_) (fun v hv w hw f h1 h2 => ?_) fun f => ?_
  · obtain ⟨fs, e, hn⟩ := h.assigned w hw
    rw [e]; exact hn
  · obtain ⟨a, ea, -⟩ := h.assigned v hv
    obtain ⟨b, eb, -⟩ := h.assigned w hw
    rw [ea] at h1; rw [eb] at h2
    exact h.disjoint v hv w hw a b ea eb f h1 h2
  · rw [h.covers]
    constructor
    · rintro ⟨w, hw, fs, e, hm⟩
      exact ⟨w, hw, by rw [e]; exact hm⟩
    · rintro ⟨w, hw, hm⟩
      obtain ⟨fs, e, -⟩ := h.assigned w hw
      rw [e] at hm
      exact ⟨w, hw, fs, e, hm⟩

theorem flatMap_single {α : Type} (x : α) {j : Nat} : ∀ {n : Nat}, j < n →
    (List.range n).flatMap (fun w => if j = w then [x] else []) = [x]
  | 0, h => by omega
  | n + 1, h => by
    rw [List.range_succ, List.flatMap_append]
    by_cases hj : j = n
    · subst hj
      have : (List.range j).flatMap (fun w => if j = w then [x] else []) = [] := by
        rw [List.flatMap_eq_nil_iff]
        intro w hw
        have := List.mem_range.1 hw
        rw [if_neg (by omega)]
      rw [this]; simp
    · rw [flatMap_single x (by omega : j < n)]
      simp [hj]

/-- The rows of a worker. -/
def rowsOf {α : Type} (workers w : Nat) : Nat → List α → List α
  | _, [] => []
  | cnt, r :: rs => (if cnt % workers = w then [r] else []) ++ rowsOf workers w (cnt + 1) rs

theorem tupleRows_eq {κ α : Type} {parse : κ → Option α} (workers w : Nat) : ∀ {lines : List κ} {rows : List α} (cnt : Nat),
    lines.mapM parse = some rows → tupleRows parse w workers cnt lines = some (rowsOf workers w cnt rows)
  | [], rows, cnt, h => by
    simp at h; subst h; rfl
  | l :: ls, rows, cnt, h => by
    rw [List.mapM_cons] at h
    simp only [Option.bind_eq_bind, Option.bind_eq_some_iff, Option.pure_def, Option.some.injEq] at h
    obtain ⟨r, h1, rs, h2, rfl⟩ := h
    rw [tupleRows, tupleRows_eq workers w (cnt + 1) h2, h1, rowsOf]
    split <;> simp

theorem rowsOf_perm {α : Type} {workers : Nat} (hw : 0 < workers) : ∀ (rows : List α) (cnt : Nat),
    ((List.range workers).flatMap fun w => rowsOf workers w cnt rows).Perm rows
  | [], cnt => by simp [rowsOf]
  | r :: rs, cnt => by
    simp only [rowsOf]
    refine (flatMap_append_perm _ _ _).trans ?_
    rw [flatMap_single r (Nat.mod_lt cnt hw)]
    exact (rowsOf_perm hw rs (cnt + 1)).cons r

theorem rowsOf_mem {α : Type} {workers w : Nat} : ∀ (rows : List α) (cnt i : Nat) (x : α), rows[i]? = some x →
    (cnt + i) % workers = w → x ∈ rowsOf workers w cnt rows
  | r :: rs, cnt, 0, x, h, hm => by
    simp at h hm
    subst h
    simp [rowsOf, hm]
  | r :: rs, cnt, i + 1, x, h, hm => by
    rw [List.getElem?_cons_succ] at h
    rw [rowsOf]
    exact List.mem_append.2 (.inr (rowsOf_mem rs (cnt + 1) i x h (by rw [← hm]; congr 1; omega)))

theorem rowsOf_ne {α : Type} {workers w : Nat} {rows : List α} (hw : w < workers) (h : workers ≤ rows.length) :
    rowsOf workers w 0 rows ≠ [] := by
  have := rowsOf_mem (workers := workers) (w := w) rows 0 w (rows[w]'(by omega)) (List.getElem?_eq_getElem _) (by
    rw [Nat.zero_add, Nat.mod_eq_of_lt hw])
  intro e
  rw [e] at this
  cases this

theorem rowsOf_sub {α : Type} {workers w : Nat} : ∀ (rows : List α) (cnt : Nat) (x : α), x ∈ rowsOf workers w cnt rows → x ∈ rows
  | r :: rs, cnt, x, h => by
    rw [rowsOf] at h
    rcases List.mem_append.1 h with h | h
    · split at h
      · simp at h; simp [h]
      · cases h
    · exact List.mem_cons_of_mem _ (rowsOf_sub rs (cnt + 1) x h)

end DeepGNN.Datasets
