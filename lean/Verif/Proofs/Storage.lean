import Verif.Model.Storage
import Verif.Spec.Storage
import Verif.Proofs.TemporalFeature
import Verif.Proofs.SparseFeatures
import Verif.Proofs.StringFeatures

/-
Queries on disk and in memory.
-/

namespace DeepGNN.Storage

variable {α β : Type}

/-! Reads -/

theorem toInt32_small {off : Nat} (h : off < 2 ^ 31) : toInt32 off = off := by
  simp only [toInt32]
  rw [Nat.mod_eq_of_lt (by omega), if_pos h]

theorem diskRead_spec {b : Bytes} {s : FileState} {off n : Nat} (hb : b.length ≤ 2 ^ 31) :
    diskRead b s off n = if s.eof = false ∧ off < b.length then
      (readAt b off n).map fun v => (v, ⟨off + n, false⟩) else none := by
  simp only [diskRead]
  by_cases he : s.eof = true
  · simp [he]
  · have he : s.eof = false := by simpa using he
    by_cases ho : b.length ≤ off
    · have h1 : ¬ (s.eof = false ∧ off < b.length) := by omega
      simp [he, ho, show ¬ off < b.length by omega]
    · have hs : seek s off = ⟨off, false⟩ := by
        simp only [seek]
        rw [toInt32_small (by omega), if_pos (by omega)]
        simp
      rw [hs]
      simp only [he, Bool.false_eq_true, if_false, ho, readAt, show off < b.length by omega, and_self, if_true]
      by_cases hn : off + n ≤ b.length
      · simp [hn]
      · simp [hn]

theorem Rd.mem_bind (b : Bytes) (p : Rd α) (f : α → Rd β) : (p.bind f).mem b = (p.mem b).bind fun a => (f a).mem b := by
  induction p with
  | ret a => rfl
  | fail => rfl
  | read off n k ih =>
    simp only [Rd.bind, Rd.mem, ih]
    cases readAt b off n <;> rfl

theorem Rd.mem_map (b : Bytes) (p : Rd α) (f : α → β) : (p.map f).mem b = (p.mem b).map f := by
  rw [Rd.map, Rd.mem_bind]
  cases p.mem b <;> rfl

theorem Rd.mem_ofOption (b : Bytes) (o : Option α) : (Rd.ofOption o).mem b = o := by
  cases o <;> rfl

/-- What is read from a disk is what would be read from memory. -/
theorem Rd.mem_of_disk {b : Bytes} (hb : b.length ≤ 2 ^ 31) (p : Rd α) (s : FileState) (a : α) (s' : FileState)
    (h : p.disk b s = some (a, s')) : p.mem b = some a := by
  induction p generalizing s with
  | ret a' => simp only [Rd.disk, Option.some.injEq, Prod.mk.injEq] at h; rw [Rd.mem, h.1]
  | fail => simp [Rd.disk] at h
  | read off n k ih =>
    simp only [Rd.disk, diskRead_spec hb] at h
    simp only [Rd.mem]
    split at h
    · cases hr : readAt b off n with
      | none => rw [hr] at h; simp at h
      | some v =>
        rw [hr] at h
        exact ih v _ h
    · simp at h

/-- All reads start inside of the file or are not empty. -/
def Rd.Safe (b : Bytes) : Rd α → Prop
  | .ret _ => True
  | .fail => True
  | .read off n k => (0 < n ∨ off < b.length) ∧ ∀ v, readAt b off n = some v → (k v).Safe b

theorem Rd.disk_of_mem {b : Bytes} (hb : b.length ≤ 2 ^ 31) (p : Rd α) (hp : p.Safe b) (s : FileState)
    (hs : s.eof = false) (a : α) (h : p.mem b = some a) : ∃ s', p.disk b s = some (a, s') := by
  induction p generalizing s with
  | ret a' => simp only [Rd.mem, Option.some.injEq] at h; exact ⟨s, by rw [Rd.disk, h]⟩
  | fail => simp [Rd.mem] at h
  | read off n k ih =>
    simp only [Rd.mem] at h
    cases hr : readAt b off n with
    | none => rw [hr] at h; simp at h
    | some v =>
      rw [hr] at h
      simp only [Rd.disk, diskRead_spec hb]
      have hlt : off < b.length := by
        rcases hp.1 with h1 | h1
        · simp only [readAt] at hr
          split at hr
          · omega
          · simp at hr
        · exact h1
      rw [if_pos ⟨hs, hlt⟩, hr]
      exact ih v (hp.2 v hr) _ rfl h

theorem Rd.Safe.bind {b : Bytes} {p : Rd α} {f : α → Rd β} (hp : p.Safe b)
    (hf : ∀ a, p.mem b = some a → (f a).Safe b) : (p.bind f).Safe b := by
  induction p with
  | ret a => exact hf a rfl
  | fail => trivial
  | read off n k ih =>
    refine ⟨hp.1, fun v hv => ih v (hp.2 v hv) fun a ha => hf a ?_⟩
    simp only [Rd.mem, hv, Option.bind_some, ha]

theorem Rd.Safe.map {b : Bytes} {p : Rd α} {f : α → β} (hp : p.Safe b) : (p.map f).Safe b :=
  hp.bind fun _ _ => trivial

theorem Rd.safe_ofOption {b : Bytes} (o : Option α) : (Rd.ofOption o).Safe b := by
  cases o <;> trivial

theorem Rd.run_of_disk {b : Bytes} (hb : b.length ≤ 2 ^ 31) {p : Rd α} {a : α} (h : p.run .disk b = some a) :
    p.run .memory b = some a := by
  simp only [Rd.run] at h ⊢
  obtain ⟨x, hx, rfl⟩ := Option.map_eq_some_iff.1 h
  exact Rd.mem_of_disk hb p _ _ _ hx

theorem Rd.run_of_mem {b : Bytes} (hb : b.length ≤ 2 ^ 31) {p : Rd α} (hp : p.Safe b) {a : α}
    (h : p.run .memory b = some a) : p.run .disk b = some a := by
  simp only [Rd.run] at h ⊢
  obtain ⟨s', hs⟩ := Rd.disk_of_mem hb p hp {} rfl a h
  rw [hs]; rfl

/-! The programs run on memory are the queries modelled before. -/

theorem mem_deserializeTemporal (b : Bytes) (off : Nat) (t : Int) :
    (deserializeTemporal off t).mem b = DeepGNN.deserializeTemporal b off t := by
  simp only [deserializeTemporal, DeepGNN.deserializeTemporal, Rd.mem]
  congr 1; funext cb
  split
  · rfl
  · simp only [Rd.mem]
    congr 1; funext raw
    generalize (if bsearch (fun a => decide (a < t)) (List.map rdI64 (records 8 raw)) 0 (leNat cb) = leNat cb then
      bsearch (fun a => decide (a < t)) (List.map rdI64 (records 8 raw)) 0 (leNat cb) - 1 else
      bsearch (fun a => decide (a < t)) (List.map rdI64 (records 8 raw)) 0 (leNat cb)) = pos
    rw [Rd.mem_bind, Rd.mem_ofOption]
    congr 1; funext x
    split
    · rfl
    · simp only [Rd.mem_bind, Rd.mem_ofOption, Rd.mem]

theorem mem_featValue (b : Bytes) (ts : Option Int) (r : Nat × Nat) :
    (featValue ts r).mem b = DeepGNN.featValue b ts r := by
  cases ts
  · rfl
  · exact mem_deserializeTemporal _ _ _

theorem mem_copyFeature (b : Bytes) (size off stored : Nat) :
    (copyFeature size off stored).mem b = DeepGNN.copyFeature b size off stored := by
  simp only [copyFeature, DeepGNN.copyFeature, Rd.mem]
  cases readAt b off (min size stored) <;> rfl

theorem mem_nodeFeatureStep (b : Bytes) (index : List Nat) (lo hi : Nat) (ts : Option Int) (f : Nat × Nat)
    (s : Int × Bytes) :
    (nodeFeatureStep index lo hi ts f s).mem b = DeepGNN.nodeFeatureStep index b lo hi ts f s := by
  simp only [nodeFeatureStep, DeepGNN.nodeFeatureStep]
  split
  · rfl
  · rw [Rd.mem_bind, Rd.mem_ofOption]
    congr 1; funext r
    cases r with
    | none => rfl
    | some r =>
      simp only [Rd.mem_bind, mem_featValue]
      congr 1; funext v
      split
      · rfl
      · rw [Rd.mem_map, mem_copyFeature]

theorem mem_edgeFeatureStep (b : Bytes) (index : List Nat) (lo hi : Nat) (ts : Option Int) (f : Nat × Nat)
    (s : Int × Bytes) :
    (edgeFeatureStep index lo hi ts f s).mem b = DeepGNN.edgeFeatureStep index b lo hi ts f s := by
  simp only [edgeFeatureStep, DeepGNN.edgeFeatureStep]
  split
  · rfl
  · rw [Rd.mem_bind, Rd.mem_ofOption]
    congr 1; funext r
    cases r with
    | none => rfl
    | some r =>
      simp only [Rd.mem_bind, mem_featValue]
      congr 1; funext v
      rw [Rd.mem_map, mem_copyFeature]

theorem mem_stepAll {γ δ : Type} (b : Bytes) {step : γ → δ → Rd δ} {step' : γ → δ → Option δ}
    (h : ∀ f s, (step f s).mem b = step' f s) (fs : List γ) (ss : List δ) :
    (stepAll step fs ss).mem b = DeepGNN.stepAll step' fs ss := by
  induction fs generalizing ss with
  | nil => rfl
  | cons f fs ih =>
    cases ss with
    | nil => rfl
    | cons s ss =>
      simp only [stepAll, DeepGNN.stepAll, Rd.mem_bind, Rd.mem_map, h, ih]

theorem mem_stringStep (b : Bytes) (edge : Bool) (index : List Nat) (lo hi : Nat) (ts : Option Int) (fid : Nat)
    (s : Int × Nat) (out : Bytes) :
    (stringStep edge index lo hi ts fid s out).mem b = DeepGNN.stringStep edge index b lo hi ts fid s out := by
  simp only [stringStep, DeepGNN.stringStep]
  split
  · rfl
  · rw [Rd.mem_bind, Rd.mem_ofOption]
    congr 1; funext r
    cases r with
    | none => rfl
    | some r =>
      dsimp only
      split
      · rfl
      · simp only [Rd.mem_bind, mem_featValue]
        congr 1; funext v
        split
        · rfl
        · simp only [Rd.mem]
          cases readAt b v.1 v.2.1 <;> rfl

theorem mem_stringLoop (b : Bytes) {step : Nat → Int × Nat → Bytes → Rd ((Int × Nat) × Bytes)}
    {step' : Nat → Int × Nat → Bytes → Option ((Int × Nat) × Bytes)}
    (h : ∀ f s out, (step f s out).mem b = step' f s out) (fs : List Nat) (ss : List (Int × Nat)) (out : Bytes) :
    (stringLoop step fs ss out).mem b = DeepGNN.stringLoop step' fs ss out := by
  induction fs generalizing ss out with
  | nil => rfl
  | cons f fs ih =>
    cases ss with
    | nil => rfl
    | cons s ss =>
      simp only [stringLoop, DeepGNN.stringLoop, Rd.mem_bind, Rd.mem_map, h, ih]

theorem mem_readIndices (b : Bytes) (pre : Int) (dim k off : Nat) :
    (readIndices pre dim k off).mem b = DeepGNN.readIndices b pre dim k off := by
  induction k generalizing off with
  | zero => rfl
  | succ k ih => simp only [readIndices, DeepGNN.readIndices, Rd.mem, Rd.mem_map, ih]

theorem mem_deserializeSparse (b : Bytes) (off stored : Nat) (pre : Int) (s : SparseState) :
    (deserializeSparse off stored pre s).mem b = DeepGNN.deserializeSparse b off stored pre s := by
  simp only [deserializeSparse, DeepGNN.deserializeSparse]
  split
  · rfl
  · simp only [Rd.mem]
    congr 1; funext b1
    congr 1; funext b2
    split
    · rfl
    · simp only [Rd.mem_bind, mem_readIndices]
      congr 1; funext idx
      simp only [Rd.mem]
      generalize readAt b _ _ = o
      cases o <;> rfl

theorem mem_sparseStep (b : Bytes) (index : List Nat) (lo hi : Nat) (pre : Int) (fid : Nat) (s : SparseState) :
    (sparseStep index lo hi pre fid s).mem b = DeepGNN.sparseStep index b lo hi pre fid s := by
  simp only [sparseStep, DeepGNN.sparseStep]
  split
  · rfl
  · rw [Rd.mem_bind, Rd.mem_ofOption]
    congr 1; funext r
    cases r with
    | none => rfl
    | some r =>
      dsimp only
      split
      · rfl
      · exact mem_deserializeSparse _ _ _ _ _

theorem memory_nodeFeatureP : nodeFeatureP .memory = Partition.nodeFeature := by
  funext p id ts feats ss
  simp only [nodeFeatureP, Partition.nodeFeature, Rd.run]
  have key : ∀ lo hi, _ = _ := fun lo hi =>
    mem_stepAll p.nodeFeatures (mem_nodeFeatureStep p.nodeFeatures p.nodeFeatureIndex lo hi ts) feats ss
  simp only [key]

theorem memory_edgeFeatureP : edgeFeatureP .memory = Partition.edgeFeature := by
  funext p id dst typ ts feats ss
  simp only [edgeFeatureP, Partition.edgeFeature, Rd.run]
  have key : ∀ lo hi, _ = _ := fun lo hi =>
    mem_stepAll p.edgeFeatures (mem_edgeFeatureStep p.edgeFeatures p.edgeFeatureIndex lo hi ts) feats ss
  simp only [key]

theorem memory_nodeStringP : nodeStringP .memory = Partition.nodeString := by
  funext p id ts feats s
  simp only [nodeStringP, Partition.nodeString, Rd.run]
  have key : ∀ lo hi, _ = _ := fun lo hi =>
    mem_stringLoop p.nodeFeatures (mem_stringStep p.nodeFeatures false p.nodeFeatureIndex lo hi ts) feats s.flags s.out
  simp only [key]

theorem memory_edgeStringP : edgeStringP .memory = Partition.edgeString := by
  funext p id dst typ ts feats s
  simp only [edgeStringP, Partition.edgeString, Rd.run]
  have key : ∀ lo hi, _ = _ := fun lo hi =>
    mem_stringLoop p.edgeFeatures (mem_stringStep p.edgeFeatures true p.edgeFeatureIndex lo hi ts) feats s.flags s.out
  simp only [key]
  rfl

theorem memory_nodeSparseP : nodeSparseP .memory = Partition.nodeSparse := by
  funext p id pre feats ss
  simp only [nodeSparseP, Partition.nodeSparse, Rd.run]
  have key : ∀ lo hi, _ = _ := fun lo hi =>
    mem_stepAll p.nodeFeatures (mem_sparseStep p.nodeFeatures p.nodeFeatureIndex lo hi pre) feats ss
  simp only [key]

theorem memory_edgeSparseP : edgeSparseP .memory = Partition.edgeSparse := by
  funext p id dst typ pre feats ss
  simp only [edgeSparseP, Partition.edgeSparse, Rd.run]
  have key : ∀ lo hi, _ = _ := fun lo hi =>
    mem_stepAll p.edgeFeatures (mem_sparseStep p.edgeFeatures p.edgeFeatureIndex lo hi pre) feats ss
  simp only [key]

theorem memory_nodeFeature : nodeFeature .memory = Graph.nodeFeature := by
  funext g nodes ts feats out
  simp only [nodeFeature, Graph.nodeFeature, nodeFeature1, Graph.nodeFeature1, memory_nodeFeatureP]
  rfl

theorem memory_edgeFeature : edgeFeature .memory = Graph.edgeFeature := by
  funext g edges ts feats
  simp only [edgeFeature, Graph.edgeFeature, edgeFeature1, Graph.edgeFeature1, memory_edgeFeatureP]
  rfl

theorem memory_nodeString : nodeString .memory = Graph.nodeString := by
  funext g feats q out
  induction q generalizing out with
  | nil => rfl
  | cons x q ih =>
    simp only [nodeString, Graph.nodeString, nodeString1, Graph.nodeString1, memory_nodeStringP, ih]

theorem memory_edgeString : edgeString .memory = Graph.edgeString := by
  funext g feats q out
  induction q generalizing out with
  | nil => rfl
  | cons x q ih =>
    simp only [edgeString, Graph.edgeString, edgeString1, Graph.edgeString1, memory_edgeStringP, ih]

theorem memory_nodeSparse : nodeSparse .memory = Graph.nodeSparse := by
  have : ∀ g feats nodes i ss, nodeSparseLoop .memory g feats nodes i ss = g.nodeSparseLoop feats nodes i ss := by
    intro g feats nodes
    induction nodes with
    | nil => intros; rfl
    | cons n ns ih =>
      intro i ss
      simp only [nodeSparseLoop, Graph.nodeSparseLoop, memory_nodeSparseP, ih]
  funext g feats nodes
  simp only [nodeSparse, Graph.nodeSparse, this]

theorem memory_edgeSparse : edgeSparse .memory = Graph.edgeSparse := by
  have : ∀ g feats edges i ss, edgeSparseLoop .memory g feats edges i ss = g.edgeSparseLoop feats edges i ss := by
    intro g feats edges
    induction edges with
    | nil => intros; rfl
    | cons n ns ih =>
      intro i ss
      simp only [edgeSparseLoop, Graph.edgeSparseLoop, memory_edgeSparseP, ih]
  funext g feats edges
  simp only [edgeSparse, Graph.edgeSparse, this]

/-! One query gives the results of another one, where it has any. -/

/-- The second query gives the result of the first one, if that has one. -/
def Sub {α : Type} (o o' : Option α) : Prop := ∀ v, o = some v → o' = some v

theorem Sub.rfl' {α : Type} (o : Option α) : Sub o o := fun _ h => h

theorem Sub.antisymm {α : Type} {o o' : Option α} (h : Sub o o') (h' : Sub o' o) : o = o' := by
  cases o with
  | some v => exact (h v rfl).symm
  | none =>
    cases o' with
    | none => rfl
    | some v => exact h' v rfl

theorem Sub.bind {α β : Type} {o o' : Option α} {f f' : α → Option β} (h : Sub o o')
    (hf : ∀ a, o = some a → Sub (f a) (f' a)) : Sub (o.bind f) (o'.bind f') := by
  intro v hv
  obtain ⟨a, h1, h2⟩ := Option.bind_eq_some_iff.1 hv
  rw [h a h1]
  exact hf a h1 v h2

theorem Sub.map {α β : Type} {o o' : Option α} {f : α → β} (h : Sub o o') : Sub (o.map f) (o'.map f) := by
  intro v hv
  obtain ⟨a, h1, h2⟩ := Option.map_eq_some_iff.1 hv
  rw [h a h1, Option.map_some, h2]

theorem Sub.foldlM {σ γ : Type} {f f' : σ → γ → Option σ} (l : List γ) (h : ∀ x ∈ l, ∀ s, Sub (f s x) (f' s x))
    (s : σ) : Sub (l.foldlM f s) (l.foldlM f' s) := by
  induction l generalizing s with
  | nil => exact Sub.rfl' _
  | cons x l ih =>
    rw [List.foldlM_cons, List.foldlM_cons]
    exact (h x (by simp) s).bind fun s' _ => ih (fun y hy => h y (by simp [hy])) s'

theorem Sub.mapM {γ δ : Type} {f f' : γ → Option δ} (l : List γ) (h : ∀ x ∈ l, Sub (f x) (f' x)) :
    Sub (l.mapM f) (l.mapM f') := by
  induction l with
  | nil => exact Sub.rfl' _
  | cons x l ih =>
    rw [List.mapM_cons, List.mapM_cons]
    refine (h x (by simp)).bind fun y _ => ?_
    exact (ih fun z hz => h z (by simp [hz])).bind fun _ _ => Sub.rfl' _

section lift
variable {k k' : Kind} {g : Graph}

theorem sub_nodeFeature (nodes : List Int) (ts : Option (List Int)) (feats : List (Nat × Nat)) (out : Bytes)
    (h : ∀ n ∈ nodes, ∀ es, g.entries n = some es → ∀ x ∈ es, ∀ t ∈ tsList ts nodes.length, ∀ ss,
      Sub (nodeFeatureP k x.1 x.2 t feats ss) (nodeFeatureP k' x.1 x.2 t feats ss)) :
    Sub (nodeFeature k g nodes ts feats out) (nodeFeature k' g nodes ts feats out) := by
  simp only [nodeFeature]
  split
  · exact Sub.rfl' _
  · refine (Sub.mapM _ fun x hx => ?_).map
    have h1 := List.of_mem_zip (List.of_mem_zip (show (x.1, x.2) ∈ _ from hx)).1
    simp only [nodeFeature1]
    cases g.nodeMap x.1.1 with
    | none => exact Sub.rfl' _
    | some _ =>
      refine (Sub.rfl' _).bind fun es hes => (Sub.foldlM _ (fun y hy ss => ?_) _).map
      exact h _ h1.1 es hes y hy _ h1.2 ss

theorem sub_edgeFeature (edges : List EdgeId) (ts : Option (List Int)) (feats : List (Nat × Nat))
    (h : ∀ e ∈ edges, ∀ es, g.entries e.src = some es → ∀ x ∈ es, ∀ t ∈ tsList ts edges.length, ∀ ss,
      Sub (edgeFeatureP k x.1 x.2 e.dst e.typ t feats ss) (edgeFeatureP k' x.1 x.2 e.dst e.typ t feats ss)) :
    Sub (edgeFeature k g edges ts feats) (edgeFeature k' g edges ts feats) := by
  simp only [edgeFeature]
  refine (Sub.mapM _ fun x hx => ?_).map
  have h1 := List.of_mem_zip (show (x.1, x.2) ∈ _ from hx)
  simp only [edgeFeature1]
  cases g.nodeMap x.1.src with
  | none => exact Sub.rfl' _
  | some _ =>
    refine (Sub.rfl' _).bind fun es hes => (Sub.foldlM _ (fun y hy ss => ?_) _).map
    exact h _ h1.1 es hes y hy _ h1.2 ss

theorem sub_nodeString (feats : List Nat) (q : List (Int × Option Int)) (out : Bytes)
    (h : ∀ n ∈ q, ∀ es, g.entries n.1 = some es → ∀ x ∈ es, ∀ s,
      Sub (nodeStringP k x.1 x.2 n.2 feats s) (nodeStringP k' x.1 x.2 n.2 feats s)) :
    Sub (nodeString k g feats q out) (nodeString k' g feats q out) := by
  induction q generalizing out with
  | nil => exact Sub.rfl' _
  | cons x q ih =>
    simp only [nodeString, nodeString1]
    refine Sub.bind ?_ fun y _ => (ih y.2 fun n hn => h n (by simp [hn])).map
    refine (Sub.rfl' _).bind fun es hes => (Sub.foldlM _ (fun y hy ss => ?_) _).map
    exact h x (by simp) es hes y hy ss

theorem sub_edgeString (feats : List Nat) (q : List (EdgeId × Option Int)) (out : Bytes)
    (h : ∀ n ∈ q, ∀ es, g.entries n.1.src = some es → ∀ x ∈ es, ∀ s,
      Sub (edgeStringP k x.1 x.2 n.1.dst n.1.typ n.2 feats s) (edgeStringP k' x.1 x.2 n.1.dst n.1.typ n.2 feats s)) :
    Sub (edgeString k g feats q out) (edgeString k' g feats q out) := by
  induction q generalizing out with
  | nil => exact Sub.rfl' _
  | cons x q ih =>
    simp only [edgeString, edgeString1]
    refine Sub.bind ?_ fun y _ => (ih y.2 fun n hn => h n (by simp [hn])).map
    refine (Sub.rfl' _).bind fun es hes => (Sub.foldlM _ (fun y hy ss => ?_) _).map
    exact h x (by simp) es hes y hy ss

theorem sub_nodeSparse (feats : List Nat) (nodes : List Int)
    (h : ∀ n ∈ nodes, ∀ es, g.entries n = some es → ∀ x ∈ es, ∀ i s,
      Sub (nodeSparseP k x.1 x.2 i feats s) (nodeSparseP k' x.1 x.2 i feats s)) :
    Sub (nodeSparse k g feats nodes) (nodeSparse k' g feats nodes) := by
  refine Sub.map ?_
  generalize List.replicate feats.length _ = ss
  generalize 0 = i
  induction nodes generalizing i ss with
  | nil => exact Sub.rfl' _
  | cons x q ih =>
    simp only [nodeSparseLoop]
    refine (Sub.rfl' _).bind fun es hes => ?_
    refine (Sub.foldlM _ (fun y hy ss => ?_) _).bind fun ss _ => ih (fun n hn => h n (by simp [hn])) _ _
    exact h x (by simp) es hes y hy _ ss

theorem sub_edgeSparse (feats : List Nat) (edges : List EdgeId)
    (h : ∀ e ∈ edges, ∀ es, g.entries e.src = some es → ∀ x ∈ es, ∀ i s,
      Sub (edgeSparseP k x.1 x.2 e.dst e.typ i feats s) (edgeSparseP k' x.1 x.2 e.dst e.typ i feats s)) :
    Sub (edgeSparse k g feats edges) (edgeSparse k' g feats edges) := by
  refine Sub.map ?_
  generalize List.replicate feats.length _ = ss
  generalize 0 = i
  induction edges generalizing i ss with
  | nil => exact Sub.rfl' _
  | cons x q ih =>
    simp only [edgeSparseLoop]
    refine (Sub.rfl' _).bind fun es hes => ?_
    refine (Sub.foldlM _ (fun y hy ss => ?_) _).bind fun ss _ => ih (fun n hn => h n (by simp [hn])) _ _
    exact h x (by simp) es hes y hy _ ss

end lift

/-! Programs of the queries -/

/-- A program without reads. -/
def Rd.NoRead : Rd α → Prop
  | .ret _ => True
  | .fail => True
  | .read .. => False

theorem Rd.NoRead.run {p : Rd α} (h : p.NoRead) (k k' : Kind) (b b' : Bytes) : p.run k b = p.run k' b' := by
  cases p with
  | ret a => cases k <;> cases k' <;> rfl
  | fail => cases k <;> cases k' <;> rfl
  | read => exact h.elim

theorem Rd.NoRead.bind {p : Rd α} {f : α → Rd β} (h : p.NoRead) (hf : ∀ a, (f a).NoRead) : (p.bind f).NoRead := by
  cases p with
  | ret a => exact hf a
  | fail => trivial
  | read => exact h.elim

theorem noRead_stringLoop {step : Nat → Int × Nat → Bytes → Rd ((Int × Nat) × Bytes)}
    (h : ∀ f s out, (step f s out).NoRead) (fs : List Nat) (ss : List (Int × Nat)) (out : Bytes) :
    (stringLoop step fs ss out).NoRead := by
  induction fs generalizing ss out with
  | nil => trivial
  | cons f fs ih =>
    cases ss with
    | nil => trivial
    | cons s ss => exact (h f s out).bind fun x => (ih ss x.2).bind fun _ => trivial

theorem noRead_stringStep (edge : Bool) (lo hi : Nat) (ts : Option Int) (fid : Nat) (s : Int × Nat) (out : Bytes) :
    (stringStep edge [] lo hi ts fid s out).NoRead := by
  simp only [stringStep]
  split
  · trivial
  · simp only [featRange]
    split <;> trivial

theorem safe_stepAll {γ δ : Type} {b : Bytes} {step : γ → δ → Rd δ} (fs : List γ) (ss : List δ)
    (h : ∀ f ∈ fs, ∀ s, (step f s).Safe b) : (stepAll step fs ss).Safe b := by
  induction fs generalizing ss with
  | nil => trivial
  | cons f fs ih =>
    cases ss with
    | nil => trivial
    | cons s ss =>
      exact (h f (by simp) s).bind fun _ _ => (ih ss fun f hf => h f (by simp [hf])).map

theorem safe_stringLoop {b : Bytes} {step : Nat → Int × Nat → Bytes → Rd ((Int × Nat) × Bytes)} (fs : List Nat)
    (ss : List (Int × Nat)) (out : Bytes) (h : ∀ f ∈ fs, ∀ s out, (step f s out).Safe b) :
    (stringLoop step fs ss out).Safe b := by
  induction fs generalizing ss out with
  | nil => trivial
  | cons f fs ih =>
    cases ss with
    | nil => trivial
    | cons s ss =>
      exact (h f (by simp) s out).bind fun _ _ => (ih ss _ fun f hf => h f (by simp [hf])).map

theorem safe_deserializeTemporal (b : Bytes) (off : Nat) (t : Int) : (deserializeTemporal off t).Safe b := by
  refine ⟨Or.inl (by decide), fun cb _ => ?_⟩
  dsimp only
  split
  · trivial
  · refine ⟨Or.inl (by omega), fun raw _ => ?_⟩
    refine (Rd.safe_ofOption _).bind fun x _ => ?_
    generalize (if bsearch _ _ _ _ = leNat cb then _ else _) = pos
    by_cases hc : x > t ∧ pos = 0
    · rw [if_pos hc]; trivial
    · rw [if_neg hc]
      exact (Rd.safe_ofOption _).bind fun _ _ => (Rd.safe_ofOption _).bind fun _ _ =>
        (Rd.safe_ofOption _).bind fun _ _ => True.intro

theorem safe_featValue (b : Bytes) (ts : Option Int) (r : Nat × Nat) : (featValue ts r).Safe b := by
  cases ts
  · trivial
  · exact safe_deserializeTemporal _ _ _

/-- The value of feature `fid` starts inside of the file. -/
def Inside (b : Bytes) (index : List Nat) (lo hi : Nat) (ts : Option Int) (fid : Nat) : Prop :=
  ∀ r, featRange index lo hi fid = some (some r) → ∀ v, DeepGNN.featValue b ts r = some v → v.1 < b.length

theorem safe_nodeFeatureStep {b : Bytes} {index : List Nat} {lo hi : Nat} {ts : Option Int} {f : Nat × Nat}
    (h : Inside b index lo hi ts f.1) (s : Int × Bytes) : (nodeFeatureStep index lo hi ts f s).Safe b := by
  simp only [nodeFeatureStep]
  split
  · trivial
  · refine (Rd.safe_ofOption _).bind fun r hr => ?_
    rw [Rd.mem_ofOption] at hr
    cases r with
    | none => trivial
    | some r =>
      refine (safe_featValue _ _ _).bind fun v hv => ?_
      rw [mem_featValue] at hv
      split
      · trivial
      · exact Rd.Safe.map ⟨Or.inr (h r hr v hv), fun _ _ => trivial⟩

theorem safe_edgeFeatureStep {b : Bytes} {index : List Nat} {lo hi : Nat} {ts : Option Int} {f : Nat × Nat}
    (h : Inside b index lo hi ts f.1) (s : Int × Bytes) : (edgeFeatureStep index lo hi ts f s).Safe b := by
  simp only [edgeFeatureStep]
  split
  · trivial
  · refine (Rd.safe_ofOption _).bind fun r hr => ?_
    rw [Rd.mem_ofOption] at hr
    cases r with
    | none => trivial
    | some r =>
      refine (safe_featValue _ _ _).bind fun v hv => ?_
      rw [mem_featValue] at hv
      exact Rd.Safe.map ⟨Or.inr (h r hr v hv), fun _ _ => trivial⟩

theorem safe_stringStep {b : Bytes} {edge : Bool} {index : List Nat} {lo hi : Nat} {ts : Option Int} {fid : Nat}
    (h : ts = none ∨ Inside b index lo hi ts fid) (s : Int × Nat) (out : Bytes) :
    (stringStep edge index lo hi ts fid s out).Safe b := by
  simp only [stringStep]
  split
  · trivial
  · refine (Rd.safe_ofOption _).bind fun r hr => ?_
    rw [Rd.mem_ofOption] at hr
    cases r with
    | none => trivial
    | some r =>
      dsimp only
      split
      · trivial
      · refine (safe_featValue _ _ _).bind fun v hv => ?_
        rw [mem_featValue] at hv
        split
        · trivial
        · refine ⟨?_, fun _ _ => trivial⟩
          rcases h with rfl | h
          · simp only [DeepGNN.featValue, Option.some.injEq] at hv
            rw [← hv]
            exact Or.inl (by dsimp only; omega)
          · exact Or.inr (h r hr v hv)

theorem safe_readIndices {b : Bytes} (pre : Int) {dim : Nat} (hd : 0 < dim) (k off : Nat) :
    (readIndices pre dim k off).Safe b := by
  induction k generalizing off with
  | zero => trivial
  | succ k ih => exact ⟨Or.inl (by omega), fun _ _ => (ih _).map⟩

/-! Files of a converted graph -/

theorem slotBytes_eq (l : List (Option Bytes)) : Spec.slotBytes l = (l.flatMap featBytes).length := by
  rw [List.length_flatMap, Spec.slotBytes]
  congr 2
  funext v
  cases v <;> rfl

/-- Where the last value is not empty, all values start inside of the file. -/
theorem inside_of_last {l : List (Option Bytes)} (hl : Spec.EndsNonEmpty l) {lo hi fid : Nat} :
    Inside (l.flatMap featBytes) (offsFrom 0 (l.map featSize)) lo hi none fid := by
  intro r hr v hv
  simp only [DeepGNN.featValue, Option.some.injEq] at hv
  subst hv
  simp only [featRange] at hr
  split at hr
  · simp at hr
  · obtain ⟨d, h1, h2⟩ := Option.bind_eq_some_iff.1 hr
    obtain ⟨e, h3, h4⟩ := Option.map_eq_some_iff.1 h2
    simp only [Option.some.injEq] at h4
    subst h4
    dsimp only
    have hlt : lo + fid < l.length := by
      have := (List.getElem?_eq_some_iff.1 h3).1
      rw [length_offsFrom] at this
      simp at this
      omega
    rw [getElem?_offsFrom _ _ _ (by simp; omega)] at h1
    simp only [Option.some.injEq] at h1
    rw [← h1, Nat.zero_add, ← List.map_take]
    have hne : l ≠ [] := by intro h; simp [h] at hlt
    obtain ⟨a, v, rfl⟩ : ∃ a v, l = a ++ [v] := ⟨_, _, (List.dropLast_concat_getLast hne).symm⟩
    have hv := hl v (by simp)
    rw [List.flatMap_append, List.length_append, length_flatMap_featBytes]
    have : ((a ++ [v]).take (lo + fid)) = a.take (lo + fid) := by
      rw [List.take_append_of_le_length]
      simp at hlt; omega
    rw [this]
    have h5 : ((a.take (lo + fid)).map featSize).sum ≤ (a.map featSize).sum := by
      conv => rhs; rw [← List.take_append_drop (lo + fid) a, List.map_append, List.sum_append]
      omega
    have h6 : 0 < ([v].flatMap featBytes).length := by
      have h7 : featBytes v ≠ [] := by cases v <;> exact hv
      have := List.length_pos_iff.2 h7
      simpa using this
    omega

variable {C : WeightCodec} {m : Meta} {g : Graph} {items : List Item} {parts : List (List (List Rec))}

theorem blocks_nodeSlots {c : List (List Rec)} {it : Item} (h : ItemFrom c it) :
    allNodeFeats it.blks = Spec.nodeSlots c := by
  have h1 : ∀ (bs : List Blk), (∀ b ∈ bs, b.typ = -1 → b.feats = []) →
      bs.flatMap (·.feats) = ((bs.filter (fun b => decide (b.typ ≠ -1))).map fun b => (b.id, b.typ, b.feats)).flatMap
        (·.2.2) := by
    intro bs
    induction bs with
    | nil => intro _; rfl
    | cons b bs ih =>
      intro hb
      have ih := ih fun x hx => hb x (by simp [hx])
      by_cases ht : b.typ = -1
      · rw [List.filter_cons_of_neg (by simp [ht]), List.flatMap_cons, hb b (by simp) ht, ih]; rfl
      · rw [List.filter_cons_of_pos (by simp [ht]), List.flatMap_cons, List.map_cons, List.flatMap_cons, ih]
  rw [allNodeFeats, h1 _ h.noFeats, h.nodes, nodeRecs, Spec.nodeSlots, List.flatMap_map]

theorem effEdges_feats (nc nr : Int) (rs : List Rec) :
    (effEdges nc nr rs).flatMap (fun x => x.2.feats) = (rs.filter (fun r => r.dst ≠ -1)).flatMap (·.features) := by
  induction rs generalizing nc nr with
  | nil => rfl
  | cons r rs ih =>
    rw [effEdges]
    split
    · rename_i hr; rw [ih, List.filter_cons_of_neg (by simp [hr])]
    · rename_i hr; rw [List.flatMap_cons, ih, List.filter_cons_of_pos (by simp [hr]), List.flatMap_cons]; rfl

theorem blocks_edgeSlots {c : List (List Rec)} {it : Item} (h : ItemFrom c it) :
    allEdgeFeats it.blks = Spec.edgeSlots c := by
  have h1 : allEdgeFeats it.blks =
      (it.blks.flatMap (fun b => b.edges.map (fun e => (b.id, e)))).flatMap (fun x => x.2.feats) := by
    simp [allEdgeFeats, allEdges, List.flatMap_assoc, List.flatMap_map]
  rw [h1, h.edges, List.flatMap_assoc, Spec.edgeSlots, List.filter_flatten]
  simp only [effEdges_feats]
  rw [List.flatten_eq_flatMap, List.flatMap_assoc, List.flatMap_map]
  rfl


/-- The entry of a node, with the partition it comes from. -/
theorem entry_item (h : GraphOk C m g items parts) {n : Int} {es : List (Partition × Nat)}
    (hes : g.entries n = some es) {y : Partition × Nat} (hy : y ∈ es) :
    ∃ it ∈ items, ∃ x ∈ it.blks.zipIdx, x.1 ∈ nodeBlks items n ∧ y = (it.part, x.2) := by
  rw [(entries_items h.parts_eq h.inv n).1] at hes
  simp only [Option.some.injEq] at hes
  rw [← hes] at hy
  obtain ⟨it, hit, hy⟩ := List.mem_flatMap.1 hy
  obtain ⟨x, hx, rfl⟩ := List.mem_map.1 hy
  obtain ⟨hx, hid⟩ := List.mem_filter.1 hx
  refine ⟨it, hit, x, hx, List.mem_flatMap.2 ⟨it, hit, List.mem_filter.2 ⟨?_, hid⟩⟩, rfl⟩
  rw [List.mem_zipIdx_iff_getElem?] at hx
  exact List.mem_of_getElem? hx

/-- The node feature files behind an entry. -/
theorem node_files (h : GraphOk C m g items parts) {it : Item} (hit : it ∈ items) :
    it.part.nodeFeatureIndex = [] ∨ ∃ c ∈ parts, it.part.nodeFeatures = (Spec.nodeSlots c).flatMap featBytes ∧
      it.part.nodeFeatureIndex = offsFrom 0 ((Spec.nodeSlots c).map featSize) := by
  obtain ⟨c, hc, hsrc⟩ := item_of_src h.src hit
  by_cases hm : m.nodeFeatureCount = 0
  · exact Or.inl ((h.ok it hit).loaded.noNodeFeatures hm)
  · refine Or.inr ⟨c, hc, ?_, ?_⟩
    · rw [(h.ok it hit).loaded.nodeFeatures hm, blocks_nodeSlots hsrc]
    · rw [(h.ok it hit).loaded.nodeFeatureIndex hm, blocks_nodeSlots hsrc]

theorem edge_files (h : GraphOk C m g items parts) {it : Item} (hit : it ∈ items) :
    it.part.edgeFeatureIndex = [] ∨ ∃ c ∈ parts, it.part.edgeFeatures = (Spec.edgeSlots c).flatMap featBytes ∧
      it.part.edgeFeatureIndex = offsFrom 0 ((Spec.edgeSlots c).map featSize) := by
  obtain ⟨c, hc, hsrc⟩ := item_of_src h.src hit
  by_cases hm : m.edgeFeatureCount = 0
  · exact Or.inl ((h.ok it hit).loaded.noEdgeFeatures hm)
  · refine Or.inr ⟨c, hc, ?_, ?_⟩
    · rw [(h.ok it hit).loaded.edgeFeatures hm, blocks_edgeSlots hsrc]
    · rw [(h.ok it hit).loaded.edgeFeatureIndex hm, blocks_edgeSlots hsrc]

theorem node_small (h : GraphOk C m g items parts) (hs : Spec.FilesUpTo2G parts) {it : Item} (hit : it ∈ items) :
    it.part.nodeFeatureIndex = [] ∨ it.part.nodeFeatures.length ≤ 2 ^ 31 := by
  rcases node_files h hit with h1 | ⟨c, hc, h1, -⟩
  · exact Or.inl h1
  · exact Or.inr (by rw [h1, ← slotBytes_eq]; exact (hs c hc).1)

theorem edge_small (h : GraphOk C m g items parts) (hs : Spec.FilesUpTo2G parts) {it : Item} (hit : it ∈ items) :
    it.part.edgeFeatureIndex = [] ∨ it.part.edgeFeatures.length ≤ 2 ^ 31 := by
  rcases edge_files h hit with h1 | ⟨c, hc, h1, -⟩
  · exact Or.inl h1
  · exact Or.inr (by rw [h1, ← slotBytes_eq]; exact (hs c hc).2)

theorem sub_disk_mem {b : Bytes} (hb : b.length ≤ 2 ^ 31) (p : Rd α) : Sub (p.run .disk b) (p.run .memory b) :=
  fun _ hv => Rd.run_of_disk hb hv

theorem sub_mem_disk {b : Bytes} (hb : b.length ≤ 2 ^ 31) {p : Rd α} (hp : p.Safe b) :
    Sub (p.run .memory b) (p.run .disk b) := fun _ hv => Rd.run_of_mem hb hp hv

/-! Queries of one partition -/

section part
variable {k k' : Kind} {p : Partition} {id : Nat}

theorem sub_nodeFeatureP {ts : Option Int} {feats : List (Nat × Nat)} {ss : List (Int × Bytes)}
    (h : ∀ lo hi, p.nodeFeatureIndex ≠ [] → p.nodeIndex[id]? = some lo → p.nodeIndex[id + 1]? = some hi →
      Sub ((stepAll (nodeFeatureStep p.nodeFeatureIndex lo hi ts) feats ss).run k p.nodeFeatures)
        ((stepAll (nodeFeatureStep p.nodeFeatureIndex lo hi ts) feats ss).run k' p.nodeFeatures)) :
    Sub (nodeFeatureP k p id ts feats ss) (nodeFeatureP k' p id ts feats ss) := by
  simp only [nodeFeatureP]
  split
  · exact Sub.rfl' _
  · exact (Sub.rfl' _).bind fun lo hlo => (Sub.rfl' _).bind fun hi hhi => h lo hi ‹_› hlo hhi

theorem sub_nodeStringP {ts : Option Int} {feats : List Nat} {s : StrState}
    (h : ∀ lo hi, p.nodeFeatureIndex ≠ [] → p.nodeIndex[id]? = some lo → p.nodeIndex[id + 1]? = some hi →
      Sub ((stringLoop (stringStep false p.nodeFeatureIndex lo hi ts) feats s.flags s.out).run k p.nodeFeatures)
        ((stringLoop (stringStep false p.nodeFeatureIndex lo hi ts) feats s.flags s.out).run k' p.nodeFeatures)) :
    Sub (nodeStringP k p id ts feats s) (nodeStringP k' p id ts feats s) := by
  simp only [nodeStringP]
  split
  · exact Sub.rfl' _
  · exact (Sub.rfl' _).bind fun lo hlo => (Sub.rfl' _).bind fun hi hhi => (h lo hi ‹_› hlo hhi).map

theorem sub_nodeSparseP {pre : Int} {feats : List Nat} {ss : List SparseState}
    (h : ∀ lo hi, p.nodeFeatureIndex ≠ [] → p.nodeIndex[id]? = some lo → p.nodeIndex[id + 1]? = some hi →
      Sub ((stepAll (sparseStep p.nodeFeatureIndex lo hi pre) feats ss).run k p.nodeFeatures)
        ((stepAll (sparseStep p.nodeFeatureIndex lo hi pre) feats ss).run k' p.nodeFeatures)) :
    Sub (nodeSparseP k p id pre feats ss) (nodeSparseP k' p id pre feats ss) := by
  simp only [nodeSparseP]
  split
  · exact Sub.rfl' _
  · exact (Sub.rfl' _).bind fun lo hlo => (Sub.rfl' _).bind fun hi hhi => h lo hi ‹_› hlo hhi

theorem sub_withEdge {α : Type} {dst typ : Int} {d : α} {f f' : Nat → Nat → Option α}
    (h : ∀ o lo hi, p.edgeOffset id dst typ = some (some o) → p.edgeFeatureIndex ≠ [] →
      p.edgeFeatureOffset[o]? = some lo → p.edgeFeatureOffset[o + 1]? = some hi → Sub (f lo hi) (f' lo hi)) :
    Sub (p.withEdge id dst typ d f) (p.withEdge id dst typ d f') := by
  refine (Sub.rfl' _).bind fun o ho => ?_
  cases o with
  | none => exact Sub.rfl' _
  | some o =>
    dsimp only
    split
    · exact Sub.rfl' _
    · rename_i hne
      exact (Sub.rfl' _).bind fun lo hlo => (Sub.rfl' _).bind fun hi hhi =>
        h o lo hi ho (fun hn => hne (Or.inr hn)) hlo hhi

theorem sub_edgeStringP {dst typ : Int} {ts : Option Int} {feats : List Nat} {s : StrState}
    (h : ∀ o lo hi, p.edgeOffset id dst typ = some (some o) → p.edgeFeatureIndex ≠ [] →
      p.edgeFeatureOffset[o]? = some lo → p.edgeFeatureOffset[o + 1]? = some hi →
      Sub ((stringLoop (stringStep true p.edgeFeatureIndex lo hi ts) feats s.flags s.out).run k p.edgeFeatures)
        ((stringLoop (stringStep true p.edgeFeatureIndex lo hi ts) feats s.flags s.out).run k' p.edgeFeatures)) :
    Sub (edgeStringP k p id dst typ ts feats s) (edgeStringP k' p id dst typ ts feats s) := by
  simp only [edgeStringP]
  refine (Sub.rfl' _).bind fun o ho => ?_
  cases o with
  | none => exact Sub.rfl' _
  | some o =>
    refine (Sub.rfl' _).bind fun lo hlo => (Sub.rfl' _).bind fun hi hhi => Sub.map ?_
    by_cases hne : p.edgeFeatureIndex = []
    · rw [hne]
      rw [(noRead_stringLoop (noRead_stringStep true lo hi ts) feats s.flags s.out).run k k' _ p.edgeFeatures]
      exact Sub.rfl' _
    · exact h o lo hi ho hne hlo hhi

end part

/-! On disk the result is never another one. -/

section never
variable (h : GraphOk C m g items parts) (hs : Spec.FilesUpTo2G parts)
include h hs

theorem nodeFeature_never (nodes : List Int) (ts : Option (List Int)) (feats : List (Nat × Nat)) (out : Bytes) :
    Sub (nodeFeature .disk g nodes ts feats out) (nodeFeature .memory g nodes ts feats out) :=
  sub_nodeFeature _ _ _ _ fun _ _ _ hes x hx _ _ _ => by
    obtain ⟨it, hit, y, -, -, rfl⟩ := entry_item h hes hx
    exact sub_nodeFeatureP fun _ _ hne _ _ => sub_disk_mem ((node_small h hs hit).resolve_left hne) _

theorem nodeString_never (feats : List Nat) (q : List (Int × Option Int)) (out : Bytes) :
    Sub (nodeString .disk g feats q out) (nodeString .memory g feats q out) :=
  sub_nodeString _ _ _ fun _ _ _ hes x hx _ => by
    obtain ⟨it, hit, y, -, -, rfl⟩ := entry_item h hes hx
    exact sub_nodeStringP fun _ _ hne _ _ => sub_disk_mem ((node_small h hs hit).resolve_left hne) _

theorem nodeSparse_never (feats : List Nat) (nodes : List Int) :
    Sub (nodeSparse .disk g feats nodes) (nodeSparse .memory g feats nodes) :=
  sub_nodeSparse _ _ fun _ _ _ hes x hx _ _ => by
    obtain ⟨it, hit, y, -, -, rfl⟩ := entry_item h hes hx
    exact sub_nodeSparseP fun _ _ hne _ _ => sub_disk_mem ((node_small h hs hit).resolve_left hne) _

theorem edgeFeature_never (edges : List EdgeId) (ts : Option (List Int)) (feats : List (Nat × Nat)) :
    Sub (edgeFeature .disk g edges ts feats) (edgeFeature .memory g edges ts feats) :=
  sub_edgeFeature _ _ _ fun _ _ _ hes x hx _ _ _ => by
    obtain ⟨it, hit, y, -, -, rfl⟩ := entry_item h hes hx
    exact sub_withEdge fun _ _ _ _ hne _ _ => sub_disk_mem ((edge_small h hs hit).resolve_left hne) _

theorem edgeString_never (feats : List Nat) (q : List (EdgeId × Option Int)) (out : Bytes) :
    Sub (edgeString .disk g feats q out) (edgeString .memory g feats q out) :=
  sub_edgeString _ _ _ fun _ _ _ hes x hx _ => by
    obtain ⟨it, hit, y, -, -, rfl⟩ := entry_item h hes hx
    exact sub_edgeStringP fun _ _ _ _ hne _ _ => sub_disk_mem ((edge_small h hs hit).resolve_left hne) _

theorem edgeSparse_never (feats : List Nat) (edges : List EdgeId) :
    Sub (edgeSparse .disk g feats edges) (edgeSparse .memory g feats edges) :=
  sub_edgeSparse _ _ fun _ _ _ hes x hx _ _ => by
    obtain ⟨it, hit, y, -, -, rfl⟩ := entry_item h hes hx
    exact sub_withEdge fun _ _ _ _ hne _ _ => sub_disk_mem ((edge_small h hs hit).resolve_left hne) _

end never

/-! On disk there is a result, too. -/

theorem inside_hist {index : List Nat} {data : Bytes} {lo hi : Nat} {fl : List (Option Bytes)}
    (h : Owner index data lo hi fl) {fid : Nat} {hist : List (Int × Bytes)} (hh : Spec.HasHist fl fid hist) (t : Int) :
    Inside data index lo hi (some t) fid := by
  intro r hr v hv
  rcases hh with ⟨h1, -⟩ | ⟨h1, h2⟩
  · rw [h.range_none h1] at hr; cases hr
  · obtain ⟨pre, post, hd, h3⟩ := h.range_some h1
    rw [h3, Option.some.injEq, Option.some.injEq] at hr
    subst hr
    simp only [DeepGNN.featValue, featBytes] at hv hd
    rw [hd] at hv ⊢
    rcases deserialize_room h2 pre post t with ⟨h4, -⟩ | ⟨x, off, -, h4, pre', post', h5, h6, h7⟩
    · rw [h4, Option.some.injEq] at hv
      subst hv
      have : 0 < (serializeTemporal hist).length := by
        simp only [serializeTemporal, serializeSorted, List.length_append, cU32, length_leBytes]; omega
      simp only [List.length_append]
      omega
    · rw [h4, Option.some.injEq] at hv
      subst hv
      rw [h5]
      have := List.length_pos_iff.2 h7
      simp only [List.length_append]
      omega

theorem encSparse_size (x : Spec.Sparse) (pre post : Bytes) :
    readAt (pre ++ encSparse x ++ post) pre.length 4 = some (cU32 (x.dim * x.coords.length)) := by
  have e1 : pre ++ encSparse x ++ post = pre ++ cU32 (x.dim * x.coords.length) ++
      (cU32 x.dim ++ encCoords x.coords.flatten ++ x.values.flatten ++ post) := by
    simp only [encSparse, List.append_assoc]
  have := readAt_exact pre (cU32 (x.dim * x.coords.length))
    (cU32 x.dim ++ encCoords x.coords.flatten ++ x.values.flatten ++ post)
  rw [← e1] at this
  simpa [cU32] using this

theorem safe_deserializeSparse {x : Spec.Sparse} (hx : x.Ok) (hv : x.values.flatten ≠ []) (pre post : Bytes) (i : Int)
    (s : SparseState) :
    (deserializeSparse pre.length (encSparse x).length i s).Safe (pre ++ encSparse x ++ post) := by
  have hlen : (encSparse x).length = 8 + 8 * (x.dim * x.coords.length) + x.values.flatten.length := by
    simp only [encSparse, List.length_append, cU32, length_leBytes, length_encCoords, length_flatten_rows hx.rows]
  have hlt := hx.size
  have hv := List.length_pos_iff.2 hv
  simp only [deserializeSparse]
  split
  · trivial
  · refine ⟨Or.inl (by omega), fun b1 h1 => ⟨Or.inl (by omega), fun b2 _ => ?_⟩⟩
    rw [encSparse_size, Option.some.injEq] at h1
    subst h1
    have h2 : leNat (cU32 (x.dim * x.coords.length)) = x.dim * x.coords.length := by
      rw [cU32, leNat_leBytes]; omega
    rw [h2]
    dsimp only
    split
    · trivial
    · rename_i hd
      refine (safe_readIndices _ (by omega) _ _).bind fun _ _ => ⟨Or.inl ?_, fun _ _ => trivial⟩
      omega

theorem safe_sparseStep {index : List Nat} {data : Bytes} {lo hi : Nat} {fl : List (Option Bytes)}
    (h : Owner index data lo hi fl) {fid : Nat} {x : Option Spec.Sparse} (hx : Spec.HasSparse fl fid x)
    (hv : ∀ y, x = some y → y.values.flatten ≠ []) (i : Int) (s : SparseState) :
    (sparseStep index lo hi i fid s).Safe data := by
  simp only [sparseStep]
  split
  · trivial
  · refine (Rd.safe_ofOption _).bind fun r hr => ?_
    rw [Rd.mem_ofOption] at hr
    cases r with
    | none => trivial
    | some r =>
      dsimp only
      split
      · trivial
      · rename_i hne
        cases hf : fl[fid]? with
        | none => rw [h.range_none hf] at hr; cases hr
        | some v =>
          obtain ⟨pre, post, h1, h2⟩ := h.range_some hf
          rw [h2, Option.some.injEq, Option.some.injEq] at hr
          subst hr
          cases x with
          | none =>
            have hx : (fl[fid]?.join).getD [] = [] := hx
            rw [hf] at hx
            have : featBytes v = [] := by cases v <;> simpa [featBytes] using hx
            simp [this] at hne
          | some x =>
            obtain ⟨hok, raw, hd, b, hb1, hb2⟩ := hx
            rw [convert_describes hok hd, Option.some.injEq] at hb1
            rw [hf, Option.some.injEq] at hb2
            subst hb1
            subst hb2
            rw [h1]
            exact safe_deserializeSparse hok (hv x rfl) pre post i _

/-- The features of a node record behind an entry. -/
theorem node_owner (h : GraphOk C m g items parts) {n : Int} {it : Item} (hit : it ∈ items) {x : Blk × Nat}
    (hx : x ∈ it.blks.zipIdx) (hn : x.1 ∈ nodeBlks items n) (hne : it.part.nodeFeatureIndex ≠ []) {lo hi : Nat}
    (hlo : it.part.nodeIndex[x.2]? = some lo) (hhi : it.part.nodeIndex[x.2 + 1]? = some hi) :
    ∃ fl, Owner it.part.nodeFeatureIndex it.part.nodeFeatures lo hi fl ∧
      (fl = [] ∨ ∃ r ∈ Spec.nodeRecords parts n, r.features = fl) := by
  have hm : m.nodeFeatureCount ≠ 0 := fun hm => hne ((h.ok it hit).loaded.noNodeFeatures hm)
  obtain ⟨lo', hi', h1, h2, h3⟩ := (h.ok it hit).owner hx hm
  rw [h1, Option.some.injEq] at hlo
  rw [h2, Option.some.injEq] at hhi
  subst hlo hhi
  refine ⟨_, h3, ?_⟩
  by_cases hf : x.1.feats = []
  · exact Or.inl hf
  · exact Or.inr (Blk.rec_of_feats h hn hf)

theorem edge_owner (h : GraphOk C m g items parts) (hc : ∀ it ∈ items, it.files.edgeFeatureCount ≤ m.edgeFeatureCount)
    {n : Int} {it : Item} (hit : it ∈ items) {x : Blk × Nat}
    (hx : x ∈ it.blks.zipIdx) (hn : x.1 ∈ nodeBlks items n) (hne : it.part.edgeFeatureIndex ≠ []) {dst typ : Int}
    {o lo hi : Nat} (ho : it.part.edgeOffset x.2 dst typ = some (some o))
    (hlo : it.part.edgeFeatureOffset[o]? = some lo) (hhi : it.part.edgeFeatureOffset[o + 1]? = some hi) :
    ∃ r ∈ Spec.edgesBetween parts n dst typ, Owner it.part.edgeFeatureIndex it.part.edgeFeatures lo hi r.features := by
  rcases h.edgeBlocks hc hit hx dst typ with ⟨-, e2⟩ | ⟨e, o', e1, e2, ⟨-, -, e4⟩ | ⟨e3, lo', hi', e4, e5, hw⟩⟩
  · rw [e2] at ho; cases ho
  · exact absurd e4 hne
  · rw [e2, Option.some.injEq, Option.some.injEq] at ho
    subst ho
    rw [e4, Option.some.injEq] at hlo
    rw [e5, Option.some.injEq] at hhi
    subst hlo hhi
    have hp := pickEdge_some e1
    obtain ⟨r, hr, hf⟩ := h.edge_record hn hp.1
    refine ⟨r, ?_, by rw [hf]; exact hw⟩
    rw [← hp.2.1, ← hp.2.2]; exact hr

section always
variable (h : GraphOk C m g items parts) (hs : Spec.FilesUpTo2G parts)
include h hs

theorem nodeFeature_now (hl : ∀ c ∈ parts, Spec.EndsNonEmpty (Spec.nodeSlots c)) (nodes : List Int)
    (feats : List (Nat × Nat)) (out : Bytes) :
    Sub (nodeFeature .memory g nodes none feats out) (nodeFeature .disk g nodes none feats out) :=
  sub_nodeFeature _ _ _ _ fun _ _ _ hes x hx t ht _ => by
    have ht : t = none := by simpa [tsList] using (List.mem_replicate.1 ht).2
    subst ht
    obtain ⟨it, hit, y, -, -, rfl⟩ := entry_item h hes hx
    refine sub_nodeFeatureP fun _ _ hne _ _ => sub_mem_disk ((node_small h hs hit).resolve_left hne) ?_
    obtain ⟨c, hc, h1, h2⟩ := (node_files h hit).resolve_left hne
    refine safe_stepAll _ _ fun f _ s => safe_nodeFeatureStep ?_ s
    rw [h1, h2]
    exact inside_of_last (hl c hc)

theorem nodeFeature_at (nodes : List Int) (ts : List Int) (feats : List (Nat × Nat)) (out : Bytes)
    (hH : ∀ n ∈ nodes, ∀ f ∈ feats, ∀ r ∈ Spec.nodeRecords parts n, ∃ hist, Spec.HasHist r.features f.1 hist) :
    Sub (nodeFeature .memory g nodes (some ts) feats out) (nodeFeature .disk g nodes (some ts) feats out) :=
  sub_nodeFeature _ _ _ _ fun n hn _ hes x hx t ht _ => by
    obtain ⟨t, -, rfl⟩ := List.mem_map.1 (show t ∈ ts.map some from ht)
    obtain ⟨it, hit, y, hy, hyn, rfl⟩ := entry_item h hes hx
    refine sub_nodeFeatureP fun _ _ hne hlo hhi => sub_mem_disk ((node_small h hs hit).resolve_left hne) ?_
    obtain ⟨fl, ho, hfl⟩ := node_owner h hit hy hyn hne hlo hhi
    refine safe_stepAll _ _ fun f hf s => safe_nodeFeatureStep ?_ s
    rcases hfl with rfl | ⟨r, hr, rfl⟩
    · exact inside_hist ho (hist := []) (Or.inl (by simp)) t
    · obtain ⟨hist, hh⟩ := hH n hn f hf r hr
      exact inside_hist ho hh t

theorem nodeString_all (feats : List Nat) (q : List (Int × Option Int)) (out : Bytes)
    (hH : ∀ x ∈ q, x.2 ≠ none → ∀ f ∈ feats, ∀ r ∈ Spec.nodeRecords parts x.1,
      ∃ hist, Spec.HasHist r.features f hist) :
    Sub (nodeString .memory g feats q out) (nodeString .disk g feats q out) :=
  sub_nodeString _ _ _ fun n hn _ hes x hx _ => by
    obtain ⟨it, hit, y, hy, hyn, rfl⟩ := entry_item h hes hx
    refine sub_nodeStringP fun _ _ hne hlo hhi => sub_mem_disk ((node_small h hs hit).resolve_left hne) ?_
    obtain ⟨fl, ho, hfl⟩ := node_owner h hit hy hyn hne hlo hhi
    refine safe_stringLoop _ _ _ fun f hf s out => safe_stringStep ?_ s out
    cases ht : n.2 with
    | none => exact Or.inl rfl
    | some t =>
      right
      rcases hfl with rfl | ⟨r, hr, rfl⟩
      · exact inside_hist ho (hist := []) (Or.inl (by simp)) t
      · obtain ⟨hist, hh⟩ := hH n hn (by simp [ht]) f hf r hr
        exact inside_hist ho hh t

theorem nodeSparse_all (feats : List Nat) (nodes : List Int)
    (hH : ∀ n ∈ nodes, ∀ f ∈ feats, ∀ r ∈ Spec.nodeRecords parts n, ∃ x, Spec.HasSparse r.features f x ∧
      ∀ y, x = some y → y.values.flatten ≠ []) :
    Sub (nodeSparse .memory g feats nodes) (nodeSparse .disk g feats nodes) :=
  sub_nodeSparse _ _ fun n hn _ hes x hx _ _ => by
    obtain ⟨it, hit, y, hy, hyn, rfl⟩ := entry_item h hes hx
    refine sub_nodeSparseP fun _ _ hne hlo hhi => sub_mem_disk ((node_small h hs hit).resolve_left hne) ?_
    obtain ⟨fl, ho, hfl⟩ := node_owner h hit hy hyn hne hlo hhi
    refine safe_stepAll _ _ fun f hf s => ?_
    rcases hfl with rfl | ⟨r, hr, rfl⟩
    · exact safe_sparseStep ho (x := none) (by simp [Spec.HasSparse]) (by simp) _ s
    · obtain ⟨x, hh, hv⟩ := hH n hn f hf r hr
      exact safe_sparseStep ho hh hv _ s

theorem edgeFeature_now (hl : ∀ c ∈ parts, Spec.EndsNonEmpty (Spec.edgeSlots c)) (edges : List EdgeId)
    (feats : List (Nat × Nat)) :
    Sub (edgeFeature .memory g edges none feats) (edgeFeature .disk g edges none feats) :=
  sub_edgeFeature _ _ _ fun _ _ _ hes x hx t ht _ => by
    have ht : t = none := by simpa [tsList] using (List.mem_replicate.1 ht).2
    subst ht
    obtain ⟨it, hit, y, -, -, rfl⟩ := entry_item h hes hx
    refine sub_withEdge fun _ _ _ _ hne _ _ => sub_mem_disk ((edge_small h hs hit).resolve_left hne) ?_
    obtain ⟨c, hc, h1, h2⟩ := (edge_files h hit).resolve_left hne
    refine safe_stepAll _ _ fun f _ s => safe_edgeFeatureStep ?_ s
    rw [h1, h2]
    exact inside_of_last (hl c hc)

variable (hc : ∀ it ∈ items, it.files.edgeFeatureCount ≤ m.edgeFeatureCount)
include hc

theorem edgeFeature_at (edges : List EdgeId) (ts : List Int) (feats : List (Nat × Nat))
    (hH : ∀ e ∈ edges, ∀ f ∈ feats, ∀ r ∈ Spec.edgesBetween parts e.src e.dst e.typ,
      ∃ hist, Spec.HasHist r.features f.1 hist) :
    Sub (edgeFeature .memory g edges (some ts) feats) (edgeFeature .disk g edges (some ts) feats) :=
  sub_edgeFeature _ _ _ fun n hn _ hes x hx t ht _ => by
    obtain ⟨t, -, rfl⟩ := List.mem_map.1 (show t ∈ ts.map some from ht)
    obtain ⟨it, hit, y, hy, hyn, rfl⟩ := entry_item h hes hx
    refine sub_withEdge fun _ _ _ ho hne hlo hhi => sub_mem_disk ((edge_small h hs hit).resolve_left hne) ?_
    obtain ⟨r, hr, hw⟩ := edge_owner h hc hit hy hyn hne ho hlo hhi
    refine safe_stepAll _ _ fun f hf s => safe_edgeFeatureStep ?_ s
    obtain ⟨hist, hh⟩ := hH n hn f hf r hr
    exact inside_hist hw hh t

theorem edgeString_all (feats : List Nat) (q : List (EdgeId × Option Int)) (out : Bytes)
    (hH : ∀ x ∈ q, x.2 ≠ none → ∀ f ∈ feats, ∀ r ∈ Spec.edgesBetween parts x.1.src x.1.dst x.1.typ,
      ∃ hist, Spec.HasHist r.features f hist) :
    Sub (edgeString .memory g feats q out) (edgeString .disk g feats q out) :=
  sub_edgeString _ _ _ fun n hn _ hes x hx _ => by
    obtain ⟨it, hit, y, hy, hyn, rfl⟩ := entry_item h hes hx
    refine sub_edgeStringP fun _ _ _ ho hne hlo hhi => sub_mem_disk ((edge_small h hs hit).resolve_left hne) ?_
    obtain ⟨r, hr, hw⟩ := edge_owner h hc hit hy hyn hne ho hlo hhi
    refine safe_stringLoop _ _ _ fun f hf s out => safe_stringStep ?_ s out
    cases ht : n.2 with
    | none => exact Or.inl rfl
    | some t =>
      obtain ⟨hist, hh⟩ := hH n hn (by simp [ht]) f hf r hr
      exact Or.inr (inside_hist hw hh t)

theorem edgeSparse_all (feats : List Nat) (edges : List EdgeId)
    (hH : ∀ e ∈ edges, ∀ f ∈ feats, ∀ r ∈ Spec.edgesBetween parts e.src e.dst e.typ, ∃ x,
      Spec.HasSparse r.features f x ∧ ∀ y, x = some y → y.values.flatten ≠ []) :
    Sub (edgeSparse .memory g feats edges) (edgeSparse .disk g feats edges) :=
  sub_edgeSparse _ _ fun n hn _ hes x hx _ _ => by
    obtain ⟨it, hit, y, hy, hyn, rfl⟩ := entry_item h hes hx
    refine sub_withEdge fun _ _ _ ho hne hlo hhi => sub_mem_disk ((edge_small h hs hit).resolve_left hne) ?_
    obtain ⟨r, hr, hw⟩ := edge_owner h hc hit hy hyn hne ho hlo hhi
    refine safe_stepAll _ _ fun f hf s => ?_
    obtain ⟨x, hh, hv⟩ := hH n hn f hf r hr
    exact safe_sparseStep hw hh hv _ s

end always

end DeepGNN.Storage
