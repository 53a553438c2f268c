import Verif.Proofs.Barrier
import Verif.Proofs.Files
import Verif.Props.C48

/-
C92: the distributed job of examples/pytorch/aml.py keeps its servers until the last worker is done.
The job can end in every run: refuted for two or more workers, also for the two of the example.
-/

namespace DeepGNN
open Spec Barrier

/-- A worker uses the servers only after all workers have started theirs. -/
theorem C92_entry {size : Nat} {s : Barrier.State} (h : JobReaches size s) {i j : Nat} (hi : i < size) (hj : j < size)
    (he : Entered s i) : Announced s j ∧ (s.workers j).place ≠ .start ∧ (s.workers j).place ≠ .failed := by
  have hinv := reaches_inv h
  have hl := hinv.past i hi (past_iff.mpr he) j hj
  refine ⟨hinv.ann j hj hl, fun hp => ?_, fun hp => ?_⟩ <;>
  · have hw := hinv.wok j hj
    simp only [WOk, hp] at hw
    exact hl hw.2

/-- Every worker gets the addresses of all servers, in the order of ranks. -/
theorem C92_addresses {size : Nat} {s : Barrier.State} (h : JobReaches size s) {i : Nat} (hi : i < size)
    {a : List (Option String)} (ha : (s.workers i).place = .inside a) :
    a = (List.range size).map fun k => some (address k) := by
  have hw := (reaches_inv h).wok i hi
  simp only [WOk, ha] at hw
  exact hw.1

/-- A worker ends, and its server with it, only after all workers are done with the servers. -/
theorem C92_exit {size : Nat} {s : Barrier.State} (h : JobReaches size s) {i j : Nat} (hi : i < size) (hj : j < size)
    (hl : (s.workers i).place = .left) : DoneWithBlock s j := by
  have hinv := reaches_inv h
  have h2 := hinv.left i hi hl j hj
  have hw := hinv.wok j hj
  unfold DoneWithBlock
  cases hp : (s.workers j).place with
  | start => simp only [WOk, hp, h2] at hw; exact absurd hw.2 (by simp)
  | failed => simp only [WOk, hp, h2] at hw; exact absurd hw.2 (by simp)
  | entering =>
    simp only [WOk, hp, h2] at hw
    rcases hw with ⟨-, e⟩ | ⟨-, e, -⟩ | ⟨-, e⟩ <;> simp at e
  | asking got => simp only [WOk, hp, h2] at hw; obtain ⟨k, -, -, -, e⟩ := hw; simp at e
  | inside a => simp only [WOk, hp, h2] at hw; exact absurd hw.2.2 (by simp)
  | leaving => exact Or.inl rfl
  | left => exact Or.inr rfl

/-- When a worker fails to start its server no worker ever uses one, and the others wait for ever. -/
theorem C92_failed {size : Nat} {s : Barrier.State} (h : JobReaches size s) {i : Nat} (hi : i < size)
    (hf : (s.workers i).place = .failed) : (∀ j, j < size → ¬ Entered s j) ∧ ¬ CanFinish size s :=
  ⟨fun _ hj he => (C92_entry h hj hi he).2.2 hf, stuck_never (reaches_inv h) (Or.inl ⟨i, hi, hf⟩)⟩

/-- The claim that a job in which no worker fails can always end is wrong for two or more workers: when one worker is done
before another has seen that all are there, `wait_set` never holds again. -/
theorem C92_finish_refuted (size : Nat) (h2 : 2 ≤ size) :
    ∃ s, JobReaches size s ∧ (∀ i, i < size → (s.workers i).place ≠ .failed) ∧
      (∀ i, i < size → Announced s i) ∧ ¬ CanFinish size s := by
  obtain ⟨s, hr, hl, hoth, h0⟩ := stuck_reachable h2
  have hp0 : Entered s 0 := by unfold Entered; rw [h0]; simp
  refine ⟨s, hr, fun i hi => ?_, fun i hi => (C92_entry hr (by omega) hi hp0).1, stuck_never (reaches_inv hr)
    (Or.inr ⟨0, 1, by omega, by omega, hl, hoth 1 (by omega) (by omega)⟩)⟩
  by_cases e : i = 0
  · subst e; rw [h0]; simp
  · rw [hoth i hi e]; simp

/-- Missing: `C92_finish_refuted`.  The job can end exactly as long as no worker failed and none has released its lock while
another is still in `__enter__`. -/
theorem C92_finish_partial {size : Nat} {s : Barrier.State} (h : JobReaches size s) :
    CanFinish size s ↔ (∀ i, i < size → (s.workers i).place ≠ .failed) ∧
      ∀ i j, i < size → j < size → s.locks[i]? = some 2 → (s.workers j).place ≠ .entering := by
  have hinv := reaches_inv h
  constructor
  · intro hc
    exact ⟨fun i hi hf => stuck_never hinv (Or.inl ⟨i, hi, hf⟩) hc,
      fun i j hi hj hl hp => stuck_never hinv (Or.inr ⟨i, j, hi, hj, hl, hp⟩) hc⟩
  · rintro ⟨hf, ho⟩
    refine open_finish _ hinv ⟨hf, fun i hi hl j hj => past_iff.mpr ⟨?_, hf j hj, ho i j hi hj hl⟩⟩ (Nat.le_refl _)
    -- a released lock belongs to a worker past `__enter__`, then all have begun
    have hpi : Entered s i := by
      have hw := hinv.wok i hi
      refine ⟨fun hp => ?_, hf i hi, ho i i hi hi hl⟩
      simp only [WOk, hp, hl] at hw
      exact absurd hw.2 (by simp)
    exact (C92_entry h hi hj hpi).2.1

/-- A job of one worker whose server starts can always end. -/
theorem C92_alone {s : Barrier.State} (h : JobReaches 1 s) (hf : (s.workers 0).place ≠ .failed) : CanFinish 1 s := by
  refine (C92_finish_partial h).mpr ⟨fun i hi => ?_, fun i j hi hj hl hp => ?_⟩
  · obtain rfl : i = 0 := by omega
    exact hf
  · obtain rfl : i = 0 := by omega
    obtain rfl : j = 0 := by omega
    have hw := (reaches_inv h).wok 0 (by omega)
    simp only [WOk, hp, hl] at hw
    rcases hw with ⟨-, e⟩ | ⟨-, e, -⟩ | ⟨-, e⟩ <;> simp at e

/-- Different workers have different addresses. -/
theorem C92_distinct {i j : Nat} (h : i ≠ j) : address i ≠ address j := fun e => h (address_inj e)

/-- Every worker has an address with a valid port: wrong from the eleventh worker on. -/
theorem C92_port_refuted {rank : Nat} (h : 10 ≤ rank) : 65535 < portOf (address rank) := by
  have h1 := port_ge rank
  have h2 : 10 ^ 2 ≤ 10 ^ (Nat.toDigits 10 rank).length := Nat.pow_le_pow_right (by omega) (digits_two h)
  omega

/-- Missing: more than ten workers (`C92_port_refuted`).  The first ten have valid ports. -/
theorem C92_port_partial {rank : Nat} (h : rank < 10) : portOf (address rank) = 9990 + rank := by
  match rank, h with
  | 0, _ | 1, _ | 2, _ | 3, _ | 4, _ | 5, _ | 6, _ | 7, _ | 8, _ | 9, _ => decide +kernel
  | n + 10, h => omega

/-- Which partitions the servers of the job load. -/
theorem loadedBy_iff {size rank p : Nat} : LoadedBy size rank p ↔ rank ≤ p ∧ p < size := by
  have hs : Barrier.partitions size rank =
      some ((Files.pyRange rank size 1).map fun p => ("data_dir", p)) := by
    rw [Barrier.partitions, Launch.server_eq _ _ (by omega), Launch.groupPartitions, if_neg (by omega), List.length_range]
  unfold LoadedBy
  rw [hs]
  constructor
  · rintro ⟨l, e, hp⟩
    cases e
    rw [List.map_map] at hp
    obtain ⟨q, hq, rfl⟩ := List.mem_map.mp hp
    have := (Files.mem_pyRange (by omega)).mp hq
    exact ⟨this.1, this.2.1⟩
  · intro h
    refine ⟨_, rfl, ?_⟩
    rw [List.map_map]
    exact List.mem_map.mpr ⟨p, (Files.mem_pyRange (by omega)).mpr ⟨h.1, h.2, Nat.mod_one _⟩, rfl⟩

/-- The servers share the partitions, each has one server: wrong for two or more workers, the last partition is loaded by
all servers. -/
theorem C92_shards_refuted {size : Nat} (_ : 2 ≤ size) : ∀ rank, rank < size → LoadedBy size rank (size - 1) :=
  fun _ hr => loadedBy_iff.mpr ⟨by omega, by omega⟩

/-- Missing: no partition is loaded twice (`C92_shards_refuted`).  Every partition is loaded by the servers up to its
number, so none is missing. -/
theorem C92_shards_partial {size p : Nat} (hp : p < size) (rank : Nat) :
    LoadedBy size rank p ↔ rank ≤ p := by
  rw [loadedBy_iff]
  exact ⟨fun h => h.1, fun h => ⟨h, hp⟩⟩

/-! ### Examples: the two workers of the example -/

/-- A run of both workers to the end. -/
def exJob : List Event :=
  [.enter 0, .enter 1, .serve 0, .serve 1, .serve 0, .serve 0, .serve 1, .serve 0, .serve 1, .serve 0, .serve 0, .serve 1,
   .serve 1, .leave 0, .serve 0, .leave 1, .serve 0, .serve 1, .serve 0, .serve 1]

example : (run 2 (init 2) exJob).map (fun s => (s.locks, (s.workers 0).place, (s.workers 1).place)) =
    some ([2, 2], .left, .left) := by decide +kernel

/-- The first worker is done before the second has asked again. -/
def exRace : List Event :=
  [.enter 0, .enter 1, .serve 0, .serve 1, .serve 0, .serve 1, .serve 0, .serve 0, .serve 0, .leave 0, .serve 0]

example : (run 2 (init 2) exRace).map (fun s => (s.locks, s.workers 0, s.workers 1)) =
    some ([2, 1], ⟨.leaving, [.waitReleased]⟩, ⟨.entering, [.waitSet]⟩) := by decide +kernel

/-- In the block, with both addresses. -/
example : (run 2 (init 2) (exRace.take 9)).map (fun s => (s.workers 0).place) =
    some (.inside [some "127.0.0.1:9990", some "127.0.0.1:9991"]) := by decide +kernel

/-- Both have got into the block before the first leaves: the job can end. -/
example : ∃ s, JobReaches 2 s ∧ (s.workers 0).place = .leaving ∧ CanFinish 2 s := by
  have hr : ∃ s, run 2 (init 2) (exJob.take 14) = some s :=
    Option.isSome_iff_exists.mp (by decide +kernel)
  obtain ⟨s, hs⟩ := hr
  have hv : (run 2 (init 2) (exJob.take 14)).map (fun s => (s.locks, (s.workers 0).place, (s.workers 1).place)) =
    some ([1, 1], .leaving, .inside [some (address 0), some (address 1)]) := by decide +kernel
  rw [hs] at hv
  simp only [Option.map_some, Option.some.injEq, Prod.mk.injEq] at hv
  refine ⟨s, ⟨_, hs⟩, hv.2.1, (C92_finish_partial ⟨_, hs⟩).mpr ⟨fun i hi => ?_, fun i j hi hj _ => ?_⟩⟩
  · match i, hi with
    | 0, _ => rw [hv.2.1]; simp
    | 1, _ => rw [hv.2.2]; simp
  · match j, hj with
    | 0, _ => rw [hv.2.1]; simp
    | 1, _ => rw [hv.2.2]; simp

/-- The eleventh worker. -/
example : portOf (address 10) = 99910 := by decide +kernel

/-- Two workers: both servers load the second partition. -/
example : Barrier.partitions 2 0 = some [("data_dir", 0), ("data_dir", 1)] ∧
    Barrier.partitions 2 1 = some [("data_dir", 1)] := by decide +kernel

end DeepGNN
