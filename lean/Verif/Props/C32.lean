import Verif.Proofs.Files

/-
C32: the input files are divided among the workers.
-/

namespace DeepGNN

open Files

/-- Readers of text files: with at least as many files as workers, every worker gets files, no file goes to two workers
and every file to one, even if the file system lists the files to each worker in another order. -/
theorem C32_reader {files : List Name} (hf : files.Nodup) {workers : Nat} (hw : 0 < workers) (h : workers ≤ files.length)
    {listing : Nat → List Name} (hl : ∀ w < workers, (listing w).Perm files) :
    Spec.SplitsFiles getWorkerFiles files listing workers := by
  have hlen : (sort files).length = files.length := (sort_perm files).length_eq
  have hnd : (sort files).Nodup := (sort_perm files).nodup_iff.2 hf
  have key : ∀ w < workers, ∃ fs, getWorkerFiles (listing w) w workers = some fs ∧ fs.Nodup ∧
      ∀ f, f ∈ fs ↔ ∃ i, i % workers = w ∧ (sort files)[i]? = some f := by
    intro w hww
    have hp := hl w hww
    rw [getWorkerFiles, if_neg (by rw [hp.length_eq]; omega), sort_eq hp, hp.length_eq]
    obtain ⟨out, h1, h2, h3⟩ := mapM_getElem (pyRange w files.length workers) (sort files) (by
      intro i hi; rw [mem_pyRange hw] at hi; omega)
    refine ⟨out, h1, h3 (nodup_pyRange _ _ _ hw) hnd, fun f => ?_⟩
    rw [h2]
    constructor
    · rintro ⟨i, hi, e⟩
      rw [mem_pyRange hw] at hi
      refine ⟨i, ?_, e⟩
      have h4 := Nat.div_add_mod (i - w) workers
      have : i = w + workers * ((i - w) / workers) := by omega
      rw [this, Nat.add_mul_mod_self_left, Nat.mod_eq_of_lt hww]
    · rintro ⟨i, hi, e⟩
      have hi2 : i < files.length := by
        rw [← hlen]; exact (List.getElem?_eq_some_iff.1 e).1
      refine ⟨i, ?_, e⟩
      rw [mem_pyRange hw]
      have h4 := Nat.div_add_mod i workers
      refine ⟨by have := Nat.mod_le i workers; omega, hi2, ?_⟩
      rw [show i - w = workers * (i / workers) by omega]
      exact Nat.mul_mod_right _ _
  refine ⟨?_, ?_, ?_⟩
  · intro w hww
    obtain ⟨fs, h1, h2, -⟩ := key w hww
    exact ⟨fs, h1, h2⟩
  · intro v hv w hww a b ha hb f hfa hfb
    obtain ⟨a', ha', -, hma⟩ := key v hv
    obtain ⟨b', hb', -, hmb⟩ := key w hww
    rw [ha] at ha'; injection ha' with ha'; subst ha'
    rw [hb] at hb'; injection hb' with hb'; subst hb'
    obtain ⟨i, hi, ei⟩ := (hma f).1 hfa
    obtain ⟨j, hj, ej⟩ := (hmb f).1 hfb
    rw [← hi, ← hj, nodup_index hnd ei ej]
  · intro f
    rw [← (sort_perm files).mem_iff, List.mem_iff_getElem?]
    constructor
    · rintro ⟨i, e⟩
      obtain ⟨fs, h1, -, h2⟩ := key (i % workers) (Nat.mod_lt _ hw)
      exact ⟨_, Nat.mod_lt _ hw, fs, h1, (h2 f).2 ⟨i, rfl, e⟩⟩
    · rintro ⟨w, hww, fs, h1, h2⟩
      obtain ⟨fs', h1', -, h2'⟩ := key w hww
      rw [h1] at h1'; injection h1' with h1'; subst h1'
      obtain ⟨i, -, e⟩ := (h2' f).1 h2
      exact ⟨i, e⟩

/-- File samplers: the same. -/
theorem C32_samplers {files : List Name} (hf : files.Nodup) {workers : Nat} (hw : 0 < workers) (h : workers ≤ files.length)
    {listing : Nat → List Name} (hl : ∀ w < workers, (listing w).Perm files) :
    Spec.SplitsFiles getFiles files listing workers := by
  have e : getFiles = getWorkerFiles := by funext a b c; exact getFiles_eq a b c
  rw [e]
  exact C32_reader hf hw h hl

/-- With fewer files than workers every worker fails. -/
theorem C32_few {listing : List Name} {workers : Nat} (h : listing.length < workers) (w : Nat) :
    getWorkerFiles listing w workers = none ∧ getFiles listing w workers = none := by
  simp [getWorkerFiles, getFiles, h]

/-- With at least as many files as workers no worker is left without a file. -/
theorem C32_nonempty {listing : List Name} {workers : Nat} (h : workers ≤ listing.length) {w : Nat} (hw : w < workers) :
    ∃ f fs, getWorkerFiles listing w workers = some (f :: fs) := by
  have hl : (sort listing).length = listing.length := (sort_perm listing).length_eq
  rw [getWorkerFiles, if_neg (by omega), pyRange_cons (by omega) (by omega), List.mapM_cons,
    List.getElem?_eq_getElem (by omega)]
  obtain ⟨out, h1, -⟩ := mapM_getElem (pyRange (w + workers) listing.length workers) (sort listing) (by
    intro i hi; rw [mem_pyRange (by omega)] at hi; omega)
  rw [h1]
  exact ⟨_, _, rfl⟩

/-- Five files, two workers, listed in different orders. -/
def C32_files : List Name := [[97], [98, 49], [98], [99, 50], [99]]

example : C32_files.Nodup ∧ 2 ≤ C32_files.length ∧ C32_files.reverse.Perm C32_files ∧
    getWorkerFiles C32_files 0 2 = some [[97], [98, 49], [99, 50]] ∧
    getFiles C32_files.reverse 1 2 = some [[98], [99]] :=
  ⟨by decide, by decide, List.reverse_perm _, by decide +kernel, by decide +kernel⟩

end DeepGNN
