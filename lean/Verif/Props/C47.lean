import Verif.Proofs.Hdfs

/-
C47: streaming reads.
-/

namespace DeepGNN

open Stream

namespace Stream

theorem ok_opened {cap : Nat} {file garbage : Bytes} (hg : garbage.length = cap) : Ok cap file 0 (opened cap garbage) :=
  ⟨hg, Nat.le_refl _, rfl, Nat.zero_le _, Nat.le_refl _, Nat.le_of_eq (by simp [opened, start]), by simp [opened, start],
    by intro _; simp [opened, start]⟩

theorem readAll_spec {cap : Nat} {file : Bytes} {reader : Reader} : ∀ (ns : List Nat) {d : Nat} {s s' : State} {out : List Bytes},
    Ok cap file d s → d + ns.sum ≤ file.length → readAll cap file reader ns s = some (out, s') →
    out = Spec.slices (file.drop d) ns
  | [], d, s, s', out, _, _, e => by
    rw [readAll] at e
    rw [← (Prod.mk.inj (Option.some.inj e)).1, Spec.slices]
  | n :: ns, d, s, s', out, h, hs, e => by
    rw [List.sum_cons] at hs
    rw [readAll] at e
    cases e1 : read cap file reader n s with
    | none => rw [e1] at e; exact absurd e (by simp)
    | some r =>
      obtain ⟨o, s1⟩ := r
      rw [e1, Option.bind_some] at e
      obtain ⟨h1, h2⟩ := read_spec h (by omega) e1
      cases e2 : readAll cap file reader ns s1 with
      | none => simp only at e; rw [e2] at e; exact absurd e (by simp)
      | some r2 =>
        obtain ⟨o2, s2⟩ := r2
        simp only at e
        rw [e2, Option.map_some] at e
        rw [← (Prod.mk.inj (Option.some.inj e)).1, Spec.slices, List.drop_drop, ← h1, readAll_spec ns h2 (by omega) e2]

theorem read_some {cap : Nat} (hcap : 0 < cap) {file : Bytes} {reader : Reader} (hr : Reliable reader) {d n : Nat} {s : State}
    (h : Ok cap file d s) (hn : d + n ≤ file.length) (ho : n ≤ cap / 2 + 1 ∨ cap < n) :
    ∃ r, read cap file reader n s = some r := by
  have i1 := h.inside; have i2 := h.behind; have i3 := h.fits; have i4 := h.full; have i5 := h.room; have i6 := h.pos
  rw [read]
  simp only
  split
  · rename_i hbig
    have hoff : s.offset < file.length := by omega
    have i7 := i4 hoff
    obtain ⟨r, hr⟩ := connRead_some hcap (file := file) hr (h := s.handle) (Nat.le_refl (n - (cap - s.bufferOffset))) (by omega)
    rw [hr]; exact ⟨_, rfl⟩
  · rename_i hsmall
    split
    · rename_i hthrow
      exfalso; omega
    · rename_i hthrow
      split
      · rename_i hneed
        have hoff : s.offset < file.length := by
          rcases Nat.lt_or_ge s.offset file.length with h1 | h1
          · exact h1
          · exact absurd ⟨by omega, hneed⟩ hthrow
        rw [memcpyFront, if_neg (by omega), Option.bind_some, if_neg (by omega)]
        obtain ⟨r, hr⟩ := connRead_some hcap (file := file) hr (h := s.handle)
          (Nat.le_refl (min s.bufferOffset (file.length - s.offset))) (by omega)
        rw [hr]; exact ⟨_, rfl⟩
      · exact ⟨_, rfl⟩

theorem readAll_some {cap : Nat} (hcap : 0 < cap) {file : Bytes} {reader : Reader} (hr : Reliable reader) :
    ∀ (ns : List Nat) {d : Nat} {s : State}, Ok cap file d s → d + ns.sum ≤ file.length →
      (∀ n, n ∈ ns → n ≤ cap / 2 + 1 ∨ cap < n) → ∃ r, readAll cap file reader ns s = some r
  | [], _, s, _, _, _ => ⟨_, rfl⟩
  | n :: ns, d, s, h, hs, ho => by
    rw [List.sum_cons] at hs
    obtain ⟨⟨o, s1⟩, e1⟩ := read_some hcap hr h (by omega) (ho n List.mem_cons_self)
    obtain ⟨_, h2⟩ := read_spec h (by omega) e1
    obtain ⟨r2, e2⟩ := readAll_some hcap hr ns h2 (by omega) (fun m hm => ho m (List.mem_cons_of_mem _ hm))
    refine ⟨(o :: r2.1, r2.2), ?_⟩
    rw [readAll, e1, Option.bind_some]
    simp only
    rw [e2, Option.map_some]

end Stream

/-- Whatever the file system does: if reads of any sizes within the file succeed, they return the bytes of the file in
order. -/
theorem C47_bytes (file garbage : Bytes) (hg : garbage.length = bufferSize) (reader : Reader) (sizes : List Nat)
    (hs : sizes.sum ≤ file.length) {out : List Bytes} {s : State}
    (h : readAll bufferSize file reader sizes (opened bufferSize garbage) = some (out, s)) : out = Spec.slices file sizes := by
  have := readAll_spec sizes (ok_opened hg) (by omega) h
  rwa [List.drop_zero] at this

/-- They do succeed if the file system does not fail (it may return fewer bytes than asked for, but not twice in a row) and
no single read asks for 2050 to 4096 bytes. -/
theorem C47_reads_partial (file garbage : Bytes) (hg : garbage.length = bufferSize) {reader : Reader} (hr : Reliable reader)
    (sizes : List Nat) (hs : sizes.sum ≤ file.length) (ho : ∀ n, n ∈ sizes → n ≤ 2049 ∨ 4096 < n) :
    ∃ s, readAll bufferSize file reader sizes (opened bufferSize garbage) = some (Spec.slices file sizes, s) := by
  obtain ⟨⟨out, s⟩, h⟩ := readAll_some (cap := bufferSize) (by decide) hr sizes (ok_opened (file := file) hg) (by omega) ho
  exact ⟨s, by rw [h, C47_bytes file garbage hg reader sizes hs h]⟩

/-- Small buffer, to show the reads at work: pieces of 1, 2, 3, 9 and 2 bytes of a file of 17 through a buffer of 4, with short
reads. -/
example : Reliable (fun k n => if k % 2 = 0 then ((n / 2 : Nat) : Int) else n) ∧
    (readAll 4 [0, 1, 2, 3, 4, 5, 6, 7, 8, 9, 10, 11, 12, 13, 14, 15, 16] (fun k n => if k % 2 = 0 then ((n / 2 : Nat) : Int) else n)
      [1, 2, 3, 9, 2] (opened 4 [99, 99, 99, 99])).map (·.1) =
    some [[0], [1, 2], [3, 4, 5], [6, 7, 8, 9, 10, 11, 12, 13, 14], [15, 16]] := by
  refine ⟨fun k n => ?_, by decide +kernel⟩
  simp only
  by_cases h : k % 2 = 0
  · rw [if_pos h, if_neg (by omega)]; omega
  · rw [if_neg h]; omega

/-- 1000 bytes and then 4000 bytes of a file of 8000: the rest of the buffer is copied over itself with memcpy, which is
undefined. -/
theorem C47_overlap_refuted :
    readAll bufferSize (List.replicate 8000 7) (fun _ n => n) [1000, 4000] (opened bufferSize (List.replicate 4096 0)) = none ∧
    (readAll bufferSize (List.replicate 8000 7) (fun _ n => n) [1000] (opened bufferSize (List.replicate 4096 0))).isSome = true := by
  decide +kernel

/-- Reading past the end of the file is not reported: after the 4 bytes of a file 4 more bytes are read, they are what was in
the memory of the buffer before. -/
theorem C47_end_refuted :
    (readAll bufferSize [1, 2, 3, 4] (fun _ n => n) [4, 4] (opened bufferSize (List.replicate 4096 99))).map (·.1) =
      some [[1, 2, 3, 4], [99, 99, 99, 99]] := by
  decide +kernel

/-- `start` does not go back to the beginning of the file: the second pass over a file of 4 bytes fails. -/
theorem C47_restart_refuted :
    ((readAll bufferSize [1, 2, 3, 4] (fun _ n => n) [4] (opened bufferSize (List.replicate 4096 99))).bind fun r =>
      readAll bufferSize [1, 2, 3, 4] (fun _ n => n) [4] (start bufferSize r.2)) = none := by
  decide +kernel

end DeepGNN
