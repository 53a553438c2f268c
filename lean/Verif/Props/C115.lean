import Verif.Proofs.ArchiveExtract

/-
C115 Extracting a model archive writes nothing outside the directory it is extracted to.
-/

namespace DeepGNN
open Archive Archive.Spec

/-- If an archive without links is extracted, every file is inside the directory, or inside a directory beside it whose name
begins with its name.  Missing: that the second case does not occur (false, `C115_beside_refuted`), and archives with links
(`C115_link_refuted`). -/
theorem C115_inside_partial {dir : List Text} (hd : IsDir dir) (ms : List Member) (hm : ∀ m ∈ ms, m.link = none)
    {w : List (List Text)} (hw : safeExtract dir ms = some w) :
    w.length = ms.length ∧ ∀ p ∈ w, Inside dir p ∨ BesideLonger dir p := by
  rw [safeExtract] at hw
  by_cases h : ms.all (fun m => isWithin (render dir) m.name) = true
  · rw [if_pos h, extractAll_plain dir ms hm, Option.some.injEq] at hw
    subst hw
    refine ⟨List.length_map _, fun p hp => ?_⟩
    obtain ⟨m, hmem, rfl⟩ := List.mem_map.1 hp
    obtain ⟨-, par, n, e, r, h1, h2⟩ := (isWithin_iff hd m.name).1 (List.all_eq_true.1 h m hmem)
    by_cases he : e = []
    · left
      refine ⟨r, ?_⟩
      rw [h2, h1, he]; simp
    · exact Or.inr ⟨par, n, e, r, h1, he, h2⟩
  · rw [if_neg h] at hw; cases hw

/-- No archive is refused without reason: if the names are relative and every file would be inside the directory, it is
extracted. -/
theorem C115_accepts {dir : List Text} (hd : IsDir dir) (ms : List Member)
    (hm : ∀ m ∈ ms, m.link = none ∧ m.name.head? ≠ some '/')
    (hin : ∀ p ∈ extractAll dir [] ms, Inside dir p) : safeExtract dir ms = some (extractAll dir [] ms) := by
  rw [safeExtract, if_pos]
  rw [List.all_eq_true]
  intro m hmem
  rw [extractAll_plain dir ms fun x hx => (hm x hx).1] at hin
  obtain ⟨r, hr⟩ := hin _ (List.mem_map.2 ⟨m, hmem, rfl⟩)
  rw [isWithin_iff hd]
  constructor
  · intro h2
    rw [pathJoin, if_neg (hm m hmem).2, render] at h2
    obtain ⟨h3, h4⟩ := join_first hd
    cases h5 : joinSlash dir with
    | nil => exact h4 h5
    | cons c l =>
      rw [h5] at h2 h3
      refine h3 ?_
      have h6 := h2.1
      split at h6
      · simp at h6; simp [h6]
      · simp at h6; simp [h6]
  · refine ⟨dir.dropLast, dir.getLast hd.1, [], r, (List.dropLast_concat_getLast hd.1).symm, ?_⟩
    rw [← hr, List.append_nil]
    conv => lhs; rw [← List.dropLast_concat_getLast hd.1]
    simp

/-- An archive is extracted whole or not at all: one member that leads elsewhere, anywhere in the archive, and nothing is
written. -/
theorem C115_all_or_nothing {dir : List Text} (hd : IsDir dir) (ms : List Member) (hm : ∀ m ∈ ms, m.link = none)
    (hout : ∃ p ∈ extractAll dir [] ms, ¬Inside dir p ∧ ¬BesideLonger dir p) : safeExtract dir ms = none := by
  cases h : safeExtract dir ms with
  | none => rfl
  | some w =>
    obtain ⟨p, hp, h1, h2⟩ := hout
    have hw : w = extractAll dir [] ms := by
      rw [safeExtract] at h
      split at h
      · exact (Option.some.inj h).symm
      · cases h
    rcases (C115_inside_partial hd ms hm h).2 p (hw ▸ hp) with h3 | h3
    · exact absurd h3 h1
    · exact absurd h3 h2

/-- The claim is false: whatever the directory, a member "../<its name><extra>/<file>" is accepted and written beside it. -/
theorem C115_beside_refuted (parent : List Text) (n extra file : Text) (hd : IsDir (parent ++ [n])) (he : extra ≠ [])
    (he' : '/' ∉ extra) (hf : file ≠ [] ∧ '/' ∉ file ∧ file ≠ ['.'] ∧ file ≠ ['.', '.']) :
    safeExtract (parent ++ [n]) [{ name := ['.', '.', '/'] ++ (n ++ extra) ++ '/' :: file }] =
      some [parent ++ [n ++ extra, file]] ∧ ¬Inside (parent ++ [n]) (parent ++ [n ++ extra, file]) := by
  obtain ⟨hn1, hn2, hn3, hn4⟩ := hd.2 n (by simp)
  have hclean : ∀ c ∈ [n ++ extra, file], c ≠ [] ∧ '/' ∉ c ∧ c ≠ ['.'] ∧ c ≠ ['.', '.'] := by
    intro c hc
    rcases List.mem_cons.1 hc with rfl | hc
    · refine ⟨by simp [hn1], by simp [hn2, he'], ?_, ?_⟩
      · intro h
        rcases List.append_eq_singleton_iff.1 h with ⟨h1, -⟩ | ⟨-, h1⟩
        · exact hn1 h1
        · exact he h1
      · intro h
        cases n with
        | nil => exact hn1 rfl
        | cons a n =>
          simp only [List.cons_append, List.cons.injEq] at h
          rcases List.append_eq_singleton_iff.1 h.2 with ⟨h1, -⟩ | ⟨-, h1⟩
          · exact hn3 (by rw [h.1, h1])
          · exact he h1
    · rw [List.mem_singleton.1 hc]; exact hf
  have hplace : placeOf (parent ++ [n]) (['.', '.', '/'] ++ (n ++ extra) ++ '/' :: file) = parent ++ [n ++ extra, file] := by
    have h1 : split (['.', '.', '/'] ++ (n ++ extra) ++ '/' :: file) = ['.', '.'] :: [n ++ extra, file] := by
      rw [split_slash, split_plain file hf.2.1]
      have : ['.', '.', '/'] ++ (n ++ extra) = ['.', '.'] ++ '/' :: (n ++ extra) := rfl
      rw [this, split_slash, split_plain (n ++ extra) (hclean _ (by simp)).2.1]
      rfl
    rw [placeOf, h1, if_neg (by simp)]
    have h2 : walk (parent ++ [n]) (['.', '.'] :: [n ++ extra, file]) = walk parent [n ++ extra, file] := by
      simp only [walk, List.foldl_cons]
      simp
    rw [h2, walk_clean _ _ hclean]
  constructor
  · rw [safeExtract, if_pos, extractAll_plain _ _ (by simp), List.map_cons, List.map_nil, hplace]
    rw [List.all_cons, List.all_nil, Bool.and_true, isWithin_iff hd, hplace]
    refine ⟨?_, parent, n, extra, [file], rfl, rfl⟩
    intro h
    obtain ⟨h3, h4⟩ := join_first hd
    rw [pathJoin, if_neg (by simp), render] at h
    cases h5 : joinSlash (parent ++ [n]) with
    | nil => exact h4 h5
    | cons c l =>
      rw [h5] at h h3
      refine h3 ?_
      have h6 := h.1
      split at h6
      · simp at h6; simp [h6]
      · simp at h6; simp [h6]
  · rintro ⟨r, hr⟩
    rw [List.append_assoc, List.append_cancel_left_eq] at hr
    simp only [List.singleton_append, List.cons.injEq] at hr
    exact he (by simpa using hr.1.symm)

/-- It is also false for archives with links: a link to any directory and a file below the link are accepted, and the file is
written to that directory. -/
theorem C115_link_refuted {dir : List Text} (hd : IsDir dir) (target : List Text) (l file : Text)
    (hl : l ≠ [] ∧ '/' ∉ l ∧ l ≠ ['.'] ∧ l ≠ ['.', '.'])
    (hf : file ≠ [] ∧ '/' ∉ file ∧ file ≠ ['.'] ∧ file ≠ ['.', '.']) (ht : target ++ [file] ≠ dir ++ [l]) :
    safeExtract dir [{ name := l, link := some target }, { name := l ++ '/' :: file }] =
      some [dir ++ [l], target ++ [file]] := by
  have hhead : ∀ x : Text, (l ++ x).head? ≠ some '/' := by
    intro x
    cases l with
    | nil => exact absurd rfl hl.1
    | cons c l => simp; intro hc; exact hl.2.1 (by simp [hc])
  have hs2 : split (l ++ '/' :: file) = [l, file] := by
    rw [split_slash, split_plain l hl.2.1, split_plain file hf.2.1]; rfl
  have acc := C115_accepts hd [{ name := l }, { name := l ++ '/' :: file }]
    (by
      intro m hm
      rcases List.mem_cons.1 hm with rfl | hm
      · exact ⟨rfl, by simpa using hhead []⟩
      · rw [List.mem_singleton.1 hm]; exact ⟨rfl, hhead _⟩)
    (by
      rw [extractAll_plain _ _ (by simp)]
      intro p hp
      simp only [List.map_cons, List.map_nil, List.mem_cons, List.not_mem_nil, or_false] at hp
      rcases hp with rfl | rfl
      · rw [placeOf, if_neg (by simpa using hhead []), split_plain l hl.2.1, walk_clean _ _ (by simpa using hl)]
        exact List.prefix_append _ _
      · rw [placeOf, if_neg (hhead _), hs2, walk_clean _ _ (by
          intro c hc
          rcases List.mem_cons.1 hc with rfl | hc
          · exact hl
          · rw [List.mem_singleton.1 hc]; exact hf)]
        exact List.prefix_append _ _)
  rw [safeExtract] at acc ⊢
  have hall : ([{ name := l, link := some target }, { name := l ++ '/' :: file }] : List Member).all
      (fun m => isWithin (render dir) m.name) = true := by
    split at acc
    · rename_i h; simpa using h
    · cases acc
  have h1 : (l.head? = some '/') = False := eq_false (by simpa using hhead [])
  have h2 : ((l ++ '/' :: file).head? = some '/') = False := eq_false (hhead _)
  have h3 : ((target ++ [file]) == (dir ++ [l])) = false := by simpa using ht
  rw [if_pos hall]
  simp only [extractAll, h1, h2, if_false, split_plain l hl.2.1, hs2, resolve, List.foldl_cons, List.foldl_nil, hl.1, hl.2.2.1,
    hl.2.2.2, hf.1, hf.2.2.1, hf.2.2.2, or_self, List.lookup_nil, Option.getD_none, List.lookup_cons, beq_self_eq_true,
    Option.getD_some, h3]

/-- A directory "/tmp/d". -/
def archiveDir : List Text := ["tmp".toList, "d".toList]

example : IsDir archiveDir := ⟨by decide, by decide +kernel⟩
/-- A plain archive is extracted, a file that leads to /etc is refused. -/
example : safeExtract archiveDir [{ name := "m/./w.bin".toList }, { name := "m/../c.json".toList }] =
    some [["tmp".toList, "d".toList, "m".toList, "w.bin".toList], ["tmp".toList, "d".toList, "c.json".toList]] := by
  decide +kernel
example : safeExtract archiveDir [{ name := "w.bin".toList }, { name := "../../etc/x".toList }] = none := by decide +kernel
example : safeExtract archiveDir [{ name := "/etc/x".toList }] = none := by decide +kernel
/-- "../d2/x" is written to /tmp/d2/x. -/
example : safeExtract archiveDir [{ name := "../d2/x".toList }] = some [["tmp".toList, "d2".toList, "x".toList]] := by
  decide +kernel
example : safeExtract archiveDir [{ name := "l".toList, link := some ["etc".toList] }, { name := "l/x".toList }] =
    some [["tmp".toList, "d".toList, "l".toList], ["etc".toList, "x".toList]] := by decide +kernel

end DeepGNN
