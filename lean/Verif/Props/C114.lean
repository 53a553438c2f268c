import Verif.Proofs.FileCache

/-
C114 A downloaded file is returned complete from the cache, whenever earlier calls were killed.
-/

namespace DeepGNN
open FileCache FileCache.Spec

variable {h : Name → Name} {used : List Name} {remote : Name → Name → Bytes}

/-- For every history of calls, starting with an empty cache, in which processes are killed only while they download:
the next call returns a path; the file there is the one the server has under the url and entity tag, and the metadata
give back the url and the tag.  The server sends the file `remote url tag`, and no two digests in use are equal.
Missing: processes killed later (false, `C114_killed_refuted`, `C114_metadata_refuted`), files without entity
tag that change (`C114_untagged_refuted`). -/
theorem C114_complete_partial (hn : NoCollision h used) (evs : List (Call × Option Nat))
    (hevs : ∀ e ∈ evs, Serves used remote e.1 ∧ InDownload e) (c : Call) (hc : Serves used remote c) :
    ∃ p e, (c.get h none (runs h evs fun _ => none)).2 = some p ∧
      (c.get h none (runs h evs fun _ => none)).1 p = some (.data (remote c.url (tag c))) ∧
      filenameToUrl (c.get h none (runs h evs fun _ => none)).1 p = some (c.url, e) ∧ e.getD [] = tag c := by
  have hg : Good h used remote (runs h evs fun _ => none) := Good.runs hn evs (fun _ _ _ _ => Or.inl rfl) hevs
  have hg' := hg.get hn hc
  have hsome : ((c.get h none (runs h evs fun _ => none)).1 (c.path h)).isSome := by
    by_cases hd : ((runs h evs fun _ => none) (c.path h)).isSome
    · rw [get_old c none hd]; exact hd
    · rw [Option.not_isSome_iff_eq_none] at hd
      rw [get_new c hd]
      simp only [put]
      split <;> simp
  rcases hg' c.url hc.1 (tag c) hc.2.1 with h1 | ⟨h1, e, h2, h3⟩
  · rw [path_eq, h1] at hsome; cases hsome
  · refine ⟨c.path h, e, rfl, by rw [path_eq]; exact h1, ?_, h2⟩
    rw [path_eq, filenameToUrl, h1, Option.bind_some, h3]

/-- Files for different urls or tags have different paths. -/
theorem C114_paths (hn : NoCollision h used) (a b : Call) (ha : a.url ∈ used ∧ tag a ∈ used)
    (hb : b.url ∈ used ∧ tag b ∈ used) (da db : Dir) :
    (a.get h none da).2 = (b.get h none db).2 ↔ a.url = b.url ∧ tag a = tag b := by
  simp only [Call.get, Option.some.injEq, path_eq]
  exact ⟨fun he => fname_inj hn ha.1 ha.2 hb.1 hb.2 he, fun he => by rw [he.1, he.2]⟩

/-- The claim of the comment in the code ("otherwise you get corrupt cache entries") is false for processes killed while
they copy: whatever the file, if one is killed before the last byte is copied, every later call for it, after
any calls for it, returns a path to a truncated file.  The same directory is seen by a second process that asks for the file while the
first one is copying. -/
theorem C114_killed_refuted (h : Name → Name) (c : Call) (d : Dir) (hd : d (c.path h) = none) (j : Nat)
    (hj : j < (content c).length) (later : List (Call × Option Nat))
    (hl : ∀ e ∈ later, e.1.url = c.url ∧ tag e.1 = tag c) :
    ∃ k p, (c.get h none (runs h ((c, some k) :: later) d)).2 = some p ∧
      (c.get h none (runs h ((c, some k) :: later) d)).1 p = some (.data ((content c).take j)) ∧
      (content c).take j ≠ content c := by
  have hfile : put d (c.path h) (.data ((content c).take j)) (c.path h) = some (.data ((content c).take j)) := by
    simp [put]
  have hr : runs h ((c, some (c.kept.length + 1 + j)) :: later) d = put d (c.path h) (.data ((content c).take j)) := by
    show runs h later (c.get h (some (c.kept.length + 1 + j)) d).1 = _
    rw [get_copying c hd (by omega)]
    exact runs_old (c.path h) later _ (by rw [hfile]; rfl) fun e he => by
      rw [path_eq, path_eq, (hl e he).1, (hl e he).2]
  refine ⟨c.kept.length + 1 + j, c.path h, rfl, ?_, fun he => ?_⟩
  · rw [hr, get_old c none (by rw [hfile]; rfl), hfile]
  · have := congrArg List.length he
    rw [List.length_take] at this
    omega

/-- If the process is killed after the copy and before the metadata are written, the file is returned by all later
calls, but its url and tag cannot be found again. -/
theorem C114_metadata_refuted (hn : NoCollision h used) (c : Call) (later : List (Call × Option Nat))
    (hl : ∀ e ∈ later, e.1.url = c.url ∧ tag e.1 = tag c) :
    ∃ k p, (c.get h none (runs h ((c, some k) :: later) fun _ => none)).2 = some p ∧
      (c.get h none (runs h ((c, some k) :: later) fun _ => none)).1 p = some (.data (content c)) ∧
      filenameToUrl (c.get h none (runs h ((c, some k) :: later) fun _ => none)).1 p = none := by
  have hfile : put (fun _ => none) (c.path h) (.data (content c)) (c.path h) = some (.data (content c)) := by
    simp [put]
  have hr : runs h ((c, some (c.kept.length + 1 + (content c).length)) :: later) (fun _ => none) =
      put (fun _ => none) (c.path h) (.data (content c)) := by
    show runs h later (c.get h (some (c.kept.length + 1 + (content c).length)) fun _ => none).1 = _
    rw [get_copying c rfl (Nat.le_refl _), List.take_length]
    exact runs_old (c.path h) later _ (by rw [hfile]; rfl) fun e he => by
      rw [path_eq, path_eq, (hl e he).1, (hl e he).2]
  refine ⟨c.kept.length + 1 + (content c).length, c.path h, rfl, ?_, ?_⟩
  · rw [hr, get_old c none (by rw [hfile]; rfl), hfile]
  · rw [hr, get_old c none (by rw [hfile]; rfl)]
    have hne : metaName (c.path h) ≠ c.path h := by rw [path_eq]; exact meta_ne hn _ _ _ _
    simp [filenameToUrl, put, hne]

/-- A file that the server sends without entity tag is never fetched again: after a complete call, a call returns
the old contents whatever the server has now. -/
theorem C114_untagged_refuted (hn : NoCollision h used) (url : Name) (old new : List Bytes) (hne : old.flatten ≠ new.flatten) :
    ∃ p, ((⟨url, none, new⟩ : Call).get h none (runs h [(⟨url, none, old⟩, none)] fun _ => none)).2 = some p ∧
      ((⟨url, none, new⟩ : Call).get h none (runs h [(⟨url, none, old⟩, none)] fun _ => none)).1 p = some (.data old.flatten) ∧
      old.flatten ≠ content ⟨url, none, new⟩ := by
  have hne' : (⟨url, none, old⟩ : Call).path h ≠ metaName ((⟨url, none, old⟩ : Call).path h) := by
    rw [path_eq]; exact fun he => meta_ne hn _ _ _ _ he.symm
  have hr : runs h [(⟨url, none, old⟩, none)] (fun _ => none) = _ := get_new (h := h) ⟨url, none, old⟩ (d := fun _ => none) rfl
  have hf : runs h [(⟨url, none, old⟩, none)] (fun _ => none) ((⟨url, none, new⟩ : Call).path h) = some (.data old.flatten) := by
    rw [hr]
    show put (put _ _ _) _ _ ((⟨url, none, old⟩ : Call).path h) = _
    simp [put, hne', content]
  refine ⟨_, rfl, ?_, hne⟩
  rw [get_old _ none (by rw [hf]; rfl), hf]

/-- A digest for the examples: the first 64 characters. -/
def C114_digest (x : Name) : Name := (x ++ List.replicate 64 'a').take 64
def C114_used : List Name := [[], ['u'], ['v'], ['1'], ['2']]
def C114_remote (u t : Name) : Bytes := if u = ['u'] then (if t = ['1'] then [1, 2, 3] else [4]) else [5, 6]
def C114_call : Call := ⟨['u'], some ['1'], [[1, 2], [], [3]]⟩

theorem C114_no_collision : NoCollision C114_digest C114_used :=
  ⟨fun x => by simp [C114_digest], by decide⟩

/-- Non-vacuity: a killed download, a complete call, one for another tag and one for another url; then the file with the
first tag is returned complete. -/
example : (∀ e ∈ [(C114_call, some 1), (C114_call, none), (⟨['u'], some ['2'], [[4]]⟩, none), (⟨['v'], none, [[5], [6]]⟩, some 2)],
      Serves C114_used C114_remote e.1 ∧ InDownload e) ∧ Serves C114_used C114_remote C114_call ∧
    (C114_call.get C114_digest none (runs C114_digest [(C114_call, some 1), (C114_call, none),
      (⟨['u'], some ['2'], [[4]]⟩, none), (⟨['v'], none, [[5], [6]]⟩, some 2)] fun _ => none)).1 (C114_call.path C114_digest) =
      some (.data [1, 2, 3]) := by
  refine ⟨?_, ⟨by decide, by decide, by decide⟩, by decide +kernel⟩
  intro e he
  simp only [List.mem_cons, List.not_mem_nil, or_false] at he
  rcases he with rfl | rfl | rfl | rfl
  · exact ⟨⟨by decide, by decide, by decide⟩, fun k hk => by cases hk; decide⟩
  · exact ⟨⟨by decide, by decide, by decide⟩, fun k hk => by cases hk⟩
  · exact ⟨⟨by decide, by decide, by decide⟩, fun k hk => by cases hk⟩
  · exact ⟨⟨by decide, by decide, by decide⟩, fun k hk => by cases hk; decide⟩

/-- Non-vacuity of the refutations: killed after one of three bytes, the next call returns one byte; killed after all
of them, there are no metadata. -/
example : (C114_call.get C114_digest none (runs C114_digest [(C114_call, some 4)] fun _ => none)).1
      (C114_call.path C114_digest) = some (.data [1]) ∧ (content C114_call).length = 3 ∧
    filenameToUrl (C114_call.get C114_digest none (runs C114_digest [(C114_call, some 6)] fun _ => none)).1
      (C114_call.path C114_digest) = none ∧
    filenameToUrl (C114_call.get C114_digest none (fun _ => none)).1 (C114_call.path C114_digest) =
      some (['u'], some ['1']) := by decide +kernel

end DeepGNN
