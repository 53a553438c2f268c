import Verif.Spec.FileCache

/-
Lemmas about the cache of downloaded files.
-/

namespace DeepGNN.FileCache
open Spec

variable {h : Name → Name} {used : List Name} {remote : Name → Name → Bytes}

/-- The file name for a url and a tag. -/
def fname (h : Name → Name) (url tag : Name) : Name := if tag = [] then h url else h url ++ '.' :: h tag

theorem path_eq (c : Call) : c.path h = fname h c.url (tag c) := by
  obtain ⟨u, e, ch⟩ := c
  cases e with
  | none => simp [Call.path, tag, fname, urlToFilename]
  | some e => by_cases he : e = [] <;> simp [Call.path, tag, fname, urlToFilename, he]

theorem flatten_kept (l : List Bytes) : (l.filter fun b => b ≠ []).flatten = l.flatten := by
  induction l with
  | nil => rfl
  | cons b l ih =>
    by_cases hb : b = []
    · rw [List.filter_cons_of_neg (by simpa using hb), ih, hb]; rfl
    · rw [List.filter_cons_of_pos (by simpa using hb), List.flatten_cons, List.flatten_cons, ih]

theorem kept_content (c : Call) : c.kept.flatten = content c := flatten_kept c.chunks

theorem fname_length (hn : NoCollision h used) (u t : Name) :
    (fname h u t).length = if t = [] then 64 else 129 := by
  simp only [fname]
  split
  · exact hn.length u
  · rw [List.length_append, List.length_cons, hn.length, hn.length]

theorem fname_inj (hn : NoCollision h used) {u t u' t' : Name} (hu : u ∈ used) (ht : t ∈ used) (hu' : u' ∈ used)
    (ht' : t' ∈ used) (he : fname h u t = fname h u' t') : u = u' ∧ t = t' := by
  have hl := congrArg List.length he
  rw [fname_length hn, fname_length hn] at hl
  by_cases h1 : t = [] <;> by_cases h2 : t' = []
  · simp only [fname, if_pos h1, if_pos h2] at he
    exact ⟨hn.inj u hu u' hu' he, by rw [h1, h2]⟩
  · simp [h1, h2] at hl
  · simp [h1, h2] at hl
  · simp only [fname, if_neg h1, if_neg h2] at he
    obtain ⟨h3, h4⟩ := List.append_inj he (by rw [hn.length, hn.length])
    exact ⟨hn.inj u hu u' hu' h3, hn.inj t ht t' ht' (List.cons.inj h4).2⟩

theorem meta_ne (hn : NoCollision h used) (u t u' t' : Name) : metaName (fname h u t) ≠ fname h u' t' := by
  intro he
  have hl := congrArg List.length he
  rw [metaName, List.length_append, fname_length hn, fname_length hn] at hl
  simp only [List.length_cons, List.length_nil] at hl
  split at hl <;> split at hl <;> omega

theorem metaName_inj {p q : Name} (he : metaName p = metaName q) : p = q := by
  simpa [metaName] using he

theorem run_fetch (l : List Bytes) (d : Dir) : (l.map Act.fetch).foldl Act.run d = d := by
  induction l with
  | nil => rfl
  | cons b l ih => exact ih

theorem run_append (p : Name) : ∀ (l : Bytes) (b : Bytes) (d : Dir), d p = some (.data b) →
    (l.map (Act.append p)).foldl Act.run d = if l = [] then d else put d p (.data (b ++ l))
  | [], _, _, _ => rfl
  | x :: l, b, d, hd => by
    rw [List.map_cons, List.foldl_cons, Act.run, hd, if_neg (by simp)]
    rw [run_append p l (b ++ [x]) _ (by simp [put])]
    by_cases hl : l = []
    · rw [if_pos hl, hl]
    · rw [if_neg hl]
      funext y
      simp only [put]
      split <;> simp

theorem run_copy (p : Name) (l : Bytes) (d : Dir) :
    (Act.create p :: l.map (Act.append p)).foldl Act.run d = put d p (.data l) := by
  rw [List.foldl_cons, run_append p l [] _ (by simp [Act.run, put])]
  split
  · subst l; rfl
  · funext y
    simp only [put, Act.run, List.nil_append]
    split <;> rfl

/-- A complete call that finds no file. -/
theorem get_new (c : Call) {d : Dir} (hd : d (c.path h) = none) : (c.get h none d).1 =
    put (put d (c.path h) (.data (content c))) (metaName (c.path h)) (.info c.url c.etag) := by
  simp only [Call.get, Call.acts, hd, Option.isSome_none, Bool.false_eq_true, if_false, List.foldl_append, run_fetch]
  rw [← List.cons_append, List.foldl_append, run_copy, kept_content]
  funext y
  simp only [List.foldl_cons, List.foldl_nil, Act.run, put]
  split <;> rfl

/-- A call that finds a file does nothing. -/
theorem get_old (c : Call) (crash : Option Nat) {d : Dir} (hd : (d (c.path h)).isSome) : (c.get h crash d).1 = d := by
  cases crash <;> simp [Call.get, Call.acts, hd]

/-- A call that is killed while it copies, after `j` bytes. -/
theorem get_copying (c : Call) {d : Dir} (hd : d (c.path h) = none) {j : Nat} (hj : j ≤ (content c).length) :
    (c.get h (some (c.kept.length + 1 + j)) d).1 = put d (c.path h) (.data ((content c).take j)) := by
  simp only [Call.get, Call.acts, hd, Option.isSome_none, Bool.false_eq_true, if_false]
  rw [List.take_append, List.take_of_length_le (by simp; omega)]
  have h1 : c.kept.length + 1 + j - (c.kept.map Act.fetch).length = j + 1 := by simp; omega
  rw [h1, List.take_succ_cons, List.take_append_of_le_length (by rw [kept_content]; simpa using hj), List.foldl_append, run_fetch,
    ← List.map_take, kept_content, run_copy]

/-- A call that is killed before the cache file is opened. -/
theorem get_download (c : Call) {d : Dir} {k : Nat} (hk : k ≤ c.kept.length) : (c.get h (some k) d).1 = d := by
  simp only [Call.get, Call.acts]
  split
  · simp
  · rw [List.take_append_of_le_length (by simpa using hk), ← List.map_take, run_fetch]

/-- Every cache file is complete and has its metadata. -/
def Good (h : Name → Name) (used : List Name) (remote : Name → Name → Bytes) (d : Dir) : Prop :=
  ∀ u ∈ used, ∀ t ∈ used, d (fname h u t) = none ∨
    (d (fname h u t) = some (.data (remote u t)) ∧
      ∃ e : Option Name, e.getD [] = t ∧ d (metaName (fname h u t)) = some (.info u e))

theorem Good.get (hn : NoCollision h used) {d : Dir} (hg : Good h used remote d) {c : Call} (hc : Serves used remote c) :
    Good h used remote (c.get h none d).1 := by
  obtain ⟨hu, ht, hcont⟩ := hc
  by_cases hd : (d (c.path h)).isSome
  · rw [get_old c none hd]; exact hg
  · rw [Option.not_isSome_iff_eq_none] at hd
    rw [get_new c hd, path_eq]
    intro u hu' t ht'
    have hm : fname h u t ≠ metaName (fname h c.url (tag c)) := fun he => meta_ne hn _ _ _ _ he.symm
    by_cases he : fname h u t = fname h c.url (tag c)
    · obtain ⟨rfl, rfl⟩ := fname_inj hn hu' ht' hu ht he
      right
      refine ⟨by simp [put, hm, hcont], c.etag, rfl, by simp [put]⟩
    · rcases hg u hu' t ht' with h1 | ⟨h1, e, h2, h3⟩
      · left; simp [put, hm, he, h1]
      · right
        refine ⟨by simp [put, hm, he, h1], e, h2, ?_⟩
        have h4 : metaName (fname h u t) ≠ metaName (fname h c.url (tag c)) := fun h5 => he (metaName_inj h5)
        simp [put, h4, meta_ne hn, h3]

theorem Good.runs (hn : NoCollision h used) : ∀ (evs : List (Call × Option Nat)) {d : Dir}, Good h used remote d →
    (∀ e ∈ evs, Serves used remote e.1 ∧ InDownload e) → Good h used remote (runs h evs d)
  | [], _, hg, _ => hg
  | e :: evs, d, hg, he => by
    obtain ⟨h1, h2⟩ := he e (List.mem_cons_self ..)
    refine Good.runs hn evs (d := (e.1.get h e.2 d).1) ?_ fun e' he' => he e' (List.mem_cons_of_mem _ he')
    cases hk : e.2 with
    | none => exact hg.get hn h1
    | some k => rw [get_download e.1 (h2 k hk)]; exact hg

theorem runs_old (p : Name) : ∀ (evs : List (Call × Option Nat)) (d : Dir), (d p).isSome →
    (∀ e ∈ evs, e.1.path h = p) → FileCache.runs h evs d = d
  | [], _, _, _ => rfl
  | e :: evs, d, hd, he => by
    have h1 : (e.1.get h e.2 d).1 = d := get_old e.1 e.2 (by rw [he e (List.mem_cons_self ..)]; exact hd)
    show FileCache.runs h evs (e.1.get h e.2 d).1 = d
    rw [h1]
    exact runs_old p evs d hd fun e' he' => he e' (List.mem_cons_of_mem _ he')

end DeepGNN.FileCache
