import Verif.Spec.ArchiveExtract

/-
Lemmas about the extraction of an archive.
-/

namespace DeepGNN.Archive
open Spec

theorem split_ne_nil : ∀ s : Text, split s ≠ []
  | [] => by simp [split]
  | c :: cs => by
    rw [split]
    split
    · simp
    · split <;> simp

theorem split_slash : ∀ (a b : Text), split (a ++ '/' :: b) = split a ++ split b
  | [], b => by simp [split]
  | c :: a, b => by
    rw [List.cons_append, split, split, split_slash a b]
    by_cases h : c = '/'
    · rw [if_pos h, if_pos h]; rfl
    · rw [if_neg h, if_neg h]
      cases h1 : split a with
      | nil => exact absurd h1 (split_ne_nil a)
      | cons x xs => rfl

theorem split_plain : ∀ s : Text, '/' ∉ s → split s = [s]
  | [], _ => rfl
  | c :: cs, h => by
    rw [split, if_neg (fun hc => h (by simp [hc])), split_plain cs fun hm => h (List.mem_cons_of_mem _ hm)]

theorem split_join : ∀ cs : List Text, cs ≠ [] → (∀ c ∈ cs, '/' ∉ c) → split (joinSlash cs) = cs
  | [], h, _ => absurd rfl h
  | [c], _, h => split_plain c (h c (by simp))
  | c :: d :: r, _, h => by
    rw [joinSlash, split_slash, split_plain c (h c (by simp)), split_join (d :: r) (by simp) fun x hx => h x (List.mem_cons_of_mem _ hx)]
    rfl

theorem split_noslash : ∀ (s : Text), ∀ c ∈ split s, '/' ∉ c
  | [], c, hc => by simp [split] at hc; subst hc; simp
  | a :: s, c, hc => by
    rw [split] at hc
    by_cases h : a = '/'
    · rw [if_pos h] at hc
      rcases List.mem_cons.1 hc with rfl | hc
      · simp
      · exact split_noslash s c hc
    · rw [if_neg h] at hc
      cases h1 : split s with
      | nil => exact absurd h1 (split_ne_nil s)
      | cons x xs =>
        rw [h1] at hc
        rcases List.mem_cons.1 hc with rfl | hc
        · have := split_noslash s x (by rw [h1]; simp)
          simp only [List.mem_cons, not_or]
          exact ⟨fun he => h he.symm, this⟩
        · exact split_noslash s c (by rw [h1]; simp [hc])

theorem walk_append (cur a b : List Text) : walk cur (a ++ b) = walk (walk cur a) b := by
  simp [walk, List.foldl_append]

theorem walk_clean : ∀ (cs cur : List Text), (∀ c ∈ cs, c ≠ [] ∧ '/' ∉ c ∧ c ≠ ['.'] ∧ c ≠ ['.', '.']) → walk cur cs = cur ++ cs
  | [], cur, _ => by simp [walk]
  | c :: cs, cur, h => by
    obtain ⟨h1, -, h2, h3⟩ := h c (by simp)
    have : walk cur (c :: cs) = walk (cur ++ [c]) cs := by simp [walk, h1, h2, h3]
    rw [this, walk_clean cs _ fun x hx => h x (List.mem_cons_of_mem _ hx)]
    simp

theorem walk_noslash : ∀ (cs cur : List Text), (∀ c ∈ cs, '/' ∉ c) → (∀ c ∈ cur, '/' ∉ c) → ∀ c ∈ walk cur cs, '/' ∉ c
  | [], cur, _, h => h
  | c :: cs, cur, h, hcur => by
    have : walk cur (c :: cs) =
      walk (if c = [] ∨ c = ['.'] then cur else if c = ['.', '.'] then cur.dropLast else cur ++ [c]) cs := rfl
    rw [this]
    refine walk_noslash cs _ (fun x hx => h x (List.mem_cons_of_mem _ hx)) ?_
    split
    · exact hcur
    · split
      · exact fun x hx => hcur x (List.dropLast_subset _ hx)
      · intro x hx
        rcases List.mem_append.1 hx with hx | hx
        · exact hcur x hx
        · rw [List.mem_singleton.1 hx]; exact h c (by simp)

theorem resolve_nil (cur cs : List Text) : resolve [] cur cs = walk cur cs := rfl

theorem commonPrefix_iff : ∀ a b : Text, commonPrefix a b = a ↔ a <+: b
  | [], b => by simp [commonPrefix]
  | a :: as, [] => by simp [commonPrefix]
  | a :: as, b :: bs => by
    rw [commonPrefix]
    by_cases h : a = b
    · rw [if_pos h, List.cons_prefix_cons, List.cons.injEq, commonPrefix_iff as bs]
      simp [h]
    · rw [if_neg h, List.cons_prefix_cons]
      simp [h]

theorem slash_prefix_slash : ∀ {a p x y : Text}, '/' ∉ a → '/' ∉ p → (a ++ '/' :: x <+: p ++ '/' :: y ↔ a = p ∧ x <+: y)
  | [], [], x, y, _, _ => by simp [List.cons_prefix_cons]
  | [], c :: p, x, y, _, hp => by
    simp only [List.nil_append, List.cons_append, List.cons_prefix_cons]
    constructor
    · rintro ⟨rfl, -⟩; simp at hp
    · rintro ⟨h, -⟩; cases h
  | c :: a, [], x, y, ha, _ => by
    simp only [List.nil_append, List.cons_append, List.cons_prefix_cons]
    constructor
    · rintro ⟨rfl, -⟩; simp at ha
    · rintro ⟨h, -⟩; cases h
  | c :: a, d :: p, x, y, ha, hp => by
    simp only [List.mem_cons, not_or] at ha hp
    simp only [List.cons_append, List.cons_prefix_cons, slash_prefix_slash ha.2 hp.2, List.cons.injEq, and_assoc]

theorem prefix_slash : ∀ {a p y : Text}, '/' ∉ a → (a <+: p ++ '/' :: y ↔ a <+: p)
  | [], p, y, _ => by simp
  | c :: a, [], y, ha => by
    simp only [List.mem_cons, not_or] at ha
    simp only [List.nil_append, List.cons_prefix_cons]
    constructor
    · rintro ⟨h, -⟩; exact absurd h.symm ha.1
    · intro h; simp at h
  | c :: a, d :: p, y, ha => by
    simp only [List.mem_cons, not_or] at ha
    simp only [List.cons_append, List.cons_prefix_cons, prefix_slash ha.2]

/-- When the text of a directory is a prefix of the text of a place. -/
theorem join_prefix : ∀ (dir place : List Text), dir ≠ [] → (∀ c ∈ dir, c ≠ [] ∧ '/' ∉ c) → (∀ c ∈ place, '/' ∉ c) →
    (joinSlash dir <+: joinSlash place ↔
      ∃ parent name extra rest, dir = parent ++ [name] ∧ place = parent ++ (name ++ extra) :: rest)
  | [], _, h, _, _ => absurd rfl h
  | [a], [], _, hd, _ => by
    simp only [joinSlash, List.prefix_nil]
    constructor
    · intro h; exact absurd h (hd a (by simp)).1
    · rintro ⟨p, n, e, r, -, h⟩; simp at h
  | [a], p :: ps, _, hd, _ => by
    have h1 : joinSlash [a] <+: joinSlash (p :: ps) ↔ a <+: p := by
      cases ps with
      | nil => rfl
      | cons q qs => exact prefix_slash (hd a (by simp)).2
    rw [h1]
    constructor
    · rintro ⟨e, rfl⟩; exact ⟨[], a, e, ps, rfl, rfl⟩
    · rintro ⟨par, n, e, r, h2, h3⟩
      cases par with
      | nil =>
        simp only [List.nil_append, List.cons.injEq, and_true] at h2 h3
        rw [h2, h3.1]; exact List.prefix_append _ _
      | cons x xs => simp at h2
  | a :: b :: r, [], _, _, _ => by
    simp only [joinSlash, List.prefix_nil]
    constructor
    · intro h; simp at h
    · rintro ⟨p, n, e, r, -, h⟩; simp at h
  | a :: b :: r, [p], _, _, hp => by
    constructor
    · intro h
      have : '/' ∈ joinSlash [p] := h.subset (by simp [joinSlash])
      exact absurd this (hp p (by simp))
    · rintro ⟨par, n, e, r', h2, h3⟩
      cases par with
      | nil => simp at h2
      | cons x xs => simp at h3
  | a :: b :: r, p :: q :: qs, _, hd, hp => by
    rw [joinSlash, joinSlash, slash_prefix_slash (hd a (by simp)).2 (hp p (by simp)),
      join_prefix (b :: r) (q :: qs) (by simp) (fun c hc => hd c (List.mem_cons_of_mem _ hc))
        (fun c hc => hp c (List.mem_cons_of_mem _ hc))]
    constructor
    · rintro ⟨rfl, par, n, e, rest, h1, h2⟩
      exact ⟨a :: par, n, e, rest, by rw [h1]; rfl, by rw [h2]; rfl⟩
    · rintro ⟨par, n, e, rest, h1, h2⟩
      cases par with
      | nil => simp at h1
      | cons x xs =>
        simp only [List.cons_append, List.cons.injEq] at h1 h2
        exact ⟨h1.1.trans h2.1.symm, xs, n, e, rest, h1.2, h2.2⟩

theorem join_first {dir : List Text} (hd : IsDir dir) : (joinSlash dir).head? ≠ some '/' ∧ joinSlash dir ≠ [] := by
  obtain ⟨h1, h2⟩ := hd
  match dir, h1, h2 with
  | a :: r, _, h2 =>
    obtain ⟨h3, h4, -⟩ := h2 a (by simp)
    cases a with
    | nil => exact absurd rfl h3
    | cons c a =>
      have hc : c ≠ '/' := fun he => h4 (by simp [he])
      cases r <;> simp [joinSlash, hc]

theorem join_last : ∀ {dir : List Text}, IsDir dir → (joinSlash dir).getLast? ≠ some '/'
  | [], h => absurd rfl h.1
  | [a], h => by
    intro he
    exact (h.2 a (by simp)).2.1 (List.mem_of_getLast? he)
  | a :: b :: r, h => by
    have ih := join_last (dir := b :: r) ⟨by simp, fun c hc => h.2 c (List.mem_cons_of_mem _ hc)⟩
    have hne := (join_first (dir := b :: r) ⟨by simp, fun c hc => h.2 c (List.mem_cons_of_mem _ hc)⟩).2
    rw [joinSlash, List.getLast?_append, List.getLast?_cons_of_ne_nil hne]
    cases h1 : (joinSlash (b :: r)).getLast? with
    | none => exact absurd (List.getLast?_eq_none_iff.1 h1) hne
    | some c => rw [h1] at ih; simpa using ih

theorem render_parts {dir : List Text} (hd : IsDir dir) : walk [] (split (render dir)) = dir := by
  have : split (render dir) = [] :: dir := by
    rw [render, split, if_pos rfl, split_join dir hd.1 fun c hc => (hd.2 c hc).2.1]
  rw [this]
  have h1 : walk [] ([] :: dir) = walk [] dir := by simp [walk]
  rw [h1, walk_clean dir [] hd.2]
  rfl

theorem take_slash (x : Char) (l : Text) : ('/' :: x :: l).take 2 = ['/', '/'] ↔ x = '/' := by simp

theorem abspath_render {dir : List Text} (hd : IsDir dir) : abspath (render dir) = render dir := by
  rw [abspath, render_parts hd, if_neg, List.nil_append]
  obtain ⟨h1, h2⟩ := join_first hd
  rw [render]
  cases h3 : joinSlash dir with
  | nil => exact absurd h3 h2
  | cons c l =>
    rw [h3] at h1
    simp only [List.head?_cons, ne_eq, Option.some.injEq] at h1
    rw [take_slash]
    exact fun h => h1 h.1

/-- The place a member without links is written to. -/
def placeOf (dir : List Text) (name : Text) : List Text := walk (if name.head? = some '/' then [] else dir) (split name)

theorem abspath_member {dir : List Text} (hd : IsDir dir) (name : Text) :
    walk [] (split (pathJoin (render dir) name)) = placeOf dir name := by
  rw [pathJoin, placeOf]
  by_cases h : name.head? = some '/'
  · rw [if_pos h, if_pos h]
  · rw [if_neg h, if_neg h, if_neg, split_slash, walk_append, render_parts hd]
    rw [render, List.getLast?_cons_of_ne_nil (join_first hd).2]
    exact join_last hd

theorem placeOf_noslash {dir : List Text} (hd : IsDir dir) (name : Text) : ∀ c ∈ placeOf dir name, '/' ∉ c := by
  refine walk_noslash _ _ (split_noslash name) ?_
  split
  · simp
  · exact fun c hc => (hd.2 c hc).2.1

theorem isWithin_iff {dir : List Text} (hd : IsDir dir) (name : Text) : isWithin (render dir) name = true ↔
    ¬((pathJoin (render dir) name).take 2 = ['/', '/'] ∧ (pathJoin (render dir) name).take 3 ≠ ['/', '/', '/']) ∧
    ∃ parent n extra rest, dir = parent ++ [n] ∧ placeOf dir name = parent ++ (n ++ extra) :: rest := by
  rw [isWithin, decide_eq_true_iff, commonPrefix_iff, abspath_render hd, abspath, abspath_member hd]
  obtain ⟨h1, h2⟩ := join_first hd
  by_cases h : (pathJoin (render dir) name).take 2 = ['/', '/'] ∧ (pathJoin (render dir) name).take 3 ≠ ['/', '/', '/']
  · rw [if_pos h]
    constructor
    · intro h3
      rw [render, render, List.singleton_append, List.cons_prefix_cons] at h3
      cases h4 : joinSlash dir with
      | nil => exact absurd h4 h2
      | cons c l =>
        rw [h4] at h1 h3
        rw [List.cons_prefix_cons] at h3
        simp [h3.2.1] at h1
    · exact fun h3 => absurd h h3.1
  · rw [if_neg h, List.nil_append, render, render, List.cons_prefix_cons]
    rw [join_prefix dir _ hd.1 (fun c hc => ⟨(hd.2 c hc).1, (hd.2 c hc).2.1⟩) (placeOf_noslash hd name)]
    exact ⟨fun h3 => ⟨h, h3.2⟩, fun h3 => ⟨rfl, h3.2⟩⟩

theorem extractAll_plain (dir : List Text) : ∀ ms : List Member, (∀ m ∈ ms, m.link = none) →
    extractAll dir [] ms = ms.map fun m => placeOf dir m.name
  | [], _ => rfl
  | m :: ms, h => by
    simp only [extractAll, h m (List.mem_cons_self ..), List.map_cons]
    rw [extractAll_plain dir ms fun x hx => h x (List.mem_cons_of_mem _ hx), resolve_nil]
    rfl

end DeepGNN.Archive
