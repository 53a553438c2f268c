import Verif.Spec.Download
import Verif.Proofs.Uploader

namespace DeepGNN.Download

open Spec

theorem matches_iff (x : Pattern) (n : Name) : x.matches n = true ↔ ∃ mid, n = x.pre ++ mid ++ x.suf := by
  unfold Pattern.matches
  simp only [Bool.and_eq_true, decide_eq_true_eq, List.isPrefixOf_iff_prefix, List.isSuffixOf_iff_suffix]
  constructor
  · rintro ⟨⟨⟨a, ha⟩, ⟨b, hb⟩⟩, hl⟩
    have h1 : x.pre ++ a = b ++ x.suf := by rw [ha, hb]
    rcases List.append_eq_append_iff.1 h1 with ⟨c, h2, h3⟩ | ⟨c, h2, h3⟩
    · exact ⟨c, by rw [← ha, h3]; simp⟩
    · have h4 := congrArg List.length h1
      have h5 := congrArg List.length h2
      have h6 := congrArg List.length ha
      simp only [List.length_append] at h4 h5 h6
      have : c = [] := List.eq_nil_of_length_eq_zero (by omega)
      subst this
      exact ⟨[], by simp at h2 h3; rw [← ha, ← h3]; simp⟩
  · rintro ⟨mid, rfl⟩
    refine ⟨⟨⟨mid ++ x.suf, by simp⟩, ⟨x.pre ++ mid, by simp⟩⟩, by simp⟩

/-! Names of distinct partitions are distinct. -/

theorem num_digits (p : Nat) : ∀ c ∈ num p, c.isDigit = true := fun _ hc =>
  Nat.isDigit_of_mem_toDigits (by decide) (by decide) hc

theorem num_ne (p : Nat) : num p ≠ [] := by
  intro h
  have := Nat.length_toDigits_pos (b := 10) (n := p)
  unfold num at h
  rw [h] at this
  simp at this

theorem takeWhile_digits (l r : Name) (h : ∀ c ∈ l, c.isDigit = true) :
    (l ++ '_' :: r).takeWhile Char.isDigit = l := by
  induction l with
  | nil => rfl
  | cons a l ih =>
    have ha := h a (by simp)
    simp only [List.cons_append, List.takeWhile_cons, ha, if_true]
    rw [ih fun c hc => h c (by simp [hc])]

theorem dropWhile_nondigits (l r : Name) (h : ∀ c ∈ l, c.isDigit = false) :
    (l ++ r).dropWhile (fun c => !c.isDigit) = r.dropWhile (fun c => !c.isDigit) := by
  induction l with
  | nil => rfl
  | cons a l ih =>
    have ha := h a (by simp)
    simp only [List.cons_append, List.dropWhile_cons, ha, Bool.not_false, if_true]
    exact ih fun c hc => h c (by simp [hc])

theorem digits_after (pre l r : Name) (hpre : ∀ c ∈ pre, c.isDigit = false) (hl : ∀ c ∈ l, c.isDigit = true)
    (hne : l ≠ []) :
    ((pre ++ (l ++ '_' :: r)).dropWhile (fun c => !c.isDigit)).takeWhile Char.isDigit = l := by
  rw [dropWhile_nondigits _ _ hpre]
  cases l with
  | nil => exact absurd rfl hne
  | cons a l =>
    have ha := hl a (by simp)
    rw [List.cons_append, List.dropWhile_cons]
    simp only [ha, Bool.not_true]
    have := takeWhile_digits (a :: l) r hl
    simpa using this

/-- Names that start with a partition number. -/
def Prefixed (p : Nat) (n : Name) : Prop :=
  (∃ pre r, (∀ c ∈ pre, c.isDigit = false) ∧ n = pre ++ (num p ++ '_' :: r)) ∧ n.getLast? ≠ some 's'

/-- Names that end with a partition number. -/
def Suffixed (p : Nat) (n : Name) : Prop := ∃ r, n = r ++ ('_' :: num p ++ dotAlias)

theorem suffixed_last {p : Nat} {n : Name} (h : Suffixed p n) : n.getLast? = some 's' := by
  obtain ⟨r, rfl⟩ := h
  rw [List.getLast?_append, List.getLast?_append]
  rfl

theorem prefixed_inj {p q : Nat} {n : Name} (h : Prefixed p n) (h' : Prefixed q n) : p = q := by
  obtain ⟨⟨pre, r, h1, h2⟩, -⟩ := h
  obtain ⟨⟨pre', r', h1', h2'⟩, -⟩ := h'
  have a := digits_after pre (num p) r h1 (num_digits p) (num_ne p)
  have b := digits_after pre' (num q) r' h1' (num_digits q) (num_ne q)
  rw [← h2] at a
  rw [← h2'] at b
  exact Uploader.digits_inj (a.symm.trans b)

theorem suffixed_inj {p q : Nat} {n : Name} (h : Suffixed p n) (h' : Suffixed q n) : p = q := by
  obtain ⟨r, h⟩ := h
  obtain ⟨r', h'⟩ := h'
  have hd : ∀ c ∈ dotAlias.reverse, c.isDigit = false := by decide
  have hn : ∀ p, ∀ c ∈ (num p).reverse, c.isDigit = true := fun p c hc => num_digits p c (List.mem_reverse.1 hc)
  have a := digits_after dotAlias.reverse (num p).reverse r.reverse hd (hn p) (by simpa using num_ne p)
  have b := digits_after dotAlias.reverse (num q).reverse r'.reverse hd (hn q) (by simpa using num_ne q)
  have e1 : dotAlias.reverse ++ ((num p).reverse ++ '_' :: r.reverse) = n.reverse := by rw [h]; simp
  have e2 : dotAlias.reverse ++ ((num q).reverse ++ '_' :: r'.reverse) = n.reverse := by rw [h']; simp
  rw [e1] at a
  rw [e2] at b
  exact Uploader.digits_inj (List.reverse_inj.1 (a.symm.trans b))

theorem prefixed_of {p : Nat} {x : Pattern} {n : Name} (pre suf : Name) (hx : x = ⟨pre ++ num p ++ ['_'], suf⟩)
    (hpre : ∀ c ∈ pre, c.isDigit = false) (hs : suf.getLast? ≠ some 's') (hn : suf ≠ [])
    (h : x.matches n = true) : Prefixed p n := by
  subst hx
  obtain ⟨mid, rfl⟩ := (matches_iff _ n).1 h
  refine ⟨⟨pre, mid ++ suf, hpre, by simp⟩, ?_⟩
  rw [List.getLast?_append]
  cases hl : suf.getLast? with
  | none => exact absurd (List.getLast?_eq_none_iff.1 hl) hn
  | some c => rw [hl] at hs; simpa using hs

/-- A name asked for partition `p` carries its number; it is none of the metadata. -/
theorem owner {c : Info} {p : Nat} {x : Pattern} (hx : x ∈ patterns c p) {n : Name} (h : x.matches n = true) :
    (Prefixed p n ∨ Suffixed p n) ∧ n ≠ metaName := by
  have e : x = ⟨node ++ num p ++ ['_'], dotMap⟩ ∨ x = ⟨neighbors ++ num p ++ ['_'], dotIndex⟩ ∨
      x = ⟨node ++ num p ++ ['_'], dotIndex⟩ ∨ x = ⟨edge ++ num p ++ ['_'], dotIndex⟩ ∨
      x = ⟨node ++ features ++ num p ++ ['_'], dotData⟩ ∨ x = ⟨node ++ features ++ num p ++ ['_'], dotIndex⟩ ∨
      x = ⟨edge ++ features ++ num p ++ ['_'], dotData⟩ ∨ x = ⟨edge ++ features ++ num p ++ ['_'], dotIndex⟩ ∨
      x = ⟨node, ['_'] ++ num p ++ dotAlias⟩ ∨ x = ⟨edge, ['_'] ++ num p ++ dotAlias⟩ := by
    unfold patterns at hx
    simp only [List.mem_append, List.mem_cons, List.not_mem_nil, or_false] at hx
    rcases hx with ((h | h) | h) | h
    · rcases h with h | h | h | h <;> simp [h]
    · split at h
      · simp only [List.mem_cons, List.not_mem_nil, or_false] at h
        rcases h with h | h <;> simp [h]
      · simp at h
    · split at h
      · simp only [List.mem_cons, List.not_mem_nil, or_false] at h
        rcases h with h | h <;> simp [h]
      · simp at h
    · rcases h with h | h <;> simp [h]
  have hm : ∀ {n : Name} (b : Char) (q : Name), x.pre = b :: q → b ≠ 'm' → x.matches n = true → n ≠ metaName := by
    intro n b q hq hb h he
    obtain ⟨mid, rfl⟩ := (matches_iff x n).1 h
    rw [hq] at he
    simp only [List.cons_append, metaName, List.cons.injEq] at he
    exact hb he.1
  rcases e with e | e | e | e | e | e | e | e | e | e
  · exact ⟨.inl (prefixed_of node _ e (by decide) (by decide) (by decide) h),
      hm 'n' _ (by rw [e]; rfl) (by decide) h⟩
  · exact ⟨.inl (prefixed_of neighbors _ e (by decide) (by decide) (by decide) h),
      hm 'n' _ (by rw [e]; rfl) (by decide) h⟩
  · exact ⟨.inl (prefixed_of node _ e (by decide) (by decide) (by decide) h),
      hm 'n' _ (by rw [e]; rfl) (by decide) h⟩
  · exact ⟨.inl (prefixed_of edge _ e (by decide) (by decide) (by decide) h),
      hm 'e' _ (by rw [e]; rfl) (by decide) h⟩
  · exact ⟨.inl (prefixed_of (node ++ features) _ e (by decide) (by decide) (by decide) h),
      hm 'n' _ (by rw [e]; rfl) (by decide) h⟩
  · exact ⟨.inl (prefixed_of (node ++ features) _ e (by decide) (by decide) (by decide) h),
      hm 'n' _ (by rw [e]; rfl) (by decide) h⟩
  · exact ⟨.inl (prefixed_of (edge ++ features) _ e (by decide) (by decide) (by decide) h),
      hm 'e' _ (by rw [e]; rfl) (by decide) h⟩
  · exact ⟨.inl (prefixed_of (edge ++ features) _ e (by decide) (by decide) (by decide) h),
      hm 'e' _ (by rw [e]; rfl) (by decide) h⟩
  · refine ⟨.inr ?_, hm 'n' _ (by rw [e]; rfl) (by decide) h⟩
    obtain ⟨mid, rfl⟩ := (matches_iff x n).1 h
    exact ⟨node ++ mid, by rw [e]; simp⟩
  · refine ⟨.inr ?_, hm 'e' _ (by rw [e]; rfl) (by decide) h⟩
    obtain ⟨mid, rfl⟩ := (matches_iff x n).1 h
    exact ⟨edge ++ mid, by rw [e]; simp⟩

theorem owner_inj {c : Info} {p q : Nat} {x y : Pattern} (hx : x ∈ patterns c p) (hy : y ∈ patterns c q) {n : Name}
    (h : x.matches n = true) (h' : y.matches n = true) : p = q := by
  rcases (owner hx h).1 with a | a <;> rcases (owner hy h').1 with b | b
  · exact prefixed_inj a b
  · exact absurd (suffixed_last b) a.2
  · exact absurd (suffixed_last a) b.2
  · exact suffixed_inj a b

/-! Files written to a directory. -/

theorem mem_put {α} {d : Dir α} {f g : Name × α} : g ∈ put d f ↔ g = f ∨ (g ∈ d ∧ g.1 ≠ f.1) := by
  unfold put
  simp only [List.mem_append, List.mem_filter, List.mem_singleton, bne_iff_ne, ne_eq]
  exact or_comm

theorem distinct_put {α} {d : Dir α} (f : Name × α) (h : DistinctNames d) : DistinctNames (put d f) := by
  unfold DistinctNames put at *
  rw [List.map_append, List.nodup_append]
  refine ⟨?_, by simp, ?_⟩
  · exact List.Pairwise.sublist (List.Sublist.map _ List.filter_sublist) h
  · intro a ha b hb
    obtain ⟨x, hx, rfl⟩ := List.mem_map.1 ha
    have := (List.mem_filter.1 hx).2
    simp only [List.map_cons, List.map_nil, List.mem_singleton] at hb
    subst hb
    simpa using this

theorem distinct_fold {α} (l : Dir α) : ∀ {d : Dir α}, DistinctNames d → DistinctNames (l.foldl put d) := by
  induction l with
  | nil => intro d h; exact h
  | cons f l ih => intro d h; exact ih (distinct_put f h)

theorem mem_fold {α} (l : Dir α) (hl : ∀ f ∈ l, ∀ g ∈ l, f.1 = g.1 → f = g) : ∀ {d : Dir α} {f : Name × α},
    f ∈ l.foldl put d ↔ f ∈ l ∨ (f ∈ d ∧ ∀ g ∈ l, g.1 ≠ f.1) := by
  induction l with
  | nil => intro d f; simp
  | cons a l ih =>
    intro d f
    rw [List.foldl_cons, ih fun f hf g hg => hl f (by simp [hf]) g (by simp [hg]), mem_put]
    constructor
    · rintro (h | ⟨h | h, h'⟩)
      · exact .inl (by simp [h])
      · exact .inl (by simp [h])
      · refine .inr ⟨h.1, fun g hg => ?_⟩
        rcases List.mem_cons.1 hg with rfl | hg
        · exact fun e => h.2 e.symm
        · exact h' g hg
    · rintro (h | ⟨h, h'⟩)
      · rcases List.mem_cons.1 h with rfl | h
        · by_cases hf : ∃ g ∈ l, g.1 = f.1
          · obtain ⟨g, hg, he⟩ := hf
            rw [← hl g (by simp [hg]) f (by simp) he]
            exact .inl hg
          · exact .inr ⟨.inl rfl, fun g hg e => hf ⟨g, hg, e⟩⟩
        · exact .inl h
      · exact .inr ⟨.inr ⟨h, fun e => h' a (by simp) e.symm⟩, fun g hg => h' g (by simp [hg])⟩

theorem distinct_mem {α} {d : Dir α} (h : DistinctNames d) {f g : Name × α} (hf : f ∈ d) (hg : g ∈ d) (e : f.1 = g.1) :
    f = g := by
  unfold DistinctNames at h
  induction d with
  | nil => cases hf
  | cons a d ih =>
    rw [List.map_cons, List.nodup_cons] at h
    rcases List.mem_cons.1 hf with h1 | h1 <;> rcases List.mem_cons.1 hg with h2 | h2
    · rw [h1, h2]
    · exact absurd (List.mem_map.2 ⟨g, h2, by rw [← e, h1]⟩) h.1
    · exact absurd (List.mem_map.2 ⟨f, h1, by rw [e, h2]⟩) h.1
    · exact ih h.2 h1 h2

theorem read_iff {α} {d : Dir α} (h : DistinctNames d) (n : Name) (v : α) : read d n = some v ↔ (n, v) ∈ d := by
  unfold read
  constructor
  · intro e
    cases hf : d.find? (fun x => x.1 == n) with
    | none => rw [hf] at e; cases e
    | some y =>
      rw [hf] at e
      have h1 := List.find?_some hf
      have h2 := List.mem_of_find?_eq_some hf
      simp only [beq_iff_eq] at h1
      simp only [Option.map_some, Option.some.injEq] at e
      rw [← h1, ← e]
      exact h2
  · intro e
    cases hf : d.find? (fun x => x.1 == n) with
    | none =>
      have := List.find?_eq_none.1 hf _ e
      simp at this
    | some y =>
      have h1 := List.find?_some hf
      have h2 := List.mem_of_find?_eq_some hf
      simp only [beq_iff_eq] at h1
      rw [distinct_mem h h2 e h1]
      rfl

theorem read_congr {α} {d d' : Dir α} (h : DistinctNames d) (h' : DistinctNames d') (n : Name)
    (e : ∀ v, (n, v) ∈ d ↔ (n, v) ∈ d') : read d n = read d' n := by
  apply Option.ext
  intro v
  rw [read_iff h, read_iff h', e]

/-! Sorting. -/

theorem le_total : ∀ a b : Name, leName a b = true ∨ leName b a = true
  | [], _ => .inl rfl
  | _ :: _, [] => .inr rfl
  | a :: as, b :: bs => by
    unfold leName
    by_cases h : a = b
    · subst h; simpa using le_total as bs
    · have h' : ¬ b = a := fun e => h e.symm
      simp only [h, h', if_false, decide_eq_true_eq]
      have : a.toNat ≠ b.toNat := fun e => h (Char.toNat_inj.1 e)
      omega

theorem le_antisymm : ∀ a b : Name, leName a b = true → leName b a = true → a = b
  | [], [], _, _ => rfl
  | [], _ :: _, _, h => by cases h
  | _ :: _, [], h, _ => by cases h
  | a :: as, b :: bs, h, h' => by
    unfold leName at h h'
    by_cases e : a = b
    · subst e
      simp only [if_true] at h h'
      rw [le_antisymm as bs h h']
    · have e' : ¬ b = a := fun x => e x.symm
      simp only [e, e', if_false, decide_eq_true_eq] at h h'
      omega

theorem le_trans : ∀ a b c : Name, leName a b = true → leName b c = true → leName a c = true
  | [], _, _, _, _ => rfl
  | _ :: _, [], _, h, _ => by cases h
  | _ :: _, _ :: _, [], _, h => by cases h
  | a :: as, b :: bs, c :: cs, h, h' => by
    unfold leName at h h' ⊢
    by_cases e : a = b
    · subst e
      simp only [if_true] at h
      by_cases e' : a = c
      · subst e'
        simp only [if_true] at h' ⊢
        exact le_trans as bs cs h h'
      · simpa [e'] using h'
    · simp only [e, if_false, decide_eq_true_eq] at h
      by_cases e' : b = c
      · subst e'
        simpa [e] using h
      · simp only [e', if_false, decide_eq_true_eq] at h'
        have : ¬ a = c := fun x => by subst x; omega
        simp only [this, if_false, decide_eq_true_eq]
        omega

theorem insertName_perm (a : Name) : ∀ l, (insertName a l).Perm (a :: l)
  | [] => .refl _
  | b :: l => by
    unfold insertName
    split
    · exact .refl _
    · exact ((insertName_perm a l).cons b).trans (.swap a b l)

theorem sortNames_perm : ∀ l, (sortNames l).Perm l
  | [] => .refl _
  | a :: l => (insertName_perm a _).trans ((sortNames_perm l).cons a)

theorem insertName_sorted (a : Name) : ∀ l, l.Pairwise (fun x y => leName x y = true) →
    (insertName a l).Pairwise fun x y => leName x y = true
  | [], _ => by simp [insertName]
  | b :: l, h => by
    unfold insertName
    rw [List.pairwise_cons] at h
    split
    · next hab =>
      rw [List.pairwise_cons, List.pairwise_cons]
      refine ⟨fun y hy => ?_, h⟩
      rcases List.mem_cons.1 hy with rfl | hy
      · exact hab
      · exact le_trans _ _ _ hab (h.1 y hy)
    · next hab =>
      rw [List.pairwise_cons]
      refine ⟨fun y hy => ?_, insertName_sorted a l h.2⟩
      rcases List.mem_cons.1 ((insertName_perm a l).mem_iff.1 hy) with rfl | hy
      · rcases le_total y b with e | e
        · exact absurd e hab
        · exact e
      · exact h.1 y hy

theorem sortNames_sorted : ∀ l, (sortNames l).Pairwise fun x y => leName x y = true
  | [] => by simp [sortNames]
  | a :: l => insertName_sorted a _ (sortNames_sorted l)

theorem sortNames_congr {l l' : List Name} (h : l.Perm l') : sortNames l = sortNames l' :=
  List.Perm.eq_of_pairwise (le := fun x y => leName x y = true) (fun a b _ _ => le_antisymm a b)
    (sortNames_sorted l) (sortNames_sorted l')
    (((sortNames_perm l).trans h).trans (sortNames_perm l').symm)

/-! Suffixes. -/

/-- The name of a file with neighbours. -/
def neighborsFile (q : Nat) (i : Name) : Name := neighbors ++ num q ++ ['_'] ++ i ++ dotIndex

theorem dropWhile_dot (l r : Name) (h : '.' ∉ l) : (l ++ '.' :: r).dropWhile (· != '.') = '.' :: r := by
  induction l with
  | nil => simp
  | cons a l ih =>
    have ha : a ≠ '.' := fun e => h (by simp [e])
    rw [List.cons_append, List.dropWhile_cons]
    simp only [bne_iff_ne, ne_eq, ha, not_false_eq_true, if_true]
    exact ih fun e => h (by simp [e])

theorem stem_append (n : Name) (hn : n ≠ []) (e : Name) (he : '.' ∉ e) : stem (n ++ '.' :: e) = n := by
  unfold stem
  have : (n ++ '.' :: e).reverse = e.reverse ++ '.' :: n.reverse := by simp
  rw [this, dropWhile_dot _ _ (by simpa using he)]
  cases hr : n.reverse with
  | nil => exact absurd (List.reverse_eq_nil_iff.1 hr) hn
  | cons a l =>
    show (a :: l).reverse = n
    rw [← hr, List.reverse_reverse]

theorem stoi_num (q : Nat) (r : Name) : stoi (num q ++ '_' :: r) = some q := by
  unfold stoi
  rw [takeWhile_digits _ _ (num_digits q)]
  have : (num q).isEmpty = false := by
    cases h : num q with
    | nil => exact absurd h (num_ne q)
    | cons => rfl
  simp only [this]
  show some _ = _
  rw [show num q = Nat.toDigits 10 q from rfl, Nat.ofDigitChars_ten_toDigits]

theorem suffix_file (p q : Nat) (i : Name) :
    suffix p (neighborsFile q i) = some (if q = p then some (num q ++ '_' :: i) else none) := by
  have e : neighborsFile q i = (neighbors ++ (num q ++ '_' :: i)) ++ '.' :: ['i', 'n', 'd', 'e', 'x'] := by
    simp [neighborsFile, dotIndex]
  unfold suffix
  have hs : stem (neighborsFile q i) = neighbors ++ (num q ++ '_' :: i) := by
    rw [e]
    exact stem_append _ (by simp [neighbors]) ['i', 'n', 'd', 'e', 'x'] (by decide)
  simp only [hs]
  have h1 : ¬ ((neighbors ++ (num q ++ '_' :: i)).length ≤ neighbors.length ∨
      neighbors.isPrefixOf (neighbors ++ (num q ++ '_' :: i)) = false) := by
    rintro (h | h)
    · simp at h
      omega
    · have : neighbors.isPrefixOf (neighbors ++ (num q ++ '_' :: i)) = true :=
        List.isPrefixOf_iff_prefix.2 ⟨_, rfl⟩
      rw [this] at h
      cases h
  rw [if_neg h1, List.drop_left, stoi_num]
  rfl

theorem stem_prefix (n : Name) : stem n <+: n := by
  unfold stem
  split
  · exact List.prefix_rfl
  · exact List.prefix_rfl
  · next a r _ h =>
    have : (a :: r) <:+ n.reverse := by
      rw [← h]
      exact List.dropWhile_suffix _
    have h2 : r <:+ n.reverse := List.IsSuffix.trans (List.suffix_cons a r) this
    have := List.reverse_prefix.2 h2
    simpa using this

theorem suffix_other (p : Nat) (n : Name) (h : ¬ ∃ r, n = neighbors ++ r) : suffix p n = some none := by
  unfold suffix
  simp only
  rw [if_pos]
  right
  cases hb : neighbors.isPrefixOf (stem n) with
  | false => rfl
  | true =>
    obtain ⟨r, hr⟩ := (List.isPrefixOf_iff_prefix.1 hb).trans (stem_prefix n)
    exact absurd ⟨r, hr.symm⟩ h

/-- Suffix of a file as a total function. -/
def suffixOf (p : Nat) (n : Name) : Option Name := (suffix p n).getD none

theorem mapM_total {β γ : Type} (f : β → Option γ) (g : β → γ) : ∀ (l : List β), (∀ x ∈ l, f x = some (g x)) →
    l.mapM f = some (l.map g)
  | [], _ => rfl
  | a :: l, h => by
    rw [List.mapM_cons, h a (by simp), mapM_total f g l fun x hx => h x (by simp [hx])]
    rfl

theorem suffix_total {α} {d : Dir α} (h : ConvertedNames d) (p : Nat) (f : Name × α) (hf : f ∈ d) :
    suffix p f.1 = some (suffixOf p f.1) := by
  unfold suffixOf
  by_cases hn : ∃ r, f.1 = neighbors ++ r
  · obtain ⟨q, i, -, e⟩ := h f hf hn
    have : f.1 = neighborsFile q i := e
    rw [this, suffix_file]
    rfl
  · rw [suffix_other p _ hn]
    rfl

theorem suffixes_eq {α} {d : Dir α} (h : ConvertedNames d) (p : Nat) :
    suffixes d p = some (sortNames (d.filterMap fun f => suffixOf p f.1)) := by
  unfold suffixes
  rw [mapM_total _ _ d (suffix_total h p)]
  simp only [Option.map_some, List.filterMap_map]
  rfl

theorem suffixOf_eq {α} {d : Dir α} (h : ConvertedNames d) {p : Nat} {f : Name × α} (hf : f ∈ d) {s : Name}
    (e : suffixOf p f.1 = some s) : ∃ i, '.' ∉ i ∧ f.1 = neighborsFile p i ∧ s = num p ++ '_' :: i := by
  unfold suffixOf at e
  by_cases hn : ∃ r, f.1 = neighbors ++ r
  · obtain ⟨q, i, hi, he⟩ := h f hf hn
    have he : f.1 = neighborsFile q i := he
    rw [he, suffix_file] at e
    by_cases hq : q = p
    · subst hq
      simp only [if_true, Option.getD_some, Option.some.injEq] at e
      exact ⟨i, hi, he, e.symm⟩
    · simp [hq] at e
  · rw [suffix_other p _ hn] at e
    cases e

theorem nodup_suffixes {α} {d : Dir α} (hd : DistinctNames d) (h : ConvertedNames d) (p : Nat) :
    (d.filterMap fun f => suffixOf p f.1).Nodup := by
  unfold DistinctNames at hd
  unfold List.Nodup at hd ⊢
  rw [List.pairwise_map] at hd
  rw [List.pairwise_filterMap]
  refine List.Pairwise.imp_of_mem ?_ hd
  intro f g hf hg hne s hs t ht e
  subst e
  obtain ⟨i, -, h1, h2⟩ := suffixOf_eq h hf hs
  obtain ⟨j, -, h3, h4⟩ := suffixOf_eq h hg ht
  apply hne
  rw [h2] at h4
  have := List.append_cancel_left h4
  simp only [List.cons.injEq, true_and] at this
  rw [h1, h3, this]

/-- Files opened for a partition without timestamps are asked for. -/
theorem names_asked (c : Info) (p : Nat) (i n : Name) (hn : n ∈ names c (num p ++ '_' :: i)) (hw : c.watermark < 0) :
    ∃ x ∈ patterns c p, x.matches n = true := by
  have key : ∀ (pre suf : Name), ⟨pre ++ num p ++ ['_'], suf⟩ ∈ patterns c p → n = pre ++ (num p ++ '_' :: i) ++ suf →
      ∃ x ∈ patterns c p, x.matches n = true := by
    intro pre suf hm e
    exact ⟨_, hm, (matches_iff _ _).2 ⟨i, by rw [e]; simp⟩⟩
  unfold names at hn
  have hw' : ¬ 0 ≤ c.watermark := by omega
  simp only [hw', if_false, List.mem_append, List.mem_cons, List.not_mem_nil, or_false] at hn
  have a1 : ∀ suf, suf = dotMap ∨ suf = dotIndex → (⟨node ++ num p ++ ['_'], suf⟩ : Pattern) ∈ patterns c p := by
    intro suf h
    unfold patterns
    rcases h with rfl | rfl <;> simp
  rcases hn with ((((h | h) | h) | h) | h)
  · rcases h with h | h
    · exact key _ _ (a1 _ (.inl rfl)) h
    · exact key _ _ (a1 _ (.inr rfl)) h
  · split at h
    · cases h
    · next h0 =>
      have : 0 < c.nodeFeatures := by omega
      simp only [List.mem_cons, List.not_mem_nil, or_false] at h
      rcases h with h | h
      · exact key (node ++ features) _ (by unfold patterns; simp [this]) h
      · exact key (node ++ features) _ (by unfold patterns; simp [this]) h
  · rcases h with h | h
    · exact key _ _ (by unfold patterns; simp) h
    · exact key _ _ (by unfold patterns; simp) h
  · split at h
    · next h0 =>
      simp only [List.mem_cons, List.not_mem_nil, or_false] at h
      rcases h with h | h
      · exact key (edge ++ features) _ (by unfold patterns; simp [h0]) h
      · exact key (edge ++ features) _ (by unfold patterns; simp [h0]) h
    · cases h
  · exact key _ _ (a1 _ (.inl rfl)) h

theorem alias_asked (c : Info) (p tp : Nat) : (∃ x ∈ patterns c p, x.matches (nodeAlias tp p) = true) ∧
    ∃ x ∈ patterns c p, x.matches (edgeAlias tp p) = true := by
  constructor
  · exact ⟨⟨node, ['_'] ++ num p ++ dotAlias⟩, by unfold patterns; simp,
      (matches_iff _ _).2 ⟨num tp, by simp [nodeAlias]⟩⟩
  · exact ⟨⟨edge, ['_'] ++ num p ++ dotAlias⟩, by unfold patterns; simp,
      (matches_iff _ _).2 ⟨num tp, by simp [edgeAlias]⟩⟩

theorem neighbors_asked (c : Info) (p : Nat) (i : Name) : ∃ x ∈ patterns c p, x.matches (neighborsFile p i) = true :=
  ⟨⟨neighbors ++ num p ++ ['_'], dotIndex⟩, by unfold patterns; simp,
    (matches_iff _ _).2 ⟨i, by simp [neighborsFile]⟩⟩

end DeepGNN.Download
