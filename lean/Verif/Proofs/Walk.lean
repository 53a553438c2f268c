import Verif.Model.Partition

namespace DeepGNN

theorem dropWhile_head_not {α} {p : α → Bool} {l : List α} {x : α} {xs : List α}
    (h : l.dropWhile p = x :: xs) : p x = false := by
  induction l with
  | nil => simp at h
  | cons a as ih =>
    rw [List.dropWhile_cons] at h
    split at h
    · exact ih h
    · simp only [List.cons.injEq] at h
      obtain ⟨rfl, _⟩ := h
      simpa using ‹¬ p a = true›

theorem filter_sublist_of_imp {α} {p q : α → Bool} (l : List α) (h : ∀ a, p a = true → q a = true) :
    (l.filter p).Sublist (l.filter q) := by
  induction l with
  | nil => simp
  | cons a as ih =>
    by_cases hp : p a
    · rw [List.filter_cons_of_pos hp, List.filter_cons_of_pos (h a hp)]; exact ih.cons_cons a
    · rw [List.filter_cons_of_neg hp]
      by_cases hq : q a
      · rw [List.filter_cons_of_pos hq]; exact ih.cons a
      · rw [List.filter_cons_of_neg hq]; exact ih

theorem walk_nil {α} (key : α → Int) (es : List Int) : walk key ([] : List α) es = [] := by
  rw [walk]

theorem dropWhile_map' {α β} (f : α → β) (p : β → Bool) (l : List α) :
    (l.map f).dropWhile p = (l.dropWhile (p ∘ f)).map f := by
  induction l with
  | nil => rfl
  | cons a as ih =>
    simp only [List.map_cons, List.dropWhile_cons, Function.comp, ih]
    split <;> simp_all [Function.comp_def]

theorem walk_of_nil {α} {key : α → Int} {m : α} {ms : List α} {es : List Int}
    (h : es.dropWhile (fun e => decide (e < key m)) = []) : walk key (m :: ms) es = [] := by
  rw [walk, h]

theorem walk_of_nil2 {α} {key : α → Int} {m : α} {ms : List α} {es : List Int} {e : Int}
    {es' : List Int} (h : es.dropWhile (fun e => decide (e < key m)) = e :: es')
    (h2 : (m :: ms).dropWhile (fun g => decide (e > key g)) = []) : walk key (m :: ms) es = [] := by
  rw [walk, h]; dsimp only
  split
  · rfl
  · rename_i h3; rw [h2] at h3; simp at h3

theorem walk_of_cons {α} {key : α → Int} {m : α} {ms : List α} {es : List Int} {e : Int}
    {es' : List Int} {g : α} {gs : List α}
    (h : es.dropWhile (fun e => decide (e < key m)) = e :: es')
    (h2 : (m :: ms).dropWhile (fun g => decide (e > key g)) = g :: gs) :
    walk key (m :: ms) es =
      if key g = e then g :: walk key gs (e :: es') else walk key gs (e :: es') := by
  rw [walk, h]; dsimp only
  split
  · rename_i h3; rw [h2] at h3; simp at h3
  · rename_i h3; rw [h2] at h3
    simp only [List.cons.injEq] at h3
    obtain ⟨rfl, rfl⟩ := h3; rfl

/-- The walk only looks at the keys. -/
theorem walk_map {α β} (key : β → Int) (f : α → β) (l : List α) (es : List Int) :
    walk key (l.map f) es = (walk (fun a => key (f a)) l es).map f := by
  match l with
  | [] => simp [walk_nil]
  | m :: ms =>
    rw [List.map_cons]
    cases he : es.dropWhile (fun e => decide (e < key (f m))) with
    | nil => rw [walk_of_nil he, walk_of_nil (key := fun a => key (f a)) he]; rfl
    | cons e es' =>
      have hd := dropWhile_map' f (fun g => decide (e > key g)) (m :: ms)
      rw [List.map_cons] at hd
      cases h : (m :: ms).dropWhile (fun a => decide (e > key (f a))) with
      | nil =>
        rw [walk_of_nil2 (key := fun a => key (f a)) he h, walk_of_nil2 he]; rfl
        rw [hd]; exact congrArg (List.map f) h
      | cons g gs =>
        have hlt : gs.length < (m :: ms).length := by
          have := (List.dropWhile_sublist (fun a => decide (e > key (f a))) (l := m :: ms)).length_le
          rw [h] at this; simp at this ⊢; omega
        have ih := walk_map key f gs (e :: es')
        rw [walk_of_cons (key := fun a => key (f a)) he h, walk_of_cons he (g := f g) (gs := gs.map f), ih]
        · split <;> simp
        · rw [hd]; exact congrArg (List.map f) h
termination_by l.length

/-- Soundness: every visited group has a requested type, and groups are visited in order,
at most once. No assumption on the order of types. -/
theorem walk_sublist_filter {α} (key : α → Int) (l : List α) (es : List Int) :
    (walk key l es).Sublist (l.filter (fun a => decide (key a ∈ es))) := by
  match l with
  | [] => simp [walk_nil]
  | m :: ms =>
    rw [walk]
    split
    · simp
    · rename_i e es' he
      split
      · simp
      · rename_i g gs h
        have hsub := List.dropWhile_sublist (fun a => decide (e > key a)) (l := m :: ms)
        rw [h] at hsub
        have hlt : gs.length < (m :: ms).length := by
          have := hsub.length_le; simp at this ⊢; omega
        have ih := walk_sublist_filter key gs (e :: es')
        have hes : ∀ x, x ∈ e :: es' → x ∈ es := fun x hx => by
          have := (List.dropWhile_sublist (fun e => decide (e < key m)) (l := es)).subset
          rw [he] at this; exact this hx
        have ih2 : (walk key gs (e :: es')).Sublist (gs.filter (fun a => decide (key a ∈ es))) := by
          refine ih.trans ?_
          exact filter_sublist_of_imp gs (fun a ha => by
            simp only [decide_eq_true_eq] at ha ⊢; exact hes _ ha)
        refine List.Sublist.trans ?_ (hsub.filter (fun a => decide (key a ∈ es)))
        split
        · rename_i hk
          rw [List.filter_cons_of_pos]
          · exact ih2.cons_cons _
          · simp only [decide_eq_true_eq, hk]; exact hes e (by simp)
        · exact ih2.trans ((List.sublist_cons_self _ _).filter _)
termination_by l.length

/-- A group is not visited only if the walk stopped looking at it: if some requested type
lies strictly between two consecutive stored types, and the larger one is requested, then
the smaller one is requested too. -/
def NoGap {α} (key : α → Int) (l : List α) (es : List Int) : Prop :=
  ∀ a x y b, l = a ++ x :: y :: b → key y ∈ es → (∃ e ∈ es, key x < e ∧ e < key y) → key x ∈ es

theorem dropWhile_eq_nil' {α} {p : α → Bool} {l : List α} (h : l.dropWhile p = []) :
    ∀ x ∈ l, p x = true := by
  induction l with
  | nil => simp
  | cons a as ih =>
    rw [List.dropWhile_cons] at h
    split at h
    · intro x hx
      rcases List.mem_cons.1 hx with rfl | hx
      · assumption
      · exact ih h x hx
    · simp at h

theorem mem_takeWhile_imp' {α} {p : α → Bool} {l : List α} :
    ∀ x ∈ l.takeWhile p, p x = true := by
  induction l with
  | nil => simp
  | cons a as ih =>
    rw [List.takeWhile_cons]
    split
    · intro x hx
      rcases List.mem_cons.1 hx with rfl | hx
      · assumption
      · exact ih x hx
    · simp

/-- Completeness under `NoGap` for sorted inputs. -/
theorem walk_eq_filter {α} (key : α → Int) (l : List α) (es : List Int)
    (hl : l.Pairwise (fun a b => key a < key b)) (hes : es.Pairwise (· < ·))
    (hgap : NoGap key l es) :
    walk key l es = l.filter (fun a => decide (key a ∈ es)) := by
  match l with
  | [] => simp [walk_nil]
  | m :: ms =>
    have hsplit := List.takeWhile_append_dropWhile (p := fun e => decide (e < key m)) (l := es)
    have htake : ∀ x ∈ es.takeWhile (fun e => decide (e < key m)), x < key m := fun x hx => by
      simpa using mem_takeWhile_imp' x hx
    have hm : ∀ a ∈ ms, key m < key a := (List.pairwise_cons.1 hl).1
    cases he : es.dropWhile (fun e => decide (e < key m)) with
    | nil =>
      rw [walk_of_nil he]; symm
      rw [List.filter_eq_nil_iff]
      intro a ha
      simp only [decide_eq_true_eq]
      intro hmem
      have h1 : key a < key m := by simpa using dropWhile_eq_nil' he _ hmem
      rcases List.mem_cons.1 ha with rfl | ha
      · omega
      · have := hm a ha; omega
    | cons e es' =>
      rw [he] at hsplit
      have hge : key m ≤ e := by simpa using dropWhile_head_not he
      have hes1 : (e :: es').Pairwise (· < ·) := by
        rw [← hsplit] at hes; exact (List.pairwise_append.1 hes).2.1
      -- a stored type is requested iff it is among the remaining requested types
      have hiff : ∀ k, key m ≤ k → (k ∈ es ↔ k ∈ e :: es') := fun k hk => by
        rw [← hsplit, List.mem_append]
        constructor
        · rintro (h | h)
          · have := htake k h; omega
          · exact h
        · exact Or.inr
      have hbelow : ∀ k, key m ≤ k → k < e → k ∉ es := fun k hk hke hmem => by
        rw [hiff k hk] at hmem
        rcases List.mem_cons.1 hmem with rfl | hmem
        · omega
        · have := (List.pairwise_cons.1 hes1).1 k hmem; omega
      have hgem : ∀ a ∈ m :: ms, key m ≤ key a := fun a ha => by
        rcases List.mem_cons.1 ha with rfl | ha
        · omega
        · exact Int.le_of_lt (hm a ha)
      have hsplit2 := List.takeWhile_append_dropWhile (p := fun g => decide (e > key g)) (l := m :: ms)
      have htake2 : ∀ x ∈ (m :: ms).takeWhile (fun g => decide (e > key g)), key x < e :=
        fun x hx => by simpa using mem_takeWhile_imp' x hx
      cases h : (m :: ms).dropWhile (fun g => decide (e > key g)) with
      | nil =>
        rw [walk_of_nil2 he h]; symm
        rw [List.filter_eq_nil_iff]
        intro a ha
        simp only [decide_eq_true_eq]
        exact hbelow _ (hgem a ha) (by simpa using dropWhile_eq_nil' h _ ha)
      | cons g gs =>
        rw [h] at hsplit2
        have hgg : e ≤ key g := by simpa using dropWhile_head_not h
        generalize hT : (m :: ms).takeWhile (fun g => decide (e > key g)) = T at hsplit2 htake2
        have hlt : gs.length < (m :: ms).length := by
          rw [← hsplit2]; simp; omega
        rw [walk_of_cons he h]
        have hl2 := hl
        rw [← hsplit2] at hl2 hgem hgap ⊢
        have hgs : (g :: gs).Pairwise (fun a b => key a < key b) := (List.pairwise_append.1 hl2).2.1
        have ih := walk_eq_filter key gs (e :: es') (List.pairwise_cons.1 hgs).2 hes1 (by
          intro a x y b hab hy ⟨d, hd, hxd, hdy⟩
          have hx : x ∈ T ++ g :: gs := by simp [hab]
          have hy' : y ∈ T ++ g :: gs := by simp [hab]
          rw [← hiff _ (hgem x hx)]
          refine hgap (T ++ g :: a) x y b (by simp [hab]) ((hiff _ (hgem y hy')).2 hy) ⟨d, ?_, hxd, hdy⟩
          exact (hiff d (by have := hgem x hx; omega)).2 hd)
        have hfs : gs.filter (fun a => decide (key a ∈ es)) =
            gs.filter (fun a => decide (key a ∈ e :: es')) := by
          apply List.filter_congr
          intro a ha
          have := hiff (key a) (hgem a (by simp [ha]))
          simp only [this]
        have hTn : T.filter (fun a => decide (key a ∈ es)) = [] := by
          rw [List.filter_eq_nil_iff]
          intro a ha
          simp only [decide_eq_true_eq]
          exact hbelow _ (hgem a (by simp [ha])) (htake2 a ha)
        rw [List.filter_append, hTn, List.nil_append]
        split
        · rename_i hk
          rw [List.filter_cons_of_pos (by
            simp only [decide_eq_true_eq]; rw [hiff _ (hgem g (by simp)), hk]; simp), ih, hfs]
        · rename_i hk
          rw [List.filter_cons_of_neg, ih, hfs]
          simp only [decide_eq_true_eq]
          intro hmem
          -- `g` is requested but was skipped: its predecessor is not requested, contradiction
          rcases List.eq_nil_or_concat T with hT0 | ⟨T', x, hT'⟩
          · subst hT0
            simp only [List.nil_append, List.cons.injEq] at hsplit2
            obtain ⟨rfl, -⟩ := hsplit2
            rw [hiff _ (Int.le_refl _)] at hmem
            rcases List.mem_cons.1 hmem with h3 | h3
            · exact hk h3
            · have := (List.pairwise_cons.1 hes1).1 _ h3; omega
          · have hxT : x ∈ T := by simp [hT']
            have hxe := htake2 x hxT
            refine hbelow (key x) (hgem x (by simp [hxT])) hxe ?_
            refine hgap T' x g gs (by simp [hT']) hmem ⟨e, ?_, hxe, by omega⟩
            exact (hiff e hge).2 (by simp)
termination_by l.length

end DeepGNN
