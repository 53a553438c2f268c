import Verif.Spec.Mooc
import Verif.Proofs.TemporalFeature

/-
Lemmas for C97.
-/

namespace DeepGNN.Mooc

/-- The order of the sorted file. -/
def Le (a b : Interaction) : Prop :=
  a.user < b.user ∨ (a.user = b.user ∧ (a.item < b.item ∨ (a.item = b.item ∧ a.time ≤ b.time)))

theorem before_iff (a b : Interaction) : a.before b = true ↔
    (a.user < b.user ∨ (a.user = b.user ∧ (a.item < b.item ∨ (a.item = b.item ∧ a.time < b.time)))) := by
  simp [Interaction.before]

theorem insertRow_perm (x : Interaction) (l : List Interaction) : (insertRow x l).Perm (x :: l) := by
  induction l with
  | nil => exact .refl _
  | cons y l ih =>
    rw [insertRow]
    split
    · exact .refl _
    · exact (ih.cons y).trans (.swap _ _ _)

theorem insertRow_sorted (x : Interaction) (l : List Interaction) (h : l.Pairwise Le) : (insertRow x l).Pairwise Le := by
  induction l with
  | nil => simp [insertRow]
  | cons y l ih =>
    rw [List.pairwise_cons] at h
    rw [insertRow]
    split
    · rename_i hb
      rw [before_iff] at hb
      rw [List.pairwise_cons]
      refine ⟨fun z hz => ?_, List.pairwise_cons.2 h⟩
      rcases List.mem_cons.1 hz with hz | hz
      · subst hz; unfold Le; omega
      · have := h.1 z hz
        unfold Le at this ⊢; omega
    · rename_i hb
      rw [before_iff] at hb
      rw [List.pairwise_cons]
      refine ⟨fun z hz => ?_, ih h.2⟩
      rcases List.mem_cons.1 ((insertRow_perm x l).mem_iff.1 hz) with hz | hz
      · subst hz; unfold Le; omega
      · exact h.1 z hz

theorem sortRows_spec (rows : List Interaction) : (sortRows rows).Perm rows ∧ (sortRows rows).Pairwise Le := by
  have key : ∀ (l acc : List Interaction), acc.Pairwise Le →
      (l.foldl (fun acc x => insertRow x acc) acc).Perm (l ++ acc) ∧ (l.foldl (fun acc x => insertRow x acc) acc).Pairwise Le := by
    intro l
    induction l with
    | nil => exact fun acc h => ⟨.refl _, h⟩
    | cons x l ih =>
      intro acc h
      obtain ⟨h1, h2⟩ := ih (insertRow x acc) (insertRow_sorted x acc h)
      refine ⟨?_, h2⟩
      refine h1.trans (((insertRow_perm x acc).append_left l).trans ?_)
      exact List.perm_middle
  have := key rows [] .nil
  rw [List.append_nil] at this
  exact this

/-- The edge of a non-empty history. -/
def edgeOf (src dst : Nat) (F : List (Int × Bytes)) : Rec :=
  ⟨src, (dst : Int) + maxSrc, 0, 1, some (F.map (·.1)).head!, some (-1), [some (serializeSorted F)]⟩

theorem edgeRec_eq {F : List (Int × Bytes)} (h : F ≠ []) (src dst : Nat) : edgeRec src dst F = some (edgeOf src dst F) := by
  cases F with
  | nil => exact absurd rfl h
  | cons f F => rfl

/-- The loop after the first row. -/
def go (s d : Nat) (F : List (Int × Bytes)) : List Interaction → List Rec
  | [] => [edgeOf s d F]
  | r :: rows =>
    if r.user ≠ s then nodeRec r.user :: go r.user r.item (F ++ [((r.time : Int), r.value)]) rows
    else if r.item ≠ d then edgeOf s d F :: go s r.item [((r.time : Int), r.value)] rows
    else go s d (F ++ [((r.time : Int), r.value)]) rows

theorem loop_eq : ∀ (rows : List Interaction) (s d : Nat) (F : List (Int × Bytes)) (last : Interaction), F ≠ [] → last.item = d →
    loop ⟨s, d, F⟩ (some last) rows = some (go s d F rows)
  | [], s, d, F, last, hF, hl => by
    rw [loop, Option.bind_some, hl, edgeRec_eq hF]
    rfl
  | r :: rows, s, d, F, last, hF, hl => by
    have hd : ¬ ((d : Int) = -1) := by omega
    rw [loop, go]
    by_cases hu : r.user = s
    · by_cases hi : r.item = d
      · have hs : step ⟨s, d, F⟩ r = some ([], ⟨s, d, F ++ [((r.time : Int), r.value)]⟩) := by
          simp [step, hd, hu, hi]
        rw [hs, Option.bind_some, if_neg (by simp [hu]), if_neg (by simp [hi]), loop_eq rows s d _ r (by simp) hi]
        simp
      · have hi' : ¬ ((r.item : Int) = (d : Int)) := by omega
        have hs : step ⟨s, d, F⟩ r = some ([edgeOf s d F], ⟨s, r.item, [((r.time : Int), r.value)]⟩) := by
          simp [step, hd, hu, hi', hF, edgeRec_eq hF]
        rw [hs, Option.bind_some, if_neg (by simp [hu]), if_pos hi, loop_eq rows s r.item _ r (by simp) rfl]
        simp
    · have hu' : ¬ ((r.user : Int) = (s : Int)) := by omega
      have hs : step ⟨s, d, F⟩ r = some ([nodeRec r.user], ⟨r.user, r.item, F ++ [((r.time : Int), r.value)]⟩) := by
        simp [step, hd, hu']
      rw [hs, Option.bind_some, if_pos hu, loop_eq rows r.user r.item _ r (by simp) rfl]
      simp

/-- The records of a non-empty sorted file. -/
theorem loop_cons (r : Interaction) (rows : List Interaction) :
    loop {} none (r :: rows) = some (nodeRec r.user :: go r.user r.item [((r.time : Int), r.value)] rows) := by
  have hu : ¬ ((r.user : Int) = -1) := by omega
  have hs : step {} r = some ([nodeRec r.user], ⟨r.user, r.item, [((r.time : Int), r.value)]⟩) := by
    simp [step, hu]
  rw [loop, hs, Option.bind_some, loop_eq rows r.user r.item _ r (by simp) rfl]
  simp

/-! ### Numbers of edges -/

/-- How often the key changes along a list. -/
def changes {β : Type} [DecidableEq β] : β → List β → Nat
  | _, [] => 0
  | a, b :: l => (if b = a then 0 else 1) + changes b l

theorem eraseDups_changes {β : Type} [BEq β] [LawfulBEq β] [DecidableEq β] {R : β → β → Prop} (hanti : ∀ a b, R a b → R b a → a = b) :
    ∀ (l : List β) (a : β), (a :: l).Pairwise R → (a :: l).eraseDups.length = 1 + changes a l
  | [], a, _ => by simp [changes, List.eraseDups_cons]
  | b :: l, a, h => by
    rw [List.pairwise_cons] at h
    by_cases hb : b = a
    · subst hb
      have e : (b :: b :: l).eraseDups = (b :: l).eraseDups := by
        rw [List.eraseDups_cons, List.eraseDups_cons, List.filter_cons_of_neg (by simp)]
      rw [e, eraseDups_changes hanti l b h.2, changes, if_pos rfl, Nat.zero_add]
    · have e : (b :: l).filter (fun x => !x == a) = b :: l := by
        rw [List.filter_eq_self]
        intro x hx
        have hxa : x ≠ a := by
          intro hxa
          rcases List.mem_cons.1 hx with hxb | hxl
          · exact hb (hxb ▸ hxa)
          · have h1 := (List.pairwise_cons.1 h.2).1 x hxl
            have h2 := h.1 b List.mem_cons_self
            rw [hxa] at h1
            exact hb (hanti _ _ h1 h2)
        simp [hxa]
      rw [List.eraseDups_cons, e, List.length_cons, eraseDups_changes hanti l b h.2, changes, if_neg hb]
      omega

theorem eraseDups_distinct {β : Type} [BEq β] [LawfulBEq β] : ∀ (n : Nat) (l : List β), l.length ≤ n → l.eraseDups.Nodup
  | _, [], _ => by simp
  | 0, a :: l, h => by simp at h
  | n + 1, a :: l, h => by
    rw [List.eraseDups_cons, List.nodup_cons]
    refine ⟨?_, eraseDups_distinct n _ ?_⟩
    · rw [List.mem_eraseDups]
      simp
    · have := List.length_filter_le (fun b => !b == a) l
      simp only [List.length_cons] at h
      omega

theorem eraseDups_length_perm {β : Type} [BEq β] [LawfulBEq β] {a b : List β} (h : a.Perm b) : a.eraseDups.length = b.eraseDups.length := by
  refine List.Perm.length_eq ((List.perm_ext_iff_of_nodup (eraseDups_distinct _ a (Nat.le_refl _)) (eraseDups_distinct _ b (Nat.le_refl _))).2 ?_)
  intro x
  rw [List.mem_eraseDups, List.mem_eraseDups, h.mem_iff]

theorem go_count : ∀ (rows : List Interaction) (s d : Nat) (F : List (Int × Bytes)),
    ((go s d F rows).filter fun x => decide (x.dst ≠ -1)).length + changes s (rows.map (·.user)) =
      changes (s, d) (rows.map fun r => (r.user, r.item)) + 1
  | [], s, d, F => by
    have : ¬ ((d : Int) + (maxSrc : Int) = -1) := by omega
    simp [go, changes, edgeOf, this]
  | r :: rows, s, d, F => by
    rw [go]
    by_cases hu : r.user = s
    · by_cases hi : r.item = d
      · have := go_count rows s d (F ++ [((r.time : Int), r.value)])
        rw [if_neg (by simp [hu]), if_neg (by simp [hi])]
        simp only [List.map_cons, changes, hu, hi, if_true, Nat.zero_add]
        exact this
      · have := go_count rows s r.item [((r.time : Int), r.value)]
        have hd : ¬ ((d : Int) + (maxSrc : Int) = -1) := by omega
        rw [if_neg (by simp [hu]), if_pos hi, List.filter_cons_of_pos (by simp [edgeOf, hd])]
        simp only [List.map_cons, changes, hu, if_true, Nat.zero_add, Prod.mk.injEq, hi, and_false, if_false, List.length_cons]
        omega
    · have := go_count rows r.user r.item (F ++ [((r.time : Int), r.value)])
      rw [if_pos hu, List.filter_cons_of_neg (by simp [nodeRec])]
      simp only [List.map_cons, changes, Prod.mk.injEq, hu, false_and, if_false]
      omega

/-! ### One user -/

/-- Histories by item. -/
def histOf (rows : List Interaction) (x : Nat) : List (Int × Bytes) := (rows.filter fun r => r.item = x).map fun r => ((r.time : Int), r.value)

theorem histOf_cons (r : Interaction) (rows : List Interaction) (x : Nat) :
    histOf (r :: rows) x = (if r.item = x then [((r.time : Int), r.value)] else []) ++ histOf rows x := by
  unfold histOf
  by_cases h : r.item = x <;> simp [h]

theorem go_user (u : Nat) : ∀ (rows : List Interaction) (d : Nat) (F : List (Int × Bytes)), F ≠ [] → (∀ r ∈ rows, r.user = u) →
    (∀ r ∈ rows, d ≤ r.item) → rows.Pairwise Le →
    ∃ groups : List (Nat × List (Int × Bytes)), go u d F rows = groups.map (fun g => edgeOf u g.1 g.2) ∧
      (groups.map (·.1)).Pairwise (· < ·) ∧ (∀ g ∈ groups, d ≤ g.1 ∧ g.2 ≠ [] ∧ g.2 = (if g.1 = d then F else []) ++ histOf rows g.1) ∧
      ∀ x, x ∈ groups.map (·.1) ↔ x = d ∨ ∃ r ∈ rows, r.item = x
  | [], d, F, hF, _, _, _ => ⟨[(d, F)], rfl, by simp, by simp [histOf, hF], by simp⟩
  | r :: rows, d, F, hF, hu, hd, hs => by
    rw [List.pairwise_cons] at hs
    have hru := hu r List.mem_cons_self
    have hrd := hd r List.mem_cons_self
    have hle : ∀ x ∈ rows, r.item ≤ x.item := by
      intro x hx
      have h1 := hs.1 x hx
      have h2 := hu x (List.mem_cons_of_mem _ hx)
      unfold Le at h1
      omega
    rw [go, if_neg (by simp [hru])]
    by_cases hi : r.item = d
    · rw [if_neg (by simp [hi])]
      obtain ⟨groups, h1, h2, h3, h4⟩ := go_user u rows d (F ++ [((r.time : Int), r.value)]) (by simp)
        (fun x hx => hu x (List.mem_cons_of_mem _ hx)) (fun x hx => hi ▸ hle x hx) hs.2
      refine ⟨groups, h1, h2, fun g hg => ?_, fun x => ?_⟩
      · obtain ⟨a, b, c⟩ := h3 g hg
        refine ⟨a, b, ?_⟩
        rw [c, histOf_cons, hi]
        by_cases hgd : g.1 = d
        · rw [hgd]; simp
        · simp [hgd, Ne.symm hgd]
      · rw [h4]
        constructor
        · rintro (h | ⟨y, hy, h⟩)
          · exact Or.inl h
          · exact Or.inr ⟨y, List.mem_cons_of_mem _ hy, h⟩
        · rintro (h | ⟨y, hy, h⟩)
          · exact Or.inl h
          · rcases List.mem_cons.1 hy with hy | hy
            · left; rw [← h, hy, hi]
            · exact Or.inr ⟨y, hy, h⟩
    · rw [if_pos hi]
      obtain ⟨groups, h1, h2, h3, h4⟩ := go_user u rows r.item [((r.time : Int), r.value)] (by simp)
        (fun x hx => hu x (List.mem_cons_of_mem _ hx)) hle hs.2
      have hnil : histOf (r :: rows) d = [] := by
        unfold histOf
        rw [List.map_eq_nil_iff, List.filter_eq_nil_iff]
        intro x hx
        rcases List.mem_cons.1 hx with hx | hx
        · subst hx; simpa using hi
        · have := hle x hx
          simp; omega
      refine ⟨(d, F) :: groups, by rw [h1]; rfl, ?_, ?_, fun x => ?_⟩
      · rw [List.map_cons, List.pairwise_cons]
        refine ⟨fun x hx => ?_, h2⟩
        obtain ⟨g, hg, rfl⟩ := List.mem_map.1 hx
        have := (h3 g hg).1
        simp only
        omega
      · intro g hg
        rcases List.mem_cons.1 hg with hg | hg
        · subst hg
          simp only [if_true]
          exact ⟨Nat.le_refl _, hF, by rw [hnil, List.append_nil]⟩
        · obtain ⟨a, b, c⟩ := h3 g hg
          refine ⟨by omega, b, ?_⟩
          rw [c, histOf_cons, if_neg (show ¬ g.1 = d by omega)]
          by_cases hgr : g.1 = r.item
          · rw [hgr]; simp
          · simp [hgr, Ne.symm hgr]
      · rw [List.map_cons, List.mem_cons, h4]
        constructor
        · rintro (h | h | ⟨y, hy, h⟩)
          · exact Or.inl h
          · exact Or.inr ⟨r, List.mem_cons_self, h.symm⟩
          · exact Or.inr ⟨y, List.mem_cons_of_mem _ hy, h⟩
        · rintro (h | ⟨y, hy, h⟩)
          · exact Or.inl h
          · rcases List.mem_cons.1 hy with hy | hy
            · right; left; rw [← h, hy]
            · exact Or.inr (Or.inr ⟨y, hy, h⟩)

theorem insertHistory_last : ∀ (acc : List (Int × Bytes)) (x : Int × Bytes), (∀ y ∈ acc, y.1 ≤ x.1) → insertHistory x acc = acc ++ [x]
  | [], _, _ => rfl
  | y :: acc, x, h => by
    have := h y List.mem_cons_self
    rw [insertHistory, if_neg (by omega), insertHistory_last acc x (fun z hz => h z (List.mem_cons_of_mem _ hz))]
    rfl

theorem sortHistory_id {l : List (Int × Bytes)} (h : l.Pairwise fun a b => a.1 ≤ b.1) : sortHistory l = l := by
  have key : ∀ (l acc : List (Int × Bytes)), (acc ++ l).Pairwise (fun a b => a.1 ≤ b.1) → l.foldl (fun acc x => insertHistory x acc) acc = acc ++ l := by
    intro l
    induction l with
    | nil => intro acc _; simp
    | cons x l ih =>
      intro acc h
      rw [List.foldl_cons, insertHistory_last acc x, ih]
      · simp
      · simpa using h
      · intro y hy
        exact (List.pairwise_append.1 h).2.2 y hy x List.mem_cons_self
  have := key l [] (by simpa using h)
  rw [List.nil_append] at this
  exact this

end DeepGNN.Mooc
