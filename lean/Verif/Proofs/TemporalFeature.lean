import Verif.Proofs.EdgeFeatures
import Verif.Proofs.CountAt

namespace DeepGNN
open Spec (IsLatest LatestValue HistOk HasHist)

/-! Sorting of histories -/

theorem mem_insertHistory (x y : Int × Bytes) (l : List (Int × Bytes)) :
    y ∈ insertHistory x l ↔ y = x ∨ y ∈ l := by
  induction l with
  | nil => simp [insertHistory]
  | cons a l ih =>
    simp only [insertHistory]
    split
    · simp
    · simp only [List.mem_cons, ih]
      constructor
      · rintro (h | h | h) <;> simp [h]
      · rintro (h | h | h) <;> simp [h]

theorem insertHistory_perm (x : Int × Bytes) (l : List (Int × Bytes)) : (insertHistory x l).Perm (x :: l) := by
  induction l with
  | nil => exact List.Perm.refl _
  | cons a l ih =>
    simp only [insertHistory]
    split
    · exact List.Perm.refl _
    · exact (ih.cons a).trans (List.Perm.swap x a l)

theorem insertHistory_sorted (x : Int × Bytes) (l : List (Int × Bytes)) (h : l.Pairwise (fun a b => a.1 ≤ b.1)) :
    (insertHistory x l).Pairwise (fun a b => a.1 ≤ b.1) := by
  induction l with
  | nil => simp [insertHistory]
  | cons a l ih =>
    simp only [insertHistory]
    have ⟨h1, h2⟩ := List.pairwise_cons.1 h
    split
    · rename_i hx
      refine List.pairwise_cons.2 ⟨?_, h⟩
      intro b hb
      rcases List.mem_cons.1 hb with rfl | hb
      · omega
      · have := h1 b hb; omega
    · refine List.pairwise_cons.2 ⟨?_, ih h2⟩
      intro b hb
      rw [mem_insertHistory] at hb
      rcases hb with rfl | hb
      · omega
      · exact h1 b hb

theorem sortHistory_aux (l acc : List (Int × Bytes)) (h : acc.Pairwise (fun a b => a.1 ≤ b.1)) :
    (l.foldl (fun acc x => insertHistory x acc) acc).Pairwise (fun a b => a.1 ≤ b.1) ∧
    (l.foldl (fun acc x => insertHistory x acc) acc).Perm (l ++ acc) := by
  induction l generalizing acc with
  | nil => exact ⟨h, List.Perm.refl _⟩
  | cons x l ih =>
    obtain ⟨h1, h2⟩ := ih (insertHistory x acc) (insertHistory_sorted x acc h)
    refine ⟨h1, h2.trans ?_⟩
    exact ((insertHistory_perm x acc).append_left l).trans List.perm_middle

theorem sortHistory_sorted (l : List (Int × Bytes)) : (sortHistory l).Pairwise (fun a b => a.1 ≤ b.1) :=
  (sortHistory_aux l [] List.Pairwise.nil).1

theorem sortHistory_perm (l : List (Int × Bytes)) : (sortHistory l).Perm l := by
  have := (sortHistory_aux l [] List.Pairwise.nil).2
  rw [List.append_nil] at this
  exact this

/-! The serialised form -/

theorem valueOffs_eq (a : Nat) (l : List Nat) : valueOffs a l = starts a l := by
  induction l generalizing a with
  | nil => rfl
  | cons x l ih => simp [valueOffs, starts, ih]

/-- The table at the start of the serialised history. -/
def histTable (l : List (Int × Bytes)) : List Int :=
  l.map (·.1) ++ (offsFrom (4 + 8 * (2 * l.length + 1)) (l.map (·.2.length))).map Int.ofNat

theorem length_histTable (l : List (Int × Bytes)) : (histTable l).length = 2 * l.length + 1 := by
  simp [histTable]; omega

theorem mem_histTable {l : List (Int × Bytes)} (h : HistOk l) : ∀ x ∈ histTable l, 0 ≤ x ∧ x < 2 ^ 63 := by
  intro x hx
  simp only [histTable, List.mem_append, List.mem_map] at hx
  rcases hx with ⟨y, hy, rfl⟩ | ⟨n, hn, rfl⟩
  · exact h.times y hy
  · have := h.size
    have hn' : n ≤ 4 + 8 * (2 * l.length + 1) + (l.map (·.2.length)).sum := by
      simp only [offsFrom, List.mem_append, List.mem_singleton] at hn
      rcases hn with hn | hn
      · exact starts_le _ _ _ hn
      · omega
    simp only [Int.ofNat_eq_natCast]
    omega

theorem serializeSorted_eq {l : List (Int × Bytes)} (h : HistOk l) :
    serializeSorted l = leBytes 4 l.length ++ (histTable l).flatMap (fun x => leBytes 8 (x % 2 ^ 64).toNat) ++
      (l.flatMap (·.2) ++ List.replicate 8 0) := by
  simp only [serializeSorted, histTable, valueOffs_eq, List.flatMap_append, List.flatMap_map]
  have h1 : ∀ n ∈ offsFrom (4 + 8 * (2 * l.length + 1)) (l.map (·.2.length)),
      leBytes 8 ((Int.ofNat n) % 2 ^ 64).toNat = leBytes 8 n := by
    intro n hn
    have := (mem_histTable h (Int.ofNat n) (by
      simp only [histTable, List.mem_append, List.mem_map]; exact Or.inr ⟨n, hn, rfl⟩)).2
    simp only [Int.ofNat_eq_natCast] at this ⊢
    congr 1
    omega
  have h2 : (offsFrom (4 + 8 * (2 * l.length + 1)) (l.map (·.2.length))).flatMap
      (fun n => leBytes 8 ((Int.ofNat n) % 2 ^ 64).toNat) =
      (starts (4 + 8 * (2 * l.length + 1)) (l.map (·.2.length))).flatMap (leBytes 8) ++
        leBytes 8 (4 + 8 * (2 * l.length + 1) + (l.map (·.2.length)).sum) := by
    rw [List.flatMap_def, List.map_congr_left h1, ← List.flatMap_def]
    simp [offsFrom]
  rw [h2]
  simp only [List.append_assoc]

theorem table_get_time {l : List (Int × Bytes)} (i : Nat) (hi : i < l.length) :
    (histTable l)[i]? = some l[i].1 := by
  rw [histTable, List.getElem?_append_left (by simpa using hi)]
  simp [List.getElem?_eq_getElem hi]

theorem table_get_off {l : List (Int × Bytes)} (i : Nat) (hi : i ≤ l.length) :
    (histTable l)[l.length + i]? =
      some ((4 + 8 * (2 * l.length + 1) + ((l.map (·.2.length)).take i).sum : Nat) : Int) := by
  rw [histTable, List.getElem?_append_right (by simp)]
  simp only [List.length_map, Nat.add_sub_cancel_left, List.getElem?_map]
  rw [getElem?_offsFrom _ _ _ (by simpa using hi)]
  rfl

theorem flatMap_split {α β} (f : α → List β) (l : List α) (i : Nat) (hi : i < l.length) :
    l.flatMap f = (l.take i).flatMap f ++ (f l[i] ++ (l.drop (i + 1)).flatMap f) := by
  have h : l = l.take i ++ l[i] :: l.drop (i + 1) := by
    rw [← List.drop_eq_getElem_cons hi, List.take_append_drop]
  calc l.flatMap f = (l.take i ++ l[i] :: l.drop (i + 1)).flatMap f := by rw [← h]
    _ = _ := by rw [List.flatMap_append, List.flatMap_cons]

/-- Where the lookup ends up. -/
theorem time_pos {l : List (Int × Bytes)} (hs : l.Pairwise (fun a b => a.1 ≤ b.1)) (hne : l ≠ []) (t : Int) :
    let p := bsearch (fun a => decide (a < t)) (histTable l) 0 l.length
    let pos := if p = l.length then p - 1 else p
    ∃ x, (histTable l)[pos]? = some x ∧
      ((x > t ∧ pos = 0 ∧ ∀ y ∈ l, t < y.1) ∨
       (¬ (x > t ∧ pos = 0) ∧ ∃ q, ∃ hq : q < l.length, (if x > t then pos - 1 else pos) = q ∧
          l[q].1 ≤ t ∧ ∀ y ∈ l, y.1 ≤ t → y.1 ≤ l[q].1)) := by
  intro p pos
  have hlen : 0 < l.length := List.length_pos_iff.2 hne
  obtain ⟨-, h2, h3, h4⟩ := bsearch_spec (fun a => decide (a < t)) (histTable l) 0 l.length
    (by rw [length_histTable]; omega)
  rw [Nat.zero_add] at h2 h4
  have hmono : ∀ i j (hi : i < l.length) (hj : j < l.length), i ≤ j → l[i].1 ≤ l[j].1 := by
    intro i j hi hj hij
    rcases Nat.lt_or_eq_of_le hij with h | h
    · exact List.pairwise_iff_getElem.1 hs i j hi hj h
    · subst h; exact Int.le_refl _
  have hget : ∀ i, (hi : i < l.length) → ∀ a, (histTable l)[i]? = some a → a = l[i].1 := by
    intro i hi a ha
    rw [table_get_time i hi] at ha
    exact (Option.some.inj ha).symm
  change p ≤ l.length at h2
  change p = 0 ∨ ∃ a, (histTable l)[p - 1]? = some a ∧ _ at h3
  change p = l.length ∨ ∃ a, (histTable l)[p]? = some a ∧ _ at h4
  by_cases hp : p = l.length
  · have hpos : pos = l.length - 1 := by simp [pos, hp]
    rw [hpos]
    refine ⟨l[l.length - 1].1, table_get_time _ (by omega), Or.inr ?_⟩
    rcases h3 with h3 | ⟨a, ha, hlt⟩
    · omega
    · rw [hp] at ha
      have := hget _ (by omega) a ha
      subst this
      have hlt : l[l.length - 1].1 < t := by simpa using hlt
      refine ⟨by omega, l.length - 1, by omega, by rw [if_neg (by omega)], by omega, ?_⟩
      intro y hy _
      obtain ⟨j, hj, rfl⟩ := List.mem_iff_getElem.1 hy
      exact hmono j _ hj (by omega) (by omega)
  · have hpos : pos = p := by simp [pos, hp]
    have hplt : p < l.length := by omega
    rw [hpos]
    refine ⟨l[p].1, table_get_time p hplt, ?_⟩
    rcases h4 with h4 | ⟨a, ha, hge⟩
    · omega
    · have := hget _ hplt a ha
      subst this
      have hge : t ≤ l[p].1 := by simpa using hge
      by_cases hgt : l[p].1 > t
      · by_cases hp0 : p = 0
        · left
          refine ⟨hgt, hp0, ?_⟩
          intro y hy
          obtain ⟨j, hj, rfl⟩ := List.mem_iff_getElem.1 hy
          have := hmono p j hplt hj (by omega)
          omega
        · right
          refine ⟨by omega, p - 1, by omega, by rw [if_pos hgt], ?_⟩
          rcases h3 with h3 | ⟨b, hb, hlt⟩
          · omega
          · have := hget _ (by omega) b hb
            subst this
            have hlt : l[p - 1].1 < t := by simpa using hlt
            refine ⟨by omega, ?_⟩
            intro y hy hyt
            obtain ⟨j, hj, rfl⟩ := List.mem_iff_getElem.1 hy
            by_cases hjp : j ≤ p - 1
            · exact hmono j _ hj (by omega) hjp
            · have := hmono p j hplt hj (by omega); omega
      · right
        refine ⟨by omega, p, hplt, by rw [if_neg hgt], by omega, ?_⟩
        intro y _ hyt; omega

theorem readAt_mid (pre a b c post : Bytes) :
    readAt (pre ++ (a ++ b ++ c) ++ post) (pre.length + a.length) b.length = some b := by
  rw [readAt_in _ _ _ _ _ (by simp only [List.length_append]; omega)]
  simp

/-- Lookup in a serialised sorted history stored anywhere in a file. -/
theorem deserialize_sorted {l : List (Int × Bytes)} (h : HistOk l)
    (hs : l.Pairwise (fun a b => a.1 ≤ b.1)) (pre post : Bytes) (t : Int) :
    (deserializeTemporal (pre ++ serializeSorted l ++ post) pre.length t = some (pre.length, 0, -1) ∧
      ∀ y ∈ l, t < y.1) ∨
    ∃ x off, IsLatest l t x ∧
      deserializeTemporal (pre ++ serializeSorted l ++ post) pre.length t = some (off, x.2.length, x.1) ∧
      ∃ pre' post', pre ++ serializeSorted l ++ post = pre' ++ x.2 ++ post' ∧ pre'.length = off ∧ post' ≠ [] := by
  have hser := serializeSorted_eq h
  generalize hT : (histTable l).flatMap (fun x => leBytes 8 (x % 2 ^ 64).toNat) = T at hser
  have hTlen : T.length = 8 * (2 * l.length + 1) := by
    rw [← hT, length_flatMap_const (k := 8) _ _ (by intros; simp), length_histTable]; omega
  have hr1 : readAt (pre ++ serializeSorted l ++ post) pre.length 4 = some (leBytes 4 l.length) := by
    rw [hser, readAt_start _ _ _ _ (by simp only [List.length_append, length_leBytes]; omega)]
    rw [List.append_assoc, List.take_append_of_le_length (by simp), List.take_of_length_le (by simp)]
  have hc : leNat (leBytes 4 l.length) = l.length := by
    rw [leNat_leBytes]; exact Nat.mod_eq_of_lt (by have := h.count; omega)
  have hr2 : readAt (pre ++ serializeSorted l ++ post) (pre.length + 4) (8 * (2 * l.length + 1)) = some T := by
    have := readAt_mid pre (leBytes 4 l.length) T (l.flatMap (·.2) ++ List.replicate 8 0) post
    rw [hTlen] at this
    rw [hser]; simpa using this
  have hidx : (records 8 T).map rdI64 = histTable l := by
    rw [← hT, records_flatMap (by decide) _ _ (by intros; simp), List.map_map]
    conv => rhs; rw [← List.map_id (histTable l)]
    apply List.map_congr_left
    intro x hx
    obtain ⟨h1, h2⟩ := mem_histTable h x hx
    simp only [Function.comp, id]
    exact rdI64_leBytes (by omega) h2
  simp only [deserializeTemporal, hr1, Option.bind_some, hc]
  by_cases hne : l = []
  · left
    subst hne
    simp
  · have hlen : 0 < l.length := List.length_pos_iff.2 hne
    rw [if_neg (by omega), hr2]
    simp only [Option.bind_some, hidx]
    obtain ⟨x, hx, hcase⟩ := time_pos hs hne t
    rw [hx]
    simp only [Option.bind_some]
    rcases hcase with ⟨h1, h2, h3⟩ | ⟨h1, q, hq, h2, h3, h4⟩
    · left
      rw [if_pos ⟨h1, h2⟩]
      exact ⟨rfl, h3⟩
    · right
      rw [if_neg h1, h2, table_get_time q hq]
      simp only [Option.bind_some]
      rw [table_get_off q (by omega), Nat.add_assoc l.length q 1, table_get_off (q + 1) (by omega)]
      simp only [Option.bind_some]
      have htake : ((l.map (·.2.length)).take (q + 1)).sum =
          ((l.map (·.2.length)).take q).sum + l[q].2.length := by
        rw [List.take_succ, List.getElem?_map, List.getElem?_eq_getElem hq]
        simp
      refine ⟨l[q], pre.length + (4 + 8 * (2 * l.length + 1) + ((l.map (·.2.length)).take q).sum),
        ⟨List.getElem_mem hq, h3, h4⟩, ?_, ?_⟩
      · rw [Option.some.injEq, Prod.mk.injEq, Prod.mk.injEq]
        refine ⟨by omega, ?_, rfl⟩
        rw [htake]; omega
      · refine ⟨pre ++ (leBytes 4 l.length ++ T) ++ (l.take q).flatMap (·.2),
          (l.drop (q + 1)).flatMap (·.2) ++ List.replicate 8 0 ++ post, ?_, ?_, by simp⟩
        · rw [hser]
          have h5 := flatMap_split (fun x : Int × Bytes => x.2) l q hq
          rw [h5]
          simp only [List.append_assoc]
        · simp only [List.length_append, length_leBytes, hTlen]
          have h6 : ((l.map (·.2.length)).take q).sum = ((l.take q).flatMap (·.2)).length := by
            simp [List.length_flatMap, List.map_take]
          rw [← h6]
          omega

theorem HistOk.sort {l : List (Int × Bytes)} (h : HistOk l) : HistOk (sortHistory l) := by
  have hp := sortHistory_perm l
  refine ⟨fun x hx => h.times x (hp.mem_iff.1 hx), by rw [hp.length_eq]; exact h.count, ?_⟩
  rw [hp.length_eq, (hp.map (·.2.length)).sum_nat]
  exact h.size

/-- The same for the history as given by the user, in any order; the value is not at the end of the file. -/
theorem deserialize_room {l : List (Int × Bytes)} (h : HistOk l) (pre post : Bytes) (t : Int) :
    (deserializeTemporal (pre ++ serializeTemporal l ++ post) pre.length t = some (pre.length, 0, -1) ∧
      ∀ y ∈ l, t < y.1) ∨
    ∃ x off, IsLatest l t x ∧
      deserializeTemporal (pre ++ serializeTemporal l ++ post) pre.length t = some (off, x.2.length, x.1) ∧
      ∃ pre' post', pre ++ serializeTemporal l ++ post = pre' ++ x.2 ++ post' ∧ pre'.length = off ∧ post' ≠ [] := by
  have hp := sortHistory_perm l
  rcases deserialize_sorted (HistOk.sort h) (sortHistory_sorted l) pre post t with ⟨h1, h2⟩ | ⟨x, off, h1, h2, h3⟩
  · exact Or.inl ⟨h1, fun y hy => h2 y (hp.mem_iff.2 hy)⟩
  · exact Or.inr ⟨x, off, ⟨hp.mem_iff.1 h1.1, h1.2.1, fun y hy => h1.2.2 y (hp.mem_iff.2 hy)⟩, h2, h3⟩

theorem deserialize_serialize {l : List (Int × Bytes)} (h : HistOk l) (pre post : Bytes) (t : Int) :
    (deserializeTemporal (pre ++ serializeTemporal l ++ post) pre.length t = some (pre.length, 0, -1) ∧
      ∀ y ∈ l, t < y.1) ∨
    ∃ x off, IsLatest l t x ∧
      deserializeTemporal (pre ++ serializeTemporal l ++ post) pre.length t = some (off, x.2.length, x.1) ∧
      ∃ pre' post', pre ++ serializeTemporal l ++ post = pre' ++ x.2 ++ post' ∧ pre'.length = off := by
  rcases deserialize_room h pre post t with h1 | ⟨x, off, h1, h2, p, q, h3, h4, -⟩
  · exact Or.inl h1
  · exact Or.inr ⟨x, off, h1, h2, p, q, h3, h4⟩

/-! Queries -/

/-- What a query at `t` has found so far in the histories `H`, for a feature of `size` bytes. -/
def FeatState (H : List (Int × Bytes)) (t : Int) (size : Nat) (s : Int × Bytes) : Prop :=
  (s.1 = -1 ∧ ∀ y ∈ H, t < y.1) ∨ (∃ x, IsLatest H t x ∧ s.1 = x.1 ∧ 0 ≤ x.1 ∧ s.2 = Spec.fit size x.2)

theorem latest_append_left {H K : List (Int × Bytes)} {t : Int} {x : Int × Bytes} (h : IsLatest H t x)
    (hK : ∀ y ∈ K, y.1 ≤ t → y.1 ≤ x.1) : IsLatest (H ++ K) t x := by
  refine ⟨by simp [h.1], h.2.1, ?_⟩
  intro y hy ht
  rcases List.mem_append.1 hy with hy | hy
  · exact h.2.2 y hy ht
  · exact hK y hy ht

theorem latest_append_right {H K : List (Int × Bytes)} {t : Int} {x : Int × Bytes} (h : IsLatest K t x)
    (hH : ∀ y ∈ H, y.1 ≤ t → y.1 ≤ x.1) : IsLatest (H ++ K) t x := by
  refine ⟨by simp [h.1], h.2.1, ?_⟩
  intro y hy ht
  rcases List.mem_append.1 hy with hy | hy
  · exact hH y hy ht
  · exact h.2.2 y hy ht

theorem nodeFeatureStep_at {index data lo hi fl} (h : Owner index data lo hi fl) (f : Nat × Nat) (t : Int)
    {H K : List (Int × Bytes)} (hK : HasHist fl f.1 K) {s : Int × Bytes} (hs : FeatState H t f.2 s) :
    ∃ s', nodeFeatureStep index data lo hi (some t) f s = some s' ∧ FeatState (H ++ K) t f.2 s' := by
  simp only [nodeFeatureStep, settled, decide_eq_true_eq]
  by_cases hset : s.1 = t
  · rw [if_pos hset]
    refine ⟨s, rfl, ?_⟩
    have hpos : ∀ y ∈ K, 0 ≤ y.1 := by
      rcases hK with ⟨-, rfl⟩ | ⟨-, hok⟩
      · simp
      · exact fun y hy => (hok.times y hy).1
    rcases hs with ⟨h1, h2⟩ | ⟨x, hx, h1, h2, h3⟩
    · left
      refine ⟨h1, ?_⟩
      intro y hy
      rcases List.mem_append.1 hy with hy | hy
      · exact h2 y hy
      · have := hpos y hy; omega
    · right
      exact ⟨x, latest_append_left hx (fun y _ ht => by omega), h1, h2, h3⟩
  · rw [if_neg hset]
    rcases hK with ⟨h1, rfl⟩ | ⟨h1, hok⟩
    · rw [h.range_none h1]
      exact ⟨s, rfl, by simpa using hs⟩
    · obtain ⟨pre, post, h2, h3⟩ := h.range_some h1
      simp only [featBytes] at h2 h3
      simp only [h3, Option.bind_some, featValue, h2]
      rcases deserialize_serialize hok pre post t with ⟨h4, h5⟩ | ⟨x, off, h4, h5, pre', post', h6, h7⟩
      · rw [h4]
        simp only [Option.bind_some]
        have hge : s.1 ≥ -1 := by rcases hs with ⟨a, -⟩ | ⟨x, -, a, b, -⟩ <;> omega
        rw [if_pos hge]
        refine ⟨s, rfl, ?_⟩
        rcases hs with ⟨a, b⟩ | ⟨x, a, b⟩
        · left
          refine ⟨a, fun y hy => ?_⟩
          rcases List.mem_append.1 hy with hy | hy
          · exact b y hy
          · exact h5 y hy
        · right
          exact ⟨x, latest_append_left a (fun y hy ht => by have := h5 y hy; omega), b⟩
      · rw [h5]
        simp only [Option.bind_some]
        have hx0 := (hok.times x h4.1).1
        by_cases hge : s.1 ≥ x.1
        · rw [if_pos hge]
          refine ⟨s, rfl, ?_⟩
          rcases hs with ⟨a, b⟩ | ⟨z, a, b, c, d⟩
          · omega
          · right
            exact ⟨z, latest_append_left a (fun y hy ht => by have := h4.2.2 y hy ht; omega), b, c, d⟩
        · rw [if_neg hge, h6, ← h7, copyFeature_eq]
          refine ⟨_, rfl, Or.inr ⟨x, latest_append_right h4 ?_, rfl, hx0, rfl⟩⟩
          intro y hy ht
          rcases hs with ⟨a, b⟩ | ⟨z, a, b, c, d⟩
          · have := b y hy; omega
          · have := a.2.2 y hy ht; omega

theorem stepAll_inv {α β} {step : α → β → Option β} {I J : α → β → Prop} {fs : List α} {ss : List β}
    (hlen : fs.length = ss.length) (hI : ∀ x ∈ fs.zip ss, I x.1 x.2)
    (h : ∀ f ∈ fs, ∀ s, I f s → ∃ s', step f s = some s' ∧ J f s') :
    ∃ ss', stepAll step fs ss = some ss' ∧ fs.length = ss'.length ∧ ∀ x ∈ fs.zip ss', J x.1 x.2 := by
  induction fs generalizing ss with
  | nil => cases ss with
    | nil => exact ⟨[], rfl, rfl, by simp⟩
    | cons s ss => simp at hlen
  | cons f fs ih => cases ss with
    | nil => simp at hlen
    | cons s ss =>
      simp only [List.zip_cons_cons, List.mem_cons, forall_eq_or_imp] at hI
      obtain ⟨s', h1, h2⟩ := h f (by simp) s hI.1
      obtain ⟨ss', h3, h4, h5⟩ := ih (by simpa using hlen) hI.2 (fun f hf => h f (by simp [hf]))
      refine ⟨s' :: ss', by simp [stepAll, h1, h3], by simp [h4], ?_⟩
      simp only [List.zip_cons_cons, List.mem_cons, forall_eq_or_imp]
      exact ⟨h2, h5⟩

variable {C : WeightCodec} {m : Meta} {g : Graph} {items : List Item} {parts : List (List (List Rec))}

/-- Evaluation of a stateful query with an invariant that collects the blocks seen so far. -/
theorem GraphOk.foldEntries_inv {σ} (h : GraphOk C m g items parts) (n : Int)
    (q : σ → Partition × Nat → Option σ) (I : List Blk → σ → Prop)
    (hq : ∀ it ∈ items, ∀ x ∈ it.blks.zipIdx, x.1.id = n → ∀ bs s, I bs s →
      ∃ s', q s (it.part, x.2) = some s' ∧ I (bs ++ [x.1]) s') :
    ∃ es, g.entries n = some es ∧ ∀ bs s, I bs s →
      ∃ s', es.foldlM q s = some s' ∧ I (bs ++ nodeBlks items n) s' := by
  refine ⟨_, (entries_items h.parts_eq h.inv n).1, ?_⟩
  clear h
  simp only [nodeBlks]
  induction items with
  | nil => intro bs s hs; exact ⟨s, rfl, by simpa using hs⟩
  | cons it items ih =>
    intro bs s hs
    rw [List.flatMap_cons, List.flatMap_cons, List.foldlM_append]
    have h1 : ∃ s', ((it.blks.zipIdx.filter (fun x => decide (x.1.id = n))).map
        (fun x => (it.part, x.2))).foldlM q s = some s' ∧
        I (bs ++ it.blks.filter (fun b => b.id = n)) s' := by
      rw [← filter_zipIdx_map_fst _ it.blks 0]
      have hmem : ∀ x ∈ it.blks.zipIdx.filter (fun x => decide (x.1.id = n)),
          x ∈ it.blks.zipIdx ∧ x.1.id = n :=
        fun x hx => ⟨(List.mem_filter.1 hx).1, by simpa using (List.mem_filter.1 hx).2⟩
      generalize it.blks.zipIdx.filter (fun x => decide (x.1.id = n)) = L at hmem
      clear ih
      induction L generalizing s bs with
      | nil => exact ⟨s, rfl, by simpa using hs⟩
      | cons x L ih =>
        obtain ⟨h1, h2⟩ := hmem x (by simp)
        obtain ⟨s', h3, h4⟩ := hq it (by simp) x h1 h2 bs s hs
        obtain ⟨s'', h5, h6⟩ := ih (bs ++ [x.1]) s' h4 (fun y hy => hmem y (by simp [hy]))
        refine ⟨s'', ?_, by simpa using h6⟩
        rw [List.map_cons, List.foldlM_cons, h3]
        exact h5
    obtain ⟨s', h2, h3⟩ := h1
    obtain ⟨s'', h4, h5⟩ := ih (fun it hit => hq it (by simp [hit])) _ s' h3
    refine ⟨s'', ?_, by simpa using h5⟩
    rw [h2]
    exact h4

theorem Blk.rec_of_feats (h : GraphOk C m g items parts) {n : Int} {b : Blk} (hb : b ∈ nodeBlks items n)
    (hne : b.feats ≠ []) : ∃ r ∈ Spec.nodeRecords parts n, r.features = b.feats := by
  have h1 := h.nodeBlks_feats n (fun l => decide (l ≠ [])) (by simp)
  have : b.feats ∈ ((nodeBlks items n).filter (fun b => decide (b.feats ≠ []))).map (·.feats) :=
    List.mem_map.2 ⟨b, List.mem_filter.2 ⟨hb, by simpa using hne⟩, rfl⟩
  rw [h1] at this
  obtain ⟨r, hr, hrf⟩ := List.mem_map.1 this
  exact ⟨r, (List.mem_filter.1 hr).1, hrf⟩

/-- `Graph::GetNodeFeature` at time `t` for one node: `H fid fl` is the history of feature `fid` in a
record with the features `fl`. -/
theorem GraphOk.nodeFeatureAt1 (h : GraphOk C m g items parts)
    (hc : ∀ it ∈ items, it.files.nodeFeatureCount ≤ m.nodeFeatureCount)
    (feats : List (Nat × Nat)) (n t : Int) (H : Nat → List (Option Bytes) → List (Int × Bytes))
    (hH : ∀ f ∈ feats, ∀ r ∈ Spec.nodeRecords parts n, HasHist r.features f.1 (H f.1 r.features))
    (out : Bytes) (hout : out.length = (feats.map (·.2)).sum) :
    ∃ vs : List Bytes, g.nodeFeature1 feats n (some t) out = some (List.zipWith (fun f v => Spec.fit f.2 v) feats vs).flatten ∧
      vs.length = feats.length ∧
      ∀ x ∈ feats.zip vs, LatestValue ((Spec.nodeRecords parts n).flatMap fun r => H x.1.1 r.features) t x.2 := by
  have hHnil : ∀ f ∈ feats, ∀ b ∈ nodeBlks items n, HasHist b.feats f.1 (if b.feats = [] then [] else H f.1 b.feats) := by
    intro f hf b hb
    by_cases hne : b.feats = []
    · left; simp [hne]
    · obtain ⟨r, hr, hrf⟩ := Blk.rec_of_feats h hb hne
      rw [if_neg hne, ← hrf]
      exact hH f hf r hr
  obtain ⟨es, h1, h2⟩ := h.foldEntries_inv (σ := List (Int × Bytes)) n
    (fun (ss : List (Int × Bytes)) (x : Partition × Nat) => x.1.nodeFeature x.2 (some t) feats ss)
    (fun (bs : List Blk) (ss : List (Int × Bytes)) => feats.length = ss.length ∧ ∀ x ∈ feats.zip ss,
      FeatState (bs.flatMap fun (b : Blk) => if b.feats = [] then [] else H x.1.1 b.feats) t x.1.2 x.2) (by
      intro it hit x hx hid bs ss ⟨hl, hss⟩
      have hb : x.1 ∈ nodeBlks items n := by
        rw [List.mem_zipIdx_iff_getElem?] at hx
        exact List.mem_flatMap.2 ⟨it, hit, List.mem_filter.2 ⟨List.mem_of_getElem? hx, by simpa using hid⟩⟩
      by_cases hm : m.nodeFeatureCount = 0
      · obtain ⟨c, -, hsrc⟩ := item_of_src h.src hit
        refine ⟨ss, ?_, hl, ?_⟩
        · rw [Partition.nodeFeature, if_pos ((h.ok it hit).loaded.noNodeFeatures hm)]
        · have := ItemOk.feats_nil (hc it hit) hsrc hx hm
          simpa [this] using hss
      · obtain ⟨lo, hi, e1, e2, ho⟩ := (h.ok it hit).owner hx hm
        rw [Partition.nodeFeature, if_neg (by
          rw [(h.ok it hit).loaded.nodeFeatureIndex hm]; exact offsFrom_ne_nil _ _), e1, e2]
        simp only [Option.bind_some]
        refine stepAll_inv (I := fun f s => FeatState (bs.flatMap fun (b : Blk) =>
            if b.feats = [] then [] else H f.1 b.feats) t f.2 s)
          (J := fun f s => FeatState ((bs ++ [x.1]).flatMap fun (b : Blk) =>
            if b.feats = [] then [] else H f.1 b.feats) t f.2 s) hl hss ?_
        intro f hf s hs
        obtain ⟨s', h3, h4⟩ := nodeFeatureStep_at ho f t (hHnil f hf x.1 hb) hs
        exact ⟨s', h3, by simpa using h4⟩)
  have hunion : ∀ fid, (∀ f, fid = f → True) → ∀ y, y ∈ ((nodeBlks items n).flatMap fun (b : Blk) => if b.feats = [] then [] else H fid b.feats) ↔
      ∃ r ∈ Spec.nodeRecords parts n, r.features ≠ [] ∧ y ∈ H fid r.features := by
    intro fid _ y
    have h3 := h.nodeBlks_feats n (fun l => decide (l ≠ [])) (by simp)
    constructor
    · intro hy
      obtain ⟨b, hb, hy⟩ := List.mem_flatMap.1 hy
      split at hy
      · simp at hy
      · rename_i hne
        obtain ⟨r, hr, hrf⟩ := Blk.rec_of_feats h hb hne
        exact ⟨r, hr, by rw [hrf]; exact hne, by rw [hrf]; exact hy⟩
    · rintro ⟨r, hr, hne, hy⟩
      have : r.features ∈ ((nodeBlks items n).filter (fun b => decide (b.feats ≠ []))).map (·.feats) := by
        rw [h3]; exact List.mem_map.2 ⟨r, List.mem_filter.2 ⟨hr, by simpa using hne⟩, rfl⟩
      obtain ⟨b, hb, hbf⟩ := List.mem_map.1 this
      have hb := (List.mem_filter.1 hb).1
      exact List.mem_flatMap.2 ⟨b, hb, by rw [if_neg (by rw [hbf]; exact hne), hbf]; exact hy⟩
  have hunion2 : ∀ f ∈ feats, ∀ y, y ∈ ((nodeBlks items n).flatMap fun (b : Blk) => if b.feats = [] then [] else H f.1 b.feats) ↔
      y ∈ ((Spec.nodeRecords parts n).flatMap fun r => H f.1 r.features) := by
    intro f hf y
    rw [hunion f.1 (fun _ _ => trivial), List.mem_flatMap]
    constructor
    · rintro ⟨r, hr, -, hy⟩; exact ⟨r, hr, hy⟩
    · rintro ⟨r, hr, hy⟩
      refine ⟨r, hr, ?_, hy⟩
      intro hnil
      rcases hH f hf r hr with ⟨-, h5⟩ | ⟨h5, -⟩
      · rw [h5] at hy; simp at hy
      · rw [hnil] at h5; simp at h5
  have hfit : ∀ f ∈ feats, ∀ s, FeatState ((nodeBlks items n).flatMap fun (b : Blk) => if b.feats = [] then [] else H f.1 b.feats) t f.2 s →
      ∃ v, (if s.1 ≥ 0 then s.2 else List.replicate f.2 0) = Spec.fit f.2 v ∧
        LatestValue ((Spec.nodeRecords parts n).flatMap fun r => H f.1 r.features) t v := by
    intro f hf s hs
    rcases hs with ⟨a, b⟩ | ⟨x, a, b, c, d⟩
    · refine ⟨[], ?_, Or.inr ⟨rfl, fun y hy => b y ((hunion2 f hf y).2 hy)⟩⟩
      rw [if_neg (by omega)]; simp [Spec.fit]
    · refine ⟨x.2, ?_, Or.inl ⟨x.1, (hunion2 f hf x).1 a.1, a.2.1, fun y hy => a.2.2 y ((hunion2 f hf y).2 hy)⟩⟩
      rw [if_pos (by omega), d]
  have hvals : ∀ (fs : List (Nat × Nat)) (ss : List (Int × Bytes)), (∀ f ∈ fs, f ∈ feats) → fs.length = ss.length →
      (∀ x ∈ fs.zip ss, FeatState ((nodeBlks items n).flatMap fun (b : Blk) => if b.feats = [] then [] else H x.1.1 b.feats) t x.1.2 x.2) →
      ∃ vs : List Bytes, ((fs.zip ss).flatMap fun x => if x.2.1 ≥ 0 then x.2.2 else List.replicate x.1.2 0) =
          (List.zipWith (fun f v => Spec.fit f.2 v) fs vs).flatten ∧ vs.length = fs.length ∧
        ∀ x ∈ fs.zip vs, LatestValue ((Spec.nodeRecords parts n).flatMap fun r => H x.1.1 r.features) t x.2 := by
    intro fs
    induction fs with
    | nil => intro ss _ _ _; exact ⟨[], rfl, rfl, by simp⟩
    | cons f fs ih =>
      intro ss hsub hl hss
      cases ss with
      | nil => simp at hl
      | cons s ss =>
        simp only [List.zip_cons_cons, List.mem_cons, forall_eq_or_imp] at hss
        obtain ⟨v, hv1, hv2⟩ := hfit f (hsub f (by simp)) s hss.1
        obtain ⟨vs, h3, h4, h5⟩ := ih ss (fun f hf => hsub f (by simp [hf])) (by simpa using hl) hss.2
        refine ⟨v :: vs, ?_, by simp [h4], ?_⟩
        · simp only [List.zip_cons_cons, List.flatMap_cons, List.zipWith_cons_cons, List.flatten_cons, h3, hv1]
        · simp only [List.zip_cons_cons, List.mem_cons, forall_eq_or_imp]
          exact ⟨hv2, h5⟩
  simp only [Graph.nodeFeature1]
  have hinit : feats.length = ((slices (feats.map (·.2)) out).map fun b => ((-1 : Int), b)).length ∧
      ∀ x ∈ feats.zip ((slices (feats.map (·.2)) out).map fun b => ((-1 : Int), b)),
        FeatState (([] : List Blk).flatMap fun (b : Blk) => if b.feats = [] then [] else H x.1.1 b.feats) t x.1.2 x.2 := by
    refine ⟨by simp, ?_⟩
    intro x hx
    left
    have := (List.of_mem_zip hx).2
    obtain ⟨b, -, hb⟩ := List.mem_map.1 this
    exact ⟨by rw [← hb], by simp⟩
  obtain ⟨ss, h3, h4, h5⟩ := h2 [] _ hinit
  rw [List.nil_append] at h5
  cases hm : g.nodeMap n with
  | none =>
    have hno := ((entries_items h.parts_eq h.inv n).2).1 hm
    have hnil : nodeBlks items n = [] := by
      simp only [nodeBlks, List.flatMap_eq_nil_iff, List.filter_eq_nil_iff]
      intro it hit b hb
      simpa using hno it hit b hb
    obtain ⟨vs, h6, h7, h8⟩ := hvals feats (feats.map fun f => (-1, List.replicate f.2 0)) (fun f hf => hf) (by simp) (by
      intro x hx
      left
      have := (List.of_mem_zip hx).2
      obtain ⟨b, -, hb⟩ := List.mem_map.1 this
      exact ⟨by rw [← hb], by rw [hnil]; simp⟩)
    refine ⟨vs, ?_, h7, h8⟩
    rw [← h6, hout]
    show some _ = some _
    refine congrArg some ?_
    clear h3 h4 h5 h6 h7 h8 hvals hfit hunion hunion2 hHnil h2 hinit hout hH
    induction feats with
    | nil => rfl
    | cons f fs ih =>
      rw [List.map_cons, List.sum_cons, ← List.replicate_append_replicate, ih]
      simp [List.flatMap_cons]
  | some i =>
    simp only [h1, Option.bind_some]
    rw [h3]
    obtain ⟨vs, h6, h7, h8⟩ := hvals feats ss (fun f hf => hf) h4 h5
    exact ⟨vs, by rw [Option.map_some, h6], h7, h8⟩


/-! Edges -/

theorem latest_nil {t : Int} : LatestValue [] t [] := Or.inr ⟨rfl, by simp⟩

theorem edgeFeatureStep_at {index data lo hi fl} (h : Owner index data lo hi fl) (f : Nat × Nat) (t : Int)
    {K : List (Int × Bytes)} (hK : HasHist fl f.1 K) (s : Int × Bytes) :
    ∃ s', edgeFeatureStep index data lo hi (some t) f s = some s' ∧
      ((s.1 = t ∧ s' = s) ∨ (s.1 ≠ t ∧ ∃ v, s'.2 = Spec.fit f.2 v ∧ LatestValue K t v)) := by
  simp only [edgeFeatureStep, settled, decide_eq_true_eq]
  by_cases hset : s.1 = t
  · rw [if_pos hset]
    exact ⟨s, rfl, Or.inl ⟨hset, rfl⟩⟩
  · rw [if_neg hset]
    rcases hK with ⟨h1, rfl⟩ | ⟨h1, hok⟩
    · rw [h.range_none h1]
      exact ⟨_, rfl, Or.inr ⟨hset, [], by simp [Spec.fit], latest_nil⟩⟩
    · obtain ⟨pre, post, h2, h3⟩ := h.range_some h1
      simp only [featBytes] at h2 h3
      simp only [h3, Option.bind_some, featValue, h2]
      rcases deserialize_serialize hok pre post t with ⟨h4, h5⟩ | ⟨x, off, h4, h5, pre', post', h6, h7⟩
      · rw [h4]
        have h6 : pre ++ serializeTemporal K ++ post = pre ++ [] ++ (serializeTemporal K ++ post) := by simp
        simp only [Option.bind_some]
        rw [h6]
        have := copyFeature_eq pre [] (serializeTemporal K ++ post) f.2
        simp only [List.length_nil] at this
        rw [this]
        exact ⟨_, rfl, Or.inr ⟨hset, [], rfl, Or.inr ⟨rfl, h5⟩⟩⟩
      · rw [h5]
        simp only [Option.bind_some]
        rw [h6, ← h7, copyFeature_eq]
        exact ⟨_, rfl, Or.inr ⟨hset, x.2, rfl, Or.inl ⟨x.1, h4⟩⟩⟩

/-- State of an edge feature query at `t` after the blocks `bs`: nothing found, or the value of one of
the edges found. -/
def EdgeState (H : List (Option Bytes) → List (Int × Bytes)) (dst typ : Int) (t : Int) (size : Nat)
    (bs : List Blk) (s : Int × Bytes) : Prop :=
  ((∀ b ∈ bs, pickEdge b.edges dst typ = none) ∧ s = (-1, List.replicate size 0)) ∨
  (∃ b ∈ bs, ∃ e, pickEdge b.edges dst typ = some e ∧ ∃ v, s.2 = Spec.fit size v ∧ LatestValue (H e.feats) t v)

theorem EdgeState.none {H dst typ t size bs s} {b : Blk} (h : EdgeState H dst typ t size bs s)
    (hb : pickEdge b.edges dst typ = none) : EdgeState H dst typ t size (bs ++ [b]) s := by
  rcases h with ⟨h1, h2⟩ | ⟨b', hb', h1⟩
  · left
    refine ⟨?_, h2⟩
    intro x hx
    rcases List.mem_append.1 hx with hx | hx
    · exact h1 x hx
    · rw [List.mem_singleton.1 hx]; exact hb
  · right; exact ⟨b', by simp [hb'], h1⟩

theorem hist_nonneg {fl : List (Option Bytes)} {fid : Nat} {K : List (Int × Bytes)} (h : HasHist fl fid K) :
    ∀ y ∈ K, 0 ≤ y.1 := by
  rcases h with ⟨-, rfl⟩ | ⟨-, hok⟩
  · simp
  · exact fun y hy => (hok.times y hy).1

theorem EdgeState.some {H dst typ t size bs s s'} {b : Blk} {e : GEdge} (h : EdgeState H dst typ t size bs s)
    (hb : pickEdge b.edges dst typ = some e) (hpos : ∀ y ∈ H e.feats, 0 ≤ y.1)
    (hs : (s.1 = t ∧ s' = s) ∨ (s.1 ≠ t ∧ ∃ v, s'.2 = Spec.fit size v ∧ LatestValue (H e.feats) t v)) :
    EdgeState H dst typ t size (bs ++ [b]) s' := by
  right
  rcases hs with ⟨h1, rfl⟩ | ⟨-, v, h1, h2⟩
  · rcases h with ⟨-, h2⟩ | ⟨b', hb', h2⟩
    · refine ⟨b, by simp, e, hb, [], by simp [h2, Spec.fit], Or.inr ⟨rfl, ?_⟩⟩
      intro y hy
      have := hpos y hy
      rw [h2] at h1
      simp only at h1
      omega
    · exact ⟨b', by simp [hb'], h2⟩
  · exact ⟨b, by simp, e, hb, v, h1, h2⟩

theorem GraphOk.edgeFeatureAt1 (h : GraphOk C m g items parts)
    (hc : ∀ it ∈ items, it.files.edgeFeatureCount ≤ m.edgeFeatureCount)
    (feats : List (Nat × Nat)) (e : EdgeId) (t : Int) (H : Nat → List (Option Bytes) → List (Int × Bytes))
    (hH : ∀ f ∈ feats, ∀ r ∈ Spec.edgesBetween parts e.src e.dst e.typ, HasHist r.features f.1 (H f.1 r.features)) :
    ∃ row, g.edgeFeature1 feats e (some t) (List.replicate (feats.map (·.2)).sum 0) = some row ∧
      Spec.Row feats (fun fid v =>
        (Spec.edgesBetween parts e.src e.dst e.typ = [] ∧ v = []) ∨
        ∃ r ∈ Spec.edgesBetween parts e.src e.dst e.typ, LatestValue (H fid r.features) t v) row := by
  have hpick : ∀ b ∈ nodeBlks items e.src, ∀ x, pickEdge b.edges e.dst e.typ = some x →
      ∃ r ∈ Spec.edgesBetween parts e.src e.dst e.typ, r.features = x.feats := by
    intro b hb x hx
    obtain ⟨h1, h2, h3⟩ := pickEdge_some hx
    have := h.edge_record hb h1
    rw [h2, h3] at this
    exact this
  obtain ⟨es, h1, h2⟩ := h.foldEntries_inv (σ := List (Int × Bytes)) e.src
    (fun (ss : List (Int × Bytes)) (x : Partition × Nat) => x.1.edgeFeature x.2 e.dst e.typ (some t) feats ss)
    (fun (bs : List Blk) (ss : List (Int × Bytes)) => feats.length = ss.length ∧ ∀ x ∈ feats.zip ss,
      EdgeState (H x.1.1) e.dst e.typ t x.1.2 bs x.2) (by
      intro it hit x hx hid bs ss ⟨hl, hss⟩
      have hb : x.1 ∈ nodeBlks items e.src := by
        rw [List.mem_zipIdx_iff_getElem?] at hx
        exact List.mem_flatMap.2 ⟨it, hit, List.mem_filter.2 ⟨List.mem_of_getElem? hx, by simpa using hid⟩⟩
      have hhist : ∀ y, pickEdge x.1.edges e.dst e.typ = some y → ∀ f ∈ feats, HasHist y.feats f.1 (H f.1 y.feats) := by
        intro y hy f hf
        obtain ⟨r, hr, hrf⟩ := hpick x.1 hb y hy
        rw [← hrf]; exact hH f hf r hr
      simp only [Partition.edgeFeature, Partition.withEdge]
      rcases h.edgeBlocks hc hit hx e.dst e.typ with ⟨e1, e2⟩ | ⟨y, o, e1, e2, ⟨hm, e3, e4⟩ | ⟨e3, lo, hi, e4, e5, ho⟩⟩
      · rw [e2]
        exact ⟨ss, rfl, hl, fun z hz => (hss z hz).none e1⟩
      · rw [e2]
        refine ⟨ss, by simp [e4], hl, fun z hz => ?_⟩
        have hf := (List.of_mem_zip hz).1
        have hK := hhist y e1 z.1 hf
        have hnil : H z.1.1 y.feats = [] := by
          rcases hK with ⟨-, hK⟩ | ⟨hK, -⟩
          · exact hK
          · rw [e3] at hK; simp at hK
        rcases hss z hz with ⟨a, b⟩ | ⟨b', hb', a⟩
        · right
          exact ⟨x.1, by simp, y, e1, [], by simp [b, Spec.fit], by rw [hnil]; exact latest_nil⟩
        · right
          exact ⟨b', by simp [hb'], a⟩
      · rw [e2]
        simp only [Option.bind_some]
        rw [if_neg, e4, e5]
        · simp only [Option.bind_some]
          refine stepAll_inv (I := fun f s => EdgeState (H f.1) e.dst e.typ t f.2 bs s)
            (J := fun f s => EdgeState (H f.1) e.dst e.typ t f.2 (bs ++ [x.1]) s) hl hss ?_
          intro f hf s hs
          have hK := hhist y e1 f hf
          obtain ⟨s', h3, h4⟩ := edgeFeatureStep_at ho f t hK s
          exact ⟨s', h3, hs.some e1 (hist_nonneg hK) h4⟩
        · simp only [e3, or_false]
          intro hh; rw [hh] at e4; simp at e4)
  have hval : ∀ f ∈ feats, ∀ s, EdgeState (H f.1) e.dst e.typ t f.2 (nodeBlks items e.src) s →
      ∃ v, s.2 = Spec.fit f.2 v ∧ ((Spec.edgesBetween parts e.src e.dst e.typ = [] ∧ v = []) ∨
        ∃ r ∈ Spec.edgesBetween parts e.src e.dst e.typ, LatestValue (H f.1 r.features) t v) := by
    intro f hf s hs
    rcases hs with ⟨a, b⟩ | ⟨b, hb, y, hy, v, hv, hl⟩
    · refine ⟨[], by simp [b, Spec.fit], Or.inl ⟨?_, rfl⟩⟩
      rw [List.eq_nil_iff_forall_not_mem]
      intro r hr
      obtain ⟨b, hb, y, hy, h3, h4⟩ := h.record_edge hr
      exact pickEdge_none (a b hb) y hy ⟨h3, h4⟩
    · obtain ⟨r, hr, hrf⟩ := hpick b hb y hy
      exact ⟨v, hv, Or.inr ⟨r, hr, by rw [hrf]; exact hl⟩⟩
  have hvals : ∀ (fs : List (Nat × Nat)) (ss : List (Int × Bytes)), (∀ f ∈ fs, f ∈ feats) → fs.length = ss.length →
      (∀ x ∈ fs.zip ss, EdgeState (H x.1.1) e.dst e.typ t x.1.2 (nodeBlks items e.src) x.2) →
      Spec.Row fs (fun fid v =>
        (Spec.edgesBetween parts e.src e.dst e.typ = [] ∧ v = []) ∨
        ∃ r ∈ Spec.edgesBetween parts e.src e.dst e.typ, LatestValue (H fid r.features) t v) (ss.flatMap (·.2)) := by
    intro fs
    induction fs with
    | nil => intro ss _ hl _; cases ss with
      | nil => exact ⟨[], rfl, rfl, by simp⟩
      | cons s ss => simp at hl
    | cons f fs ih =>
      intro ss hsub hl hss
      cases ss with
      | nil => simp at hl
      | cons s ss =>
        simp only [List.zip_cons_cons, List.mem_cons, forall_eq_or_imp] at hss
        obtain ⟨v, hv1, hv2⟩ := hval f (hsub f (by simp)) s hss.1
        obtain ⟨vs, h3, h4, h5⟩ := ih ss (fun f hf => hsub f (by simp [hf])) (by simpa using hl) hss.2
        refine ⟨v :: vs, by simp [h3], ?_, ?_⟩
        · simp only [List.flatMap_cons, List.zipWith_cons_cons, List.flatten_cons, h4, hv1]
        · simp only [List.zip_cons_cons, List.mem_cons, forall_eq_or_imp]
          exact ⟨hv2, h5⟩
  have hinit : ∀ bs : List Blk, (∀ b ∈ bs, pickEdge b.edges e.dst e.typ = none) →
      feats.length = (feats.map fun f => ((-1 : Int), List.replicate f.2 (0 : UInt8))).length ∧
      ∀ x ∈ feats.zip (feats.map fun f => ((-1 : Int), List.replicate f.2 (0 : UInt8))),
        EdgeState (H x.1.1) e.dst e.typ t x.1.2 bs x.2 := by
    intro bs hbs
    refine ⟨by simp, ?_⟩
    intro x hx
    left
    refine ⟨hbs, ?_⟩
    rw [List.zip_map_right, List.mem_map] at hx
    obtain ⟨⟨a, b⟩, hab, rfl⟩ := hx
    have : a = b := by
      rw [List.mem_iff_getElem] at hab
      obtain ⟨i, hi, h3⟩ := hab
      simp only [List.getElem_zip, Prod.mk.injEq] at h3
      rw [← h3.1, ← h3.2]
    subst this
    rfl
  simp only [Graph.edgeFeature1]
  cases hm : g.nodeMap e.src with
  | none =>
    have hno := ((entries_items h.parts_eq h.inv e.src).2).1 hm
    have hnil : nodeBlks items e.src = [] := by
      simp only [nodeBlks, List.flatMap_eq_nil_iff, List.filter_eq_nil_iff]
      intro it hit b hb
      simpa using hno it hit b hb
    obtain ⟨i1, i2⟩ := hinit (nodeBlks items e.src) (by rw [hnil]; simp)
    refine ⟨_, rfl, ?_⟩
    have := hvals feats _ (fun f hf => hf) i1 i2
    have heq : ∀ fs : List (Nat × Nat), (fs.map fun f => ((-1 : Int), List.replicate f.2 (0 : UInt8))).flatMap (·.2) =
        List.replicate (fs.map (·.2)).sum 0 := by
      intro fs
      induction fs with
      | nil => rfl
      | cons f fs ih => rw [List.map_cons, List.flatMap_cons, ih]; simp
    rw [heq] at this
    simpa using this
  | some i =>
    simp only [h1, Option.bind_some]
    rw [slices_zero, List.map_map, List.map_map]
    obtain ⟨i1, i2⟩ := hinit [] (by simp)
    obtain ⟨ss, h3, h4, h5⟩ := h2 [] _ ⟨i1, i2⟩
    refine ⟨ss.flatMap (·.2), ?_, hvals feats ss (fun f hf => hf) h4 (by simpa using h5)⟩
    have h3' := h3
    simp only [Function.comp_def] at h3' ⊢
    rw [h3']
    rfl

/-- Batches. -/
theorem mapM_exists {α β} (f : α → Option β) (P : α → β → Prop) (l : List α)
    (h : ∀ a ∈ l, ∃ b, f a = some b ∧ P a b) :
    ∃ bs, l.mapM f = some bs ∧ bs.length = l.length ∧ ∀ x ∈ l.zip bs, P x.1 x.2 := by
  induction l with
  | nil => exact ⟨[], rfl, rfl, by simp⟩
  | cons a l ih =>
    obtain ⟨b, h1, h2⟩ := h a (by simp)
    obtain ⟨bs, h3, h4, h5⟩ := ih (fun x hx => h x (by simp [hx]))
    refine ⟨b :: bs, by simp [List.mapM_cons, h1, h3], by simp [h4], ?_⟩
    simp only [List.zip_cons_cons, List.mem_cons, forall_eq_or_imp]
    exact ⟨h2, h5⟩

end DeepGNN
