import Verif.Spec.Tsv
import Verif.Proofs.EdgeList
import Verif.Proofs.Json

namespace DeepGNN.Tsv

open Spec
open EdgeList (Str split strip parseInt parseInt_intText mem_intText not_mem_intText split_join flatMap_clean split_clean split_append)

theorem strip_clean {s : Str} (h : ∀ c ∈ s, c.isWhitespace = false) : strip s = s := by
  have h1 : ∀ {l : Str}, (∀ c ∈ l, c.isWhitespace = false) → l.dropWhile Char.isWhitespace = l := by
    intro l hl
    cases l with
    | nil => rfl
    | cons c l => rw [List.dropWhile_cons, if_neg (by rw [hl c (by simp)]; decide)]
  rw [strip, h1 h, h1 (fun c hc => h c (List.mem_reverse.1 hc)), List.reverse_reverse]

theorem readInt_intText (n : Int) : readInt (intText n) = some n := by
  rw [readInt, strip_clean, parseInt_intText]
  intro c hc
  rcases mem_intText hc with h | rfl
  · simp only [Char.isDigit, Bool.and_eq_true, decide_eq_true_eq] at h
    cases hw : c.isWhitespace with
    | false => rfl
    | true =>
      exfalso
      simp only [Char.isWhitespace, Bool.or_eq_true, decide_eq_true_eq] at hw
      rcases hw with ((rfl | rfl) | rfl) | rfl <;> exact absurd h.1 (by decide)
  · decide

theorem intText_ne (n : Int) : intText n ≠ [] := by
  intro h
  have := parseInt_intText n
  rw [h] at this
  simp [parseInt, EdgeList.parseDigits] at this

theorem mem_join {c d : Char} (hd : c ≠ d) : ∀ {ts : List Str}, (∀ t ∈ ts, c ∉ t) → c ∉ joinFields d ts
  | [], _ => by simp [joinFields]
  | [t], h => by simpa [joinFields] using h
  | t :: u :: ts, h => by
    rw [joinFields]
    · intro hc
      rcases List.mem_append.1 hc with hc | hc
      · exact h t (by simp) hc
      · rcases List.mem_cons.1 hc with hc | hc
        · exact hd hc
        · exact mem_join hd (fun x hx => h x (by simp [List.mem_cons.1 hx])) hc
    · simp

theorem join_ne {d : Char} {t : Str} (ht : t ≠ []) (ts : List Str) : joinFields d (t :: ts) ≠ [] := by
  cases ts with
  | nil => simpa [joinFields] using ht
  | cons u ts => rw [joinFields] <;> simp

theorem join_ne' {d : Char} (t u : Str) (ts : List Str) : joinFields d (t :: u :: ts) ≠ [] := by
  rw [joinFields] <;> simp

/-- Splitting the text of columns and filling up gives the columns. -/
theorem pad_written {d : Char} {cols : List Str} {text : Str} (h : WrittenAs d cols text) (hc : ∀ t ∈ cols, d ∉ t) :
    pad cols.length (split d text) = cols := by
  obtain ⟨shown, k, h1, rfl, rfl⟩ := h
  rw [split_join _ h1, flatMap_clean (fun t ht => hc t (by simp [ht])), pad]
  congr 2
  simp

theorem written_clean {c d : Char} (hd : c ≠ d) {cols : List Str} {text : Str} (h : WrittenAs d cols text) (hc : ∀ t ∈ cols, c ∉ t) : c ∉ text := by
  obtain ⟨shown, k, h1, rfl, rfl⟩ := h
  exact mem_join hd (fun t ht => hc t (by simp [ht]))

theorem type_cases {name typ : String} (h : (name, typ) ∈ tsvTypes) : ∃ c cs key, name.toList = c :: cs ∧ (∀ prev, featureKey prev c cs = some key) ∧
    key ≠ "binary_feature".toList ∧ convertMap.lookup key = some typ.toList ∧ ∀ x ∈ ['\t', '|', ',', ';', ':'], x ∉ name.toList := by
  simp only [tsvTypes, List.mem_cons, Prod.mk.injEq, List.not_mem_nil, or_false] at h
  rcases h with ⟨rfl, rfl⟩ | ⟨rfl, rfl⟩ | ⟨rfl, rfl⟩ | ⟨rfl, rfl⟩ | ⟨rfl, rfl⟩ | ⟨rfl, rfl⟩ | ⟨rfl, rfl⟩ | ⟨rfl, rfl⟩ | ⟨rfl, rfl⟩ | ⟨rfl, rfl⟩ | ⟨rfl, rfl⟩
  all_goals exact ⟨_, _, _, rfl, fun prev => rfl, by decide, by decide, by decide⟩

variable {P : Parse} {S : TsvShow}

theorem written_delims {f : TsvFeature} (h : f.Ok P S) : ∀ c ∈ ['\t', '|', ',', ';'], c ∉ f.written S := by
  intro c hc
  cases f with
  | missing => simp [TsvFeature.written]
  | text s =>
    have h1 := h.2 c (by simp at hc ⊢; rcases hc with h | h | h | h <;> simp [h])
    simp only [TsvFeature.written, List.mem_cons, not_or]
    refine ⟨?_, ?_, h1⟩ <;> (simp at hc; rcases hc with rfl | rfl | rfl | rfl <;> decide)
  | numbers name typ vs =>
    obtain ⟨_, _, _, -, -, -, -, h2⟩ := type_cases h.1
    simp only [TsvFeature.written, List.mem_append, List.mem_cons, not_or]
    refine ⟨h2 c (by simp at hc ⊢; rcases hc with h | h | h | h <;> simp [h]), ?_, ?_⟩
    · simp at hc; rcases hc with rfl | rfl | rfl | rfl <;> decide
    · refine mem_join (by simp at hc; rcases hc with rfl | rfl | rfl | rfl <;> decide) ?_
      intro t ht
      obtain ⟨v, hv, rfl⟩ := List.mem_map.1 ht
      exact (h.2.2 v hv).2.2 c (by simp at hc ⊢; rcases hc with h | h | h | h <;> simp [h])

theorem number_loop {typ : String} : ∀ {vs : List Bytes}, (∀ v ∈ vs, P.number typ.toList (S.number typ v) = some v) →
    (vs.map (S.number typ)).mapM (P.number typ.toList) = some vs
  | [], _ => rfl
  | v :: vs, h => by
    rw [List.map_cons, List.mapM_cons, h v List.mem_cons_self, number_loop fun u hu => h u (List.mem_cons_of_mem _ hu)]
    rfl

theorem loop_ok : ∀ {fs : List TsvFeature} (prev : Option Str), (∀ f ∈ fs, f.Ok P S) →
    featureLoop P prev (fs.map (·.written S)) = some (fs.map (·.stored P))
  | [], _, _ => rfl
  | f :: fs, prev, h => by
    have ih := fun prev => loop_ok (fs := fs) prev (fun x hx => h x (by simp [hx]))
    have hf := h f (by simp)
    rw [List.map_cons, featureLoop]
    cases f with
    | missing =>
      rw [show split ':' (TsvFeature.written S .missing) = [[]] from rfl]
      simp only [ih]
      rfl
    | text s =>
      obtain ⟨h1, h2⟩ := hf
      have hs : split ':' (TsvFeature.written S (.text s)) = ['b' :: [], s] := by
        have := split_append ':' ['b'] s
        rw [TsvFeature.written]
        exact this.trans (by rw [split_clean (s := s) (h2 ':' (by simp))]; rfl)
      cases s with
      | nil => exact absurd rfl h1
      | cons v vs =>
        rw [hs]
        simp only [show ∀ p, featureKey p 'b' [] = some "binary_feature".toList from fun _ => rfl, Option.bind_some, featureValue, if_true, ih]
        rfl
    | numbers name typ vs =>
      obtain ⟨h1, h2, h3⟩ := hf
      obtain ⟨c, cs, key, k1, k2, k3, k4, k5⟩ := type_cases h1
      obtain ⟨v, vs, rfl⟩ := List.exists_cons_of_ne_nil h2
      have hj : ':' ∉ joinFields ' ' ((v :: vs).map (S.number typ)) := by
        refine mem_join (by decide) ?_
        intro t ht
        obtain ⟨w, hw, rfl⟩ := List.mem_map.1 ht
        exact (h3 w hw).2.2 ':' (by simp)
      have hne : joinFields ' ' ((v :: vs).map (S.number typ)) ≠ [] := by
        rw [List.map_cons]
        exact join_ne (h3 v (by simp)).1 _
      have hs : split ':' (TsvFeature.written S (.numbers name typ (v :: vs))) = [c :: cs, joinFields ' ' ((v :: vs).map (S.number typ))] := by
        rw [TsvFeature.written, split_append, split_clean hj, split_clean (k5 ':' (by simp)), k1]
        rfl
      rw [hs]
      have hval : featureValue P key (joinFields ' ' ((v :: vs).map (S.number typ))) = some (v :: vs).flatten := by
        rw [featureValue, if_neg k3, k4, Option.bind_some, split_join _ (by simp), flatMap_clean, number_loop fun w hw => (h3 w hw).2.1]
        · rfl
        · intro t ht
          obtain ⟨w, hw, rfl⟩ := List.mem_map.1 ht
          exact (h3 w hw).2.2 ' ' (by simp)
      cases hv : joinFields ' ' ((v :: vs).map (S.number typ)) with
      | nil => exact absurd hv hne
      | cons x xs =>
        rw [hv] at hval
        simp only [k2, Option.bind_some, hval, ih]
        rfl

theorem written_ne {f : TsvFeature} (h : f ≠ .missing) : f.written S ≠ [] := by
  cases f <;> simp [TsvFeature.written] at h ⊢

theorem features_ok {fs : List TsvFeature} (h : TsvFeaturesOk P S fs) :
    parseFeatures P (joinFields ';' (fs.map (·.written S))) = some (fs.map (·.stored P)) := by
  rw [parseFeatures]
  by_cases hn : fs = []
  · subst hn; simp [joinFields]
  · rw [if_neg, split_join _ (by simpa using hn), flatMap_clean, loop_ok none h.1]
    · intro t ht
      obtain ⟨f, hf, rfl⟩ := List.mem_map.1 ht
      exact written_delims (h.1 f hf) ';' (by simp)
    · match fs, hn with
      | [f], _ =>
        have : f ≠ .missing := fun hf => h.2 (by rw [hf])
        simpa [joinFields] using written_ne this
      | f :: g :: fs, _ => exact join_ne' _ _ _

theorem features_clean {fs : List TsvFeature} (h : TsvFeaturesOk P S fs) : ∀ c ∈ ['\t', '|', ','], c ∉ joinFields ';' (fs.map (·.written S)) := by
  intro c hc
  refine mem_join (by simp at hc; rcases hc with rfl | rfl | rfl <;> decide) ?_
  intro t ht
  obtain ⟨f, hf, rfl⟩ := List.mem_map.1 ht
  exact written_delims (h.1 f hf) c (by simp at hc ⊢; rcases hc with h | h | h <;> simp [h])

theorem int_clean (n : Int) : ∀ c ∈ ['\t', '|', ','], c ∉ intText n := by
  intro c hc
  refine not_mem_intText ?_ n
  simp at hc
  rcases hc with rfl | rfl | rfl <;> decide

theorem weight_clean {w : Option Int} (h : ∀ x, w = some x → TsvWeightOk P S x) : ∀ c ∈ ['\t', '|', ','], c ∉ (w.map S.weight).getD [] := by
  intro c hc
  cases w with
  | none => simp
  | some x => exact (h x rfl).2.2 c hc

theorem weight_read {w : Option Int} (h : ∀ x, w = some x → TsvWeightOk P S x) : orZero P.weight ((w.map S.weight).getD []) = some (w.getD 0) := by
  cases w with
  | none => rfl
  | some x =>
    obtain ⟨h1, h2, -⟩ := h x rfl
    simp only [Option.map_some, Option.getD_some, orZero, if_neg h1, h2]

theorem type_read (t : Option Int) : orZero readInt ((t.map intText).getD []) = some (t.getD 0) := by
  cases t with
  | none => rfl
  | some x => simp only [Option.map_some, Option.getD_some, orZero, if_neg (intText_ne x), readInt_intText]

/-- What is assumed of a neighbour. -/
def EdgeOk (P : Parse) (S : TsvShow) (e : TsvEdge) : Prop := (∀ w, e.weight = some w → TsvWeightOk P S w) ∧ TsvFeaturesOk P S e.features

theorem edge_columns_clean {e : TsvEdge} (h : EdgeOk P S e) : ∀ c ∈ ['\t', '|', ','], ∀ t ∈ e.columns S, c ∉ t := by
  intro c hc t ht
  simp only [TsvEdge.columns, List.mem_cons, List.not_mem_nil, or_false] at ht
  rcases ht with rfl | rfl | rfl | rfl
  · exact int_clean _ c hc
  · exact int_clean _ c hc
  · exact weight_clean h.1 c hc
  · exact features_clean h.2 c hc

theorem neighbor_ok {e : TsvEdge} (h : EdgeOk P S e) {n : Str} (hw : WrittenAs ',' (e.columns S) n) (src : Int) :
    decodeNeighbor P src n = some (e.record P src) := by
  have hp := pad_written hw (edge_columns_clean h ',' (by simp))
  rw [decodeNeighbor, show (4 : Nat) = (e.columns S).length from rfl, hp]
  simp only [TsvEdge.columns, if_neg (intText_ne e.dst), readInt_intText, Option.bind_some]
  have := type_read (some e.typ)
  simp only [Option.map_some, Option.getD_some] at this
  rw [this, Option.bind_some, weight_read h.1, Option.bind_some, features_ok h.2]
  rfl

theorem order_ok {e : TsvEdge} (h : EdgeOk P S e) {n : Str} (hw : WrittenAs ',' (e.columns S) n) : order n = some (e.typ, e.dst) := by
  obtain ⟨shown, k, h1, h2, rfl⟩ := hw
  have hc := edge_columns_clean h ',' (by simp)
  rw [h2] at hc
  rw [order, split_join _ h1, flatMap_clean (fun t ht => hc t (by simp [ht]))]
  simp only [TsvEdge.columns] at h2
  match shown, h1 with
  | [a], _ =>
    exfalso
    cases k with
    | zero => simp at h2
    | succ k =>
      simp only [List.replicate_succ, List.cons_append, List.nil_append, List.cons.injEq] at h2
      exact intText_ne _ h2.2.1
  | a :: b :: rest, _ =>
    simp only [List.cons_append, List.cons.injEq] at h2
    obtain ⟨rfl, rfl, -⟩ := h2
    simp only [readInt_intText, Option.bind_some, Option.map_some]

/-! Sorting. -/

def pairKey (z : TsvEdge × Str) : (Int × Int) × Str := ((z.1.typ, z.1.dst), z.2)

def insertPair (x : TsvEdge × Str) : List (TsvEdge × Str) → List (TsvEdge × Str)
  | [] => [x]
  | y :: ys => if keyLt (pairKey x).1 (pairKey y).1 then x :: y :: ys else y :: insertPair x ys

def sortPairs (l : List (TsvEdge × Str)) : List (TsvEdge × Str) := l.foldl (fun acc x => insertPair x acc) []

theorem insertKey_map (x : TsvEdge × Str) : ∀ l, insertKey (pairKey x) (l.map pairKey) = (insertPair x l).map pairKey
  | [] => rfl
  | y :: ys => by
    rw [List.map_cons, insertKey, insertPair]
    split
    · rfl
    · rw [insertKey_map x ys]; rfl

theorem sort_map (l : List (TsvEdge × Str)) : (l.map pairKey).foldl (fun acc x => insertKey x acc) [] = (sortPairs l).map pairKey := by
  have : ∀ acc, (l.map pairKey).foldl (fun acc x => insertKey x acc) (acc.map pairKey) = (l.foldl (fun acc x => insertPair x acc) acc).map pairKey := by
    induction l with
    | nil => intro acc; rfl
    | cons x l ih => intro acc; rw [List.map_cons, List.foldl_cons, insertKey_map, ih, List.foldl_cons]
  exact this []

theorem insertPair_perm (x : TsvEdge × Str) (l : List (TsvEdge × Str)) : (insertPair x l).Perm (x :: l) := by
  induction l with
  | nil => exact .refl _
  | cons y l ih =>
    rw [insertPair]
    split
    · exact .refl _
    · exact (ih.cons y).trans (.swap ..)

theorem sortPairs_perm (l : List (TsvEdge × Str)) : (sortPairs l).Perm l := by
  have : ∀ acc, (l.foldl (fun acc x => insertPair x acc) acc).Perm (acc ++ l) := by
    induction l with
    | nil => intro acc; simp
    | cons x l ih =>
      intro acc
      refine (ih _).trans ?_
      refine ((insertPair_perm x acc).append_right l).trans ?_
      exact List.perm_middle.symm
  have := this []
  rwa [List.nil_append] at this

/-- `a` may stand before `b`. -/
def Before (a b : TsvEdge) : Prop := a.typ < b.typ ∨ (a.typ = b.typ ∧ a.dst ≤ b.dst)

theorem keyLt_iff (x y : TsvEdge × Str) : keyLt (pairKey x).1 (pairKey y).1 = true ↔ ¬ Before y.1 x.1 := by
  show (decide (x.1.typ < y.1.typ) || (x.1.typ == y.1.typ && decide (x.1.dst < y.1.dst))) = true ↔ _
  simp only [Before, Bool.or_eq_true, Bool.and_eq_true, decide_eq_true_eq, beq_iff_eq]
  omega

theorem insertPair_sorted (x : TsvEdge × Str) {l : List (TsvEdge × Str)} (h : l.Pairwise fun a b => Before a.1 b.1) :
    (insertPair x l).Pairwise fun a b => Before a.1 b.1 := by
  induction l with
  | nil => simp [insertPair]
  | cons y l ih =>
    rw [List.pairwise_cons] at h
    rw [insertPair]
    split
    · rename_i hk
      rw [keyLt_iff] at hk
      have hxy : Before x.1 y.1 := by simp only [Before] at hk ⊢; omega
      refine List.pairwise_cons.2 ⟨?_, List.pairwise_cons.2 h⟩
      intro z hz
      rcases List.mem_cons.1 hz with rfl | hz
      · exact hxy
      · have := h.1 z hz
        simp only [Before] at this hxy ⊢
        omega
    · rename_i hk
      rw [keyLt_iff, Classical.not_not] at hk
      refine List.pairwise_cons.2 ⟨?_, ih h.2⟩
      intro z hz
      rcases List.mem_cons.1 ((insertPair_perm x l).mem_iff.1 hz) with rfl | hz
      · exact hk
      · exact h.1 z hz

theorem sortPairs_sorted (l : List (TsvEdge × Str)) : (sortPairs l).Pairwise fun a b => Before a.1 b.1 := by
  have : ∀ acc : List (TsvEdge × Str), (acc.Pairwise fun a b => Before a.1 b.1) →
      (l.foldl (fun acc x => insertPair x acc) acc).Pairwise fun a b => Before a.1 b.1 := by
    induction l with
    | nil => intro acc h; exact h
    | cons e l ih => intro acc h; exact ih _ (insertPair_sorted e h)
  exact this [] List.Pairwise.nil

theorem keys_ok : ∀ {l : List (TsvEdge × Str)}, (∀ x ∈ l, EdgeOk P S x.1 ∧ WrittenAs ',' (x.1.columns S) x.2) →
    ((l.map (·.2)).mapM fun n => (order n).map fun k => (k, n)) = some (l.map pairKey)
  | [], _ => rfl
  | x :: l, h => by
    obtain ⟨h1, h2⟩ := h x (by simp)
    rw [List.map_cons, List.mapM_cons, order_ok h1 h2, keys_ok fun y hy => h y (by simp [hy])]
    rfl

theorem neighbors_ok (src : Int) : ∀ {l : List (TsvEdge × Str)}, (∀ x ∈ l, EdgeOk P S x.1 ∧ WrittenAs ',' (x.1.columns S) x.2) →
    (l.map (·.2)).mapM (decodeNeighbor P src) = some (l.map fun x => x.1.record P src)
  | [], _ => rfl
  | x :: l, h => by
    obtain ⟨h1, h2⟩ := h x (by simp)
    rw [List.map_cons, List.mapM_cons, neighbor_ok h1 h2, neighbors_ok src fun y hy => h y (by simp [hy])]
    rfl

theorem zip_fst {α β : Type} : ∀ {a : List α} {b : List β}, b.length = a.length → (a.zip b).map (·.1) = a
  | [], _, _ => by simp
  | x :: a, [], h => by simp at h
  | x :: a, y :: b, h => by rw [List.zip_cons_cons, List.map_cons, zip_fst (by simpa using h)]

theorem zip_snd {α β : Type} : ∀ {a : List α} {b : List β}, b.length = a.length → (a.zip b).map (·.2) = b
  | [], [], _ => by simp
  | [], y :: b, h => by simp at h
  | x :: a, [], h => by simp at h
  | x :: a, y :: b, h => by rw [List.zip_cons_cons, List.map_cons, zip_snd (by simpa using h)]

/-- The records of a line. -/
theorem decode_line {n : TsvNode} (hn : n.Ok P S) {line : Str} (h : TsvLine S n line) : ∃ sorted : List TsvEdge, sorted.Perm n.edges ∧
    sorted.Pairwise Before ∧
    decode P line = some (⟨n.id, -1, n.typ.getD 0, n.weight.getD 0, none, none, n.features.map (·.stored P)⟩ :: sorted.map (·.record P n.id)) := by
  obtain ⟨ns, hlen, hns, hw⟩ := h
  have hz : ∀ x ∈ n.edges.zip ns, EdgeOk P S x.1 ∧ WrittenAs ',' (x.1.columns S) x.2 :=
    fun x hx => ⟨hn.edges x.1 (List.of_mem_zip hx).1, hns x hx⟩
  have hnsmem : ∀ t ∈ ns, ∃ e ∈ n.edges, EdgeOk P S e ∧ WrittenAs ',' (e.columns S) t := by
    intro t ht
    rw [← zip_snd hlen] at ht
    obtain ⟨x, hx, rfl⟩ := List.mem_map.1 ht
    exact ⟨x.1, (List.of_mem_zip hx).1, hz x hx⟩
  have hclean : ∀ t ∈ [intText n.id, (n.typ.map intText).getD [], (n.weight.map S.weight).getD [], joinFields ';' (n.features.map (·.written S)),
      joinFields '|' ns], '\t' ∉ t := by
    intro t ht
    simp only [List.mem_cons, List.not_mem_nil, or_false] at ht
    rcases ht with rfl | rfl | rfl | rfl | rfl
    · exact int_clean _ _ (by simp)
    · cases n.typ with
      | none => simp
      | some x => exact int_clean _ _ (by simp)
    · exact weight_clean hn.weight _ (by simp)
    · exact features_clean hn.features _ (by simp)
    · refine mem_join (by decide) ?_
      intro t ht
      obtain ⟨e, he, h1, h2⟩ := hnsmem t ht
      exact written_clean (by decide) h2 (edge_columns_clean h1 '\t' (by simp))
  have hp := pad_written hw hclean
  refine ⟨(sortPairs (n.edges.zip ns)).map (·.1), ?_, ?_, ?_⟩
  · exact ((sortPairs_perm _).map _).trans (by rw [zip_fst hlen])
  · exact List.pairwise_map.2 (sortPairs_sorted _)
  · have hline : line ≠ [] := by
      obtain ⟨shown, k, h1, h2, rfl⟩ := hw
      obtain ⟨a, l, rfl⟩ := List.exists_cons_of_ne_nil h1
      simp only [List.cons_append, List.cons.injEq] at h2
      rw [← h2.1]
      exact join_ne (intText_ne _) _
    rw [decode, if_neg hline]
    simp only [List.length_cons, List.length_nil, Nat.zero_add, Nat.reduceAdd] at hp
    rw [hp]
    simp only [if_neg (intText_ne n.id), readInt_intText, Option.bind_some, type_read, weight_read hn.weight, features_ok hn.features]
    have hes : (if joinFields '|' ns = [] then some [] else (sortNeighbors (split '|' (joinFields '|' ns))).bind fun l => l.mapM (decodeNeighbor P n.id)) =
        some ((sortPairs (n.edges.zip ns)).map fun x => x.1.record P n.id) := by
      by_cases hnil : ns = []
      · subst hnil
        have : n.edges = [] := List.eq_nil_of_length_eq_zero (by simpa using hlen.symm)
        rw [this]
        rfl
      · have hne : joinFields '|' ns ≠ [] := by
          obtain ⟨a, l, rfl⟩ := List.exists_cons_of_ne_nil hnil
          refine join_ne ?_ _
          obtain ⟨e, -, -, shown, k, h1, h2, rfl⟩ := hnsmem a (by simp)
          obtain ⟨b, l', rfl⟩ := List.exists_cons_of_ne_nil h1
          simp only [TsvEdge.columns, List.cons_append, List.cons.injEq] at h2
          rw [← h2.1]
          exact join_ne (intText_ne _) _
        rw [if_neg hne, split_join _ hnil, flatMap_clean]
        · rw [sortNeighbors]
          have hk := keys_ok hz
          rw [zip_snd hlen] at hk
          rw [hk, Option.map_some, Option.bind_some, sort_map, List.map_map]
          exact neighbors_ok n.id (fun x hx => hz x ((sortPairs_perm _).mem_iff.1 hx))
        · intro t ht
          obtain ⟨e, he, h1, h2⟩ := hnsmem t ht
          exact written_clean (by decide) h2 (edge_columns_clean h1 '|' (by simp))
    rw [hes, Option.map_some, List.map_map]
    rfl

end DeepGNN.Tsv
