import Verif.Spec.Json
import Verif.Proofs.Accept

/-
JSON lines: features, order of edges, records.
-/

namespace DeepGNN.Json

open Spec

/-! ### Features -/

/-- Everything given, in order. -/
def given (fs : Features) : List (Kind × Int × Value) := fs.flatMap fun g => g.2.map fun x => (g.1, x.1, x.2)

def step (l : List RawFeature) (y : Kind × Int × Value) : Option (List RawFeature) := (readValue y.1 y.2.2).bind fun v => setFeature l y.2.1 v

theorem inner_eq (k : Kind) (xs : List (Int × Value)) : ∀ l : List RawFeature,
    xs.foldlM (fun l x => (readValue k x.2).bind fun v => setFeature l x.1 v) l = (xs.map fun x => (k, x.1, x.2)).foldlM step l := by
  induction xs with
  | nil => intro l; rfl
  | cons x xs ih =>
    intro l
    rw [List.foldlM_cons, List.map_cons, List.foldlM_cons]
    simp only [ih]
    rfl

theorem pull_eq (fs : Features) : ∀ l : List RawFeature,
    fs.foldlM (fun l g => g.2.foldlM (fun l x => (readValue g.1 x.2).bind fun v => setFeature l x.1 v) l) l = (given fs).foldlM step l := by
  induction fs with
  | nil => intro l; rfl
  | cons g fs ih =>
    intro l
    rw [List.foldlM_cons, given, List.flatMap_cons, List.foldlM_append, inner_eq]
    simp only [ih]
    rfl

def lastGiven (ys : List (Kind × Int × Value)) (i : Int) : Option (Kind × Value) :=
  ((ys.filter fun y => y.2.1 = i).map fun y => (y.1, y.2.2)).getLast?

theorem lastGiven_given (fs : Features) (i : Int) : lastGiven (given fs) i = (givenFor fs i).getLast? := by
  rw [lastGiven, givenFor, given]
  congr 1
  induction fs with
  | nil => rfl
  | cons g fs ih =>
    rw [List.flatMap_cons, List.filter_append, List.map_append, ih, List.flatMap_cons]
    congr 1
    induction g.2 with
    | nil => rfl
    | cons x xs ih2 => simp only [List.map_cons, List.filter_cons]; split <;> simp_all

theorem lastGiven_snoc (ys : List (Kind × Int × Value)) (y : Kind × Int × Value) (i : Int) :
    lastGiven (ys ++ [y]) i = if y.2.1 = i then some (y.1, y.2.2) else lastGiven ys i := by
  rw [lastGiven, List.filter_append]
  by_cases h : y.2.1 = i
  · simp [h]
  · simp [h, lastGiven]

theorem readValue_of_encodes {k : Kind} {v : Value} {b : Option Bytes} (h : Encodes k v b) :
    ∃ r, readValue k v = some r ∧ convertFeature r = some b := by
  cases h with
  | numbers vs hv =>
    cases vs with
    | nil => exact absurd rfl hv
    | cons v vs => exact ⟨_, rfl, rfl⟩
  | history h hv =>
    cases h with
    | nil => exact absurd rfl hv
    | cons x h => exact ⟨_, rfl, rfl⟩
  | text b => exact ⟨_, rfl, rfl⟩
  | sparse c vs b h => exact ⟨_, rfl, h⟩

/-- After the values `ys` the list is `l`. -/
structure Pulled (ys : List (Kind × Int × Value)) (l : List RawFeature) : Prop where
  conv : ∀ r ∈ l, ∃ b, convertFeature r = some b
  at_ : ∀ i : Nat, match lastGiven ys i with
    | none => l.getD i .missing = .missing
    | some (k, v) => ∃ r b, l[i]? = some r ∧ convertFeature r = some b ∧ Encodes k v b

theorem getD_append_missing (l : List RawFeature) (n i : Nat) :
    (l ++ List.replicate n RawFeature.missing).getD i .missing = l.getD i .missing := by
  simp only [List.getD_eq_getElem?_getD, List.getElem?_append]
  split
  · rfl
  · rename_i h
    rw [List.getElem?_replicate]
    have : l[i]? = none := List.getElem?_eq_none (by omega)
    rw [this]
    split <;> rfl

theorem pulled_step {ys : List (Kind × Int × Value)} {l : List RawFeature} (h : Pulled ys l) (y : Kind × Int × Value) (h0 : 0 ≤ y.2.1)
    {b : Option Bytes} (he : Encodes y.1 y.2.2 b) : ∃ l', step l y = some l' ∧ Pulled (ys ++ [y]) l' := by
  obtain ⟨r, h1, h2⟩ := readValue_of_encodes he
  refine ⟨_, by simp only [step, h1, Option.bind_some, setFeature, if_pos h0]; rfl, ?_, ?_⟩
  · intro x hx
    rcases List.mem_or_eq_of_mem_set hx with hx | rfl
    · rcases List.mem_append.1 hx with hx | hx
      · exact h.conv x hx
      · rw [List.mem_replicate] at hx
        exact ⟨none, by rw [hx.2]; rfl⟩
    · exact ⟨b, h2⟩
  · intro i
    rw [lastGiven_snoc]
    split
    · rename_i hi
      split at hi
      · simp at hi
      · rename_i hne
        have h3 := h.at_ i
        rw [hi] at h3
        have hne' : ¬ y.2.1.toNat = i := by omega
        rw [List.getD_eq_getElem?_getD, List.getElem?_set_ne hne', ← List.getD_eq_getElem?_getD, getD_append_missing]
        exact h3
    · rename_i k v hi
      split at hi
      · rename_i hey
        simp only [Option.some.injEq, Prod.mk.injEq] at hi
        obtain ⟨rfl, rfl⟩ := hi
        have hi' : y.2.1.toNat = i := by omega
        refine ⟨r, b, ?_, h2, he⟩
        rw [hi', List.getElem?_set_self]
        simp only [List.length_append, List.length_replicate]
        omega
      · have h3 := h.at_ i
        rw [hi] at h3
        obtain ⟨r', b', h4, h5, h6⟩ := h3
        have hne' : ¬ y.2.1.toNat = i := by omega
        refine ⟨r', b', ?_, h5, h6⟩
        rw [List.getElem?_set_ne hne', List.getElem?_append]
        have : i < l.length := by
          rcases Nat.lt_or_ge i l.length with h | h
          · exact h
          · rw [List.getElem?_eq_none h] at h4; simp at h4
        rw [if_pos this]
        exact h4

theorem pulled_fold (zs : List (Kind × Int × Value)) : ∀ {ys : List (Kind × Int × Value)} {l : List RawFeature}, Pulled ys l →
    (∀ z ∈ zs, 0 ≤ z.2.1 ∧ ∃ b, Encodes z.1 z.2.2 b) → ∃ l', zs.foldlM step l = some l' ∧ Pulled (ys ++ zs) l' := by
  induction zs with
  | nil => intro ys l h _; exact ⟨l, rfl, by simpa using h⟩
  | cons z zs ih =>
    intro ys l h hz
    obtain ⟨h0, b, he⟩ := hz z (by simp)
    obtain ⟨l1, h1, h2⟩ := pulled_step h z h0 he
    obtain ⟨l2, h3, h4⟩ := ih h2 (fun x hx => hz x (by simp [hx]))
    exact ⟨l2, by rw [List.foldlM_cons, h1]; exact h3, by simpa using h4⟩

theorem mapM_each {α β : Type} {f : α → Option β} {l : List α} (h : ∀ a ∈ l, ∃ b, f a = some b) : ∃ bs, l.mapM f = some bs := by
  induction l with
  | nil => exact ⟨[], rfl⟩
  | cons a l ih =>
    obtain ⟨b, hb⟩ := h a (by simp)
    obtain ⟨bs, hbs⟩ := ih (fun x hx => h x (by simp [hx]))
    exact ⟨b :: bs, by rw [List.mapM_cons, hb, hbs]; rfl⟩

theorem mapM_cons_inv {α β : Type} {f : α → Option β} {a : α} {l : List α} {r : List β} (h : (a :: l).mapM f = some r) :
    ∃ b bs, f a = some b ∧ l.mapM f = some bs ∧ r = b :: bs := by
  rw [List.mapM_cons] at h
  obtain ⟨b, hb, h⟩ := Option.bind_eq_some_iff.1 h
  obtain ⟨bs, hbs, h⟩ := Option.bind_eq_some_iff.1 h
  simp only [Option.pure_def, Option.some.injEq] at h
  exact ⟨b, bs, hb, hbs, h.symm⟩

theorem mapM_get {α β : Type} {f : α → Option β} : ∀ {l : List α} {r : List β}, l.mapM f = some r → ∀ i : Nat, l[i]?.bind f = r[i]?
  | [], r, h, i => by
    simp only [List.mapM_nil, Option.pure_def, Option.some.injEq] at h
    subst h
    simp
  | a :: l, r, h, i => by
    obtain ⟨b, bs, h1, h2, rfl⟩ := mapM_cons_inv h
    cases i with
    | zero => simpa using h1
    | succ i => simpa using mapM_get h2 i

theorem features_stored (fs : Features) (h : FeaturesValid fs) : ∃ out, features fs = some out ∧ StoresFeatures fs out := by
  obtain ⟨l, h1, h2⟩ := pulled_fold (given fs) (ys := []) (l := []) ⟨by simp, fun i => by simp [lastGiven]⟩ (by
    intro z hz
    obtain ⟨g, hg, hz⟩ := List.mem_flatMap.1 hz
    obtain ⟨x, hx, rfl⟩ := List.mem_map.1 hz
    exact h g hg x hx)
  obtain ⟨out, h3⟩ := mapM_each h2.conv
  refine ⟨out, by rw [features, pullFeatures, pull_eq, h1]; exact h3, ?_⟩
  intro i
  have h4 := h2.at_ i
  rw [List.nil_append, lastGiven_given] at h4
  have h5 := mapM_get h3 i
  split
  · rename_i h6
    rw [h6] at h4
    simp only [List.getD_eq_getElem?_getD] at h4 ⊢
    rw [← h5]
    cases h7 : l[i]? with
    | none => rfl
    | some r =>
      rw [h7] at h4
      simp only [Option.getD_some] at h4
      subst h4
      rfl
  · rename_i k v h6
    rw [h6] at h4
    obtain ⟨r, b, h7, h8, h9⟩ := h4
    exact ⟨b, by rw [← h5, h7]; exact h8, h9⟩

/-! ### Order of the edges -/

theorem insertEdge_perm (e : Edge) (l : List Edge) : (insertEdge e l).Perm (e :: l) := by
  induction l with
  | nil => exact .refl _
  | cons x l ih =>
    rw [insertEdge]
    split
    · exact .refl _
    · exact (ih.cons x).trans (.swap e x l)

theorem sortEdges_perm (l : List Edge) : (sortEdges l).Perm l := by
  have : ∀ acc : List Edge, (l.foldl (fun acc e => insertEdge e acc) acc).Perm (acc ++ l) := by
    induction l with
    | nil => intro acc; simp
    | cons e l ih =>
      intro acc
      refine (ih _).trans ?_
      exact ((insertEdge_perm e acc).append_right l).trans (List.perm_middle (a := e) (l₁ := acc) (l₂ := l)).symm
  have := this []
  rwa [List.nil_append] at this

theorem infLt_of_not {a b : Option Int} (h : infLt a b = false) (hne : a ≠ b) : infLt b a = true := by
  cases a <;> cases b <;> simp_all [infLt]
  omega

theorem infLt_trans {a b c : Option Int} (h : infLt b a = false) (h' : infLt c b = false) : infLt c a = false := by
  cases a <;> cases b <;> cases c <;> simp_all [infLt]
  omega

/-- `a` may stand before `b`. -/
def KeyLe (a b : Edge) : Prop := keyLt b a = false

theorem keyLe_of_lt {a b : Edge} (h : keyLt a b = true) : KeyLe a b := by
  simp only [KeyLe]
  simp only [keyLt, Bool.or_eq_true, Bool.and_eq_true, decide_eq_true_eq, beq_iff_eq] at h
  simp only [keyLt, Bool.or_eq_false_iff, Bool.and_eq_false_iff, decide_eq_false_iff_not, beq_eq_false_iff_ne]
  have hl : infLt (removedKey a) (removedKey b) = true → infLt (removedKey b) (removedKey a) = false := by
    cases removedKey a <;> cases removedKey b <;> simp [infLt]
    omega
  have hne : infLt (removedKey a) (removedKey b) = true → removedKey b ≠ removedKey a := by
    intro h1 h2
    rw [h2] at h1
    cases h3 : removedKey a <;> simp [h3, infLt] at h1
  grind

theorem keyLe_trans {a b c : Edge} (h : KeyLe a b) (h' : KeyLe b c) : KeyLe a c := by
  simp only [KeyLe, keyLt, Bool.or_eq_false_iff, Bool.and_eq_false_iff, decide_eq_false_iff_not, beq_eq_false_iff_ne] at h h' ⊢
  have h1 : infLt (removedKey b) (removedKey a) = false → infLt (removedKey c) (removedKey b) = false →
      infLt (removedKey c) (removedKey a) = false := infLt_trans
  have h2 : infLt (removedKey b) (removedKey a) = false → removedKey b ≠ removedKey a → infLt (removedKey a) (removedKey b) = true :=
    fun x y => infLt_of_not x y
  have h3 : infLt (removedKey c) (removedKey b) = false → removedKey c ≠ removedKey b → infLt (removedKey b) (removedKey c) = true :=
    fun x y => infLt_of_not x y
  have h4 : infLt (removedKey c) (removedKey a) = false → removedKey c ≠ removedKey a → infLt (removedKey a) (removedKey c) = true :=
    fun x y => infLt_of_not x y
  generalize removedKey a = ra at *
  generalize removedKey b = rb at *
  generalize removedKey c = rc at *
  rcases Int.lt_trichotomy a.typ b.typ with t1 | t1 | t1 <;> rcases Int.lt_trichotomy b.typ c.typ with t2 | t2 | t2 <;>
    rcases Int.lt_trichotomy (a.created.getD 0) (b.created.getD 0) with s1 | s1 | s1 <;>
    rcases Int.lt_trichotomy (b.created.getD 0) (c.created.getD 0) with s2 | s2 | s2 <;>
    grind

theorem insertEdge_sorted (e : Edge) {l : List Edge} (h : l.Pairwise KeyLe) : (insertEdge e l).Pairwise KeyLe := by
  induction l with
  | nil => simp [insertEdge]
  | cons x l ih =>
    rw [List.pairwise_cons] at h
    rw [insertEdge]
    split
    · rename_i hlt
      have := keyLe_of_lt hlt
      refine List.pairwise_cons.2 ⟨?_, List.pairwise_cons.2 h⟩
      intro y hy
      rcases List.mem_cons.1 hy with rfl | hy
      · exact this
      · exact keyLe_trans this (h.1 y hy)
    · rename_i hlt
      refine List.pairwise_cons.2 ⟨?_, ih h.2⟩
      intro y hy
      rcases List.mem_cons.1 ((insertEdge_perm e l).mem_iff.1 hy) with rfl | hy
      · simpa [KeyLe] using hlt
      · exact h.1 y hy

theorem sortEdges_sorted (l : List Edge) : (sortEdges l).Pairwise KeyLe := by
  have : ∀ acc : List Edge, acc.Pairwise KeyLe → (l.foldl (fun acc e => insertEdge e acc) acc).Pairwise KeyLe := by
    induction l with
    | nil => intro acc h; exact h
    | cons e l ih => intro acc h; exact ih _ (insertEdge_sorted e h)
  exact this [] List.Pairwise.nil

theorem keyLe_typ {a b : Edge} (h : KeyLe a b) : a.typ ≤ b.typ := by
  simp only [KeyLe, keyLt, Bool.or_eq_false_iff, decide_eq_false_iff_not] at h
  omega

theorem removedKey_eq (e : Edge) : removedKey e = removalTime (some 0) e.removed := by
  rw [removedKey]
  cases e.removed with
  | none => simp [removalTime]
  | some v => by_cases h : v = -1 <;> simp [removalTime, h]

theorem infLt_false {a b : Option Int} (h : infLt b a = false) : removalLe a b := by
  cases a <;> cases b <;> simp_all [infLt, removalLe]

theorem keyLe_before {a b : Edge} (h : KeyLe a b) : EdgeBefore a b := by
  simp only [KeyLe, keyLt, Bool.or_eq_false_iff, Bool.and_eq_false_iff, decide_eq_false_iff_not, beq_eq_false_iff_ne, removedKey_eq] at h
  have h1 := @infLt_false (removalTime (some 0) a.removed) (removalTime (some 0) b.removed)
  simp only [EdgeBefore]
  generalize removalTime (some 0) a.removed = ra at *
  generalize removalTime (some 0) b.removed = rb at *
  grind

/-! ### Records -/

theorem decode_records (n : Node) (hf : FeaturesValid n.features) (he : ∀ e ∈ n.edges, FeaturesValid e.features) :
    ∃ fs es, decode n = some (⟨n.id, -1, n.typ, n.weight, some (n.created.getD 0), some (n.removed.getD (-1)), fs⟩ :: es) ∧
      StoresFeatures n.features fs ∧ (sortEdges n.edges).mapM (edgeRec (n.created.getD 0) (n.removed.getD (-1))) = some es := by
  obtain ⟨fs, h1, h2⟩ := features_stored n.features hf
  obtain ⟨es, h3⟩ := mapM_each (f := edgeRec (n.created.getD 0) (n.removed.getD (-1))) (l := sortEdges n.edges) (by
    intro e hm
    obtain ⟨out, h4, -⟩ := features_stored e.features (he e ((sortEdges_perm _).mem_iff.1 hm))
    exact ⟨_, by rw [edgeRec, h4]; rfl⟩)
  exact ⟨fs, es, by rw [decode, h1, Option.bind_some, h3]; rfl, h2, h3⟩

theorem edgeRec_inv {nc nr : Int} {e : Edge} {r : Rec} (h : edgeRec nc nr e = some r) :
    r.src = e.src ∧ r.dst = e.dst ∧ r.typ = e.typ ∧ r.weight = e.weight ∧ r.created = some (e.created.getD nc) ∧
      r.removed = some (e.removed.getD nr) ∧ features e.features = some r.features := by
  rw [edgeRec] at h
  obtain ⟨fs, h1, rfl⟩ := Option.map_eq_some_iff.1 h
  exact ⟨rfl, rfl, rfl, rfl, rfl, rfl, h1⟩

theorem removed_eq (n : Node) (e : Edge) : removalTime (nodeLife n).2 (some (e.removed.getD (n.removed.getD (-1)))) = (jsonTimed n e).removed := by
  simp only [jsonTimed, nodeLife]
  cases e.removed with
  | none =>
    cases n.removed with
    | none => simp [removalTime]
    | some v => simp [removalTime]
  | some v => simp [removalTime]

theorem node_removed_eq (n : Node) : removalTime none (some (n.removed.getD (-1))) = (nodeLife n).2 := by
  simp only [nodeLife]
  cases n.removed <;> simp [removalTime]

theorem edges_timed (n : Node) : ∀ {l : List Edge} {es : List Rec}, l.mapM (edgeRec (n.created.getD 0) (n.removed.getD (-1))) = some es →
    (∀ e ∈ l, e.dst ≠ -1) → timedEdges (nodeLife n).1 (nodeLife n).2 es = l.map (jsonTimed n)
  | [], es, h, _ => by
    simp only [List.mapM_nil, Option.pure_def, Option.some.injEq] at h
    subst h
    rfl
  | e :: l, es, h, hd => by
    obtain ⟨r, rs, h1, h2, rfl⟩ := mapM_cons_inv h
    obtain ⟨k1, k2, k3, k4, k5, k6, -⟩ := edgeRec_inv h1
    have ih := edges_timed n h2 (fun x hx => hd x (by simp [hx]))
    rw [timedEdges, if_neg (by rw [k2]; exact hd e (by simp)), ih, List.map_cons, k1, k2, k3, k4, k5, k6, removed_eq]
    rfl

theorem decode_timed {n : Node} {rs : List Rec} (h : decode n = some rs) (hd : ∀ e ∈ n.edges, e.dst ≠ -1) :
    timedEdges 0 none rs = (sortEdges n.edges).map (jsonTimed n) := by
  rw [decode] at h
  obtain ⟨fs, -, h⟩ := Option.bind_eq_some_iff.1 h
  obtain ⟨es, h1, rfl⟩ := Option.map_eq_some_iff.1 h
  rw [timedEdges, if_pos rfl]
  simp only [Option.getD_some, node_removed_eq]
  exact edges_timed n h1 (fun e he => hd e ((sortEdges_perm _).mem_iff.1 he))

theorem nested_edges (n : Node) : ∀ {l : List Edge} {es : List Rec}, l.mapM (edgeRec (n.created.getD 0) (n.removed.getD (-1))) = some es →
    (∀ e ∈ l, (nodeLife n).1 ≤ (jsonTimed n e).created ∧ removalLe (jsonTimed n e).removed (nodeLife n).2) → (∀ e ∈ l, e.dst ≠ -1) →
    LifetimesNested (nodeLife n).1 (nodeLife n).2 es
  | [], es, h, _, _ => by
    simp only [List.mapM_nil, Option.pure_def, Option.some.injEq] at h
    subst h
    trivial
  | e :: l, es, h, hl, hd => by
    obtain ⟨r, rs, h1, h2, rfl⟩ := mapM_cons_inv h
    obtain ⟨k1, k2, k3, k4, k5, k6, -⟩ := edgeRec_inv h1
    have ih := nested_edges n h2 (fun x hx => hl x (by simp [hx])) (fun x hx => hd x (by simp [hx]))
    rw [LifetimesNested, if_neg (by rw [k2]; exact hd e (by simp)), k5, k6, removed_eq]
    exact ⟨hl e (by simp), ih⟩

theorem mem_mapM {α β : Type} {f : α → Option β} : ∀ {l : List α} {r : List β}, l.mapM f = some r → ∀ b ∈ r, ∃ a ∈ l, f a = some b
  | [], r, h, b, hb => by
    simp only [List.mapM_nil, Option.pure_def, Option.some.injEq] at h
    subst h
    simp at hb
  | a :: l, r, h, b, hb => by
    obtain ⟨c, cs, h1, h2, rfl⟩ := mapM_cons_inv h
    rcases List.mem_cons.1 hb with rfl | hb
    · exact ⟨a, by simp, h1⟩
    · obtain ⟨x, hx, h3⟩ := mem_mapM h2 b hb
      exact ⟨x, by simp [hx], h3⟩

theorem mapM_pairwise {f : Edge → Option Rec} (hf : ∀ e r, f e = some r → r.typ = e.typ) : ∀ {l : List Edge} {es : List Rec}, l.mapM f = some es →
    l.Pairwise (fun a b => a.typ ≤ b.typ) → es.Pairwise (fun a b => a.typ ≤ b.typ)
  | [], es, h, _ => by
    simp only [List.mapM_nil, Option.pure_def, Option.some.injEq] at h
    subst h
    exact List.Pairwise.nil
  | e :: l, es, h, hp => by
    obtain ⟨r, rs, h1, h2, rfl⟩ := mapM_cons_inv h
    rw [List.pairwise_cons] at hp
    refine List.pairwise_cons.2 ⟨?_, mapM_pairwise hf h2 hp.2⟩
    intro b hb
    obtain ⟨x, hx, h3⟩ := mem_mapM h2 b hb
    rw [hf e r h1, hf x b h3]
    exact hp.1 x hx

theorem timeFits_getD {t : Option Int} {d : Int} (h : TimeFits t) (hd : -(2 ^ 63) ≤ d ∧ d < 2 ^ 63) : -(2 ^ 63) ≤ t.getD d ∧ t.getD d < 2 ^ 63 := by
  cases t with
  | none => exact hd
  | some v => exact h v rfl

/-- Records of a valid line. -/
structure LineOk (rs : List Rec) : Prop where
  fits : ∀ r ∈ rs, RecordFits r
  first : ∃ r es, rs = r :: es ∧ r.dst = -1
  types : TypesOrdered rs
  nested : LifetimesNested 0 none rs

theorem pairwise_ordered {rs : List Rec} (h : rs.Pairwise (fun a b => a.typ ≤ b.typ)) : TypesOrdered rs := by
  rintro a r s b rfl _ _ _
  have := (List.pairwise_append.1 h).2.1
  rw [List.pairwise_cons] at this
  exact this.1 s (by simp)

theorem line_ok {n : Node} (hv : JsonValid n) {rs : List Rec} (h : decode n = some rs) : LineOk rs := by
  rw [decode] at h
  obtain ⟨fs, -, h⟩ := Option.bind_eq_some_iff.1 h
  obtain ⟨es, h1, rfl⟩ := Option.map_eq_some_iff.1 h
  have hmem : ∀ e ∈ sortEdges n.edges, e ∈ n.edges := fun e he => (sortEdges_perm _).mem_iff.1 he
  have hdst : ∀ e ∈ sortEdges n.edges, e.dst ≠ -1 := by
    intro e he
    have := (hv.edges e (hmem e he)).2.1
    omega
  have hc := timeFits_getD hv.created (d := 0) (by omega)
  have hr := timeFits_getD hv.removed (d := -1) (by omega)
  have hes : ∀ r ∈ es, RecordFits r := by
    intro r hrm
    obtain ⟨e, he, h2⟩ := mem_mapM h1 r hrm
    obtain ⟨k1, k2, k3, k4, k5, k6, -⟩ := edgeRec_inv h2
    obtain ⟨v1, v2, v3, v4, v5, -⟩ := hv.edges e (hmem e he)
    refine ⟨by rw [k1]; exact v1, .inr (by rw [k2]; exact v2), by rw [k3]; exact v3, ?_, ?_⟩
    · intro v hv'
      rw [k5, Option.some.injEq] at hv'
      subst hv'
      exact timeFits_getD v4 hc
    · intro v hv'
      rw [k6, Option.some.injEq] at hv'
      subst hv'
      exact timeFits_getD v5 hr
  refine ⟨?_, ⟨_, _, rfl, rfl⟩, ?_, ?_⟩
  · intro r hrm
    rcases List.mem_cons.1 hrm with rfl | hrm
    · refine ⟨hv.id, .inl rfl, hv.typ, ?_, ?_⟩
      · rintro v ⟨⟩; exact hc
      · rintro v ⟨⟩; exact hr
    · exact hes r hrm
  · have hp : es.Pairwise (fun a b => a.typ ≤ b.typ) := mapM_pairwise (fun e r h => (edgeRec_inv h).2.2.1) h1
      ((sortEdges_sorted n.edges).imp keyLe_typ)
    cases es with
    | nil =>
      intro a x y b hab
      have := congrArg List.length hab
      simp at this
      omega
    | cons e es =>
      intro a x y b hab hx hy hs
      cases a with
      | nil =>
        simp only [List.nil_append, List.cons.injEq] at hab
        obtain ⟨rfl, -⟩ := hab
        exact absurd rfl hx
      | cons z a =>
        simp only [List.cons_append, List.cons.injEq] at hab
        exact pairwise_ordered hp a x y b hab.2 hx hy hs
  · rw [LifetimesNested, if_pos rfl]
    simp only [Option.getD_some, node_removed_eq]
    exact nested_edges n h1 (fun e he => hv.lifetimes e (hmem e he)) hdst

theorem typesOrdered_lines : ∀ (lines : List (List Rec)), (∀ rs ∈ lines, LineOk rs) → TypesOrdered lines.flatten
  | [], _ => by intro a x y b hab; simp at hab
  | rs :: lines, h => by
    have h1 := (h rs (by simp)).types
    have h2 := typesOrdered_lines lines (fun x hx => h x (by simp [hx]))
    rw [List.flatten_cons]
    intro a x y b hab hx hy hs
    rcases List.append_eq_append_iff.1 hab with ⟨c, h3, h4⟩ | ⟨c, h3, h4⟩
    · exact h2 c x y b h4 hx hy hs
    · cases c with
      | nil =>
        simp only [List.nil_append, List.append_nil] at h4 h3
        exact h2 [] x y b h4.symm hx hy hs
      | cons z c =>
        simp only [List.cons_append, List.cons.injEq] at h4
        obtain ⟨rfl, h4⟩ := h4
        cases c with
        | cons z' c =>
          simp only [List.cons_append, List.cons.injEq] at h4
          obtain ⟨rfl, h4⟩ := h4
          exact h1 a x y c h3 hx hy hs
        | nil =>
          -- `y` is the first record of a later line
          simp only [List.nil_append] at h4
          exfalso
          cases lines with
          | nil => simp at h4
          | cons l ls =>
            obtain ⟨r, es, rfl, h5⟩ := (h l (by simp)).first
            simp only [List.flatten_cons, List.cons_append, List.cons.injEq] at h4
            obtain ⟨rfl, -⟩ := h4
            exact hy h5

theorem validPart_lines {lines : List (List Rec)} (h : ∀ rs ∈ lines, LineOk rs) : ValidPart lines where
  fits := by
    intro r hr
    obtain ⟨l, h1, h2⟩ := List.mem_flatten.1 hr
    exact (h l h1).fits r h2
  types := typesOrdered_lines lines h
  lifetimes := fun c hc => (h c hc).nested

theorem mapM_flatten {α β : Type} {f : α → Option β} : ∀ {ls : List (List α)} {rs : List (List β)}, ls.mapM (fun l => l.mapM f) = some rs →
    ls.flatten.mapM f = some rs.flatten
  | [], rs, h => by
    simp only [List.mapM_nil, Option.pure_def, Option.some.injEq] at h
    subst h
    rfl
  | l :: ls, rs, h => by
    obtain ⟨b, bs, h1, h2, rfl⟩ := mapM_cons_inv h
    rw [List.flatten_cons, List.mapM_append, h1, mapM_flatten h2]
    rfl

theorem timed_lines : ∀ {ns : List Node} {rs : List (List Rec)}, ns.mapM decode = some rs → (∀ n ∈ ns, ∀ e ∈ n.edges, e.dst ≠ -1) →
    (rs.flatMap (timedEdges 0 none)).Perm (ns.flatMap fun n => n.edges.map (jsonTimed n))
  | [], rs, h, _ => by
    simp only [List.mapM_nil, Option.pure_def, Option.some.injEq] at h
    subst h
    exact .refl _
  | n :: ns, rs, h, hd => by
    obtain ⟨b, bs, h1, h2, rfl⟩ := mapM_cons_inv h
    rw [List.flatMap_cons, List.flatMap_cons, decode_timed h1 (hd n (by simp))]
    exact ((sortEdges_perm _).map _).append (timed_lines h2 (fun x hx => hd x (by simp [hx])))

theorem timed_parts {parts : List (List Node)} {recs : List (List (List Rec))} (h : decodeParts parts = some recs)
    (hd : ∀ p ∈ parts, ∀ n ∈ p, ∀ e ∈ n.edges, e.dst ≠ -1) : (allTimedEdges recs).Perm (jsonTimedEdges parts) := by
  refine timed_lines (mapM_flatten h) ?_
  intro n hn
  obtain ⟨p, h1, h2⟩ := List.mem_flatten.1 hn
  exact hd p h1 n h2

/-- Edge records and edges with their lifetimes are the same edges. -/
theorem filter_timed (n : Int) (types : List Int) (nc : Int) (nr : Option Int) (rs : List Rec) :
    ((rs.filter fun r => r.dst ≠ -1).filter fun r => r.src = n ∧ r.typ ∈ types).map (fun r => (⟨r.dst, r.typ, r.weight⟩ : Nbr)) =
    ((timedEdges nc nr rs).filter fun e => e.src = n ∧ e.typ ∈ types).map (fun e => (⟨e.dst, e.typ, e.weight⟩ : Nbr)) := by
  induction rs generalizing nc nr with
  | nil => rfl
  | cons r rs ih =>
    rw [timedEdges]
    by_cases hd : r.dst = -1
    · rw [if_pos hd, ← ih, List.filter_cons]
      simp [hd]
    · rw [if_neg hd, List.filter_cons]
      simp only [ne_eq, hd, not_false_eq_true, decide_true, if_true, List.filter_cons]
      split
      · rename_i h
        simp only [List.map_cons, List.cons.injEq, true_and]
        rw [← ih nc nr]
      · rw [← ih nc nr]

theorem mem_timed {r : Rec} (hd : r.dst ≠ -1) : ∀ {rs : List Rec} {nc : Int} {nr : Option Int}, r ∈ rs →
    ∃ e ∈ timedEdges nc nr rs, e.src = r.src ∧ e.typ = r.typ ∧ e.weight = r.weight
  | [], nc, nr, h => absurd h List.not_mem_nil
  | s :: rs, nc, nr, h => by
    rw [timedEdges]
    rcases List.mem_cons.1 h with rfl | h
    · rw [if_neg hd]
      exact ⟨_, List.mem_cons_self, rfl, rfl, rfl⟩
    · split
      · exact mem_timed hd h
      · obtain ⟨e, h1, h2⟩ := mem_timed hd (nc := nc) (nr := nr) h
        exact ⟨e, List.mem_cons_of_mem _ h1, h2⟩

theorem record_timed {recs : List (List (List Rec))} {r : Rec} (h : r ∈ edgeRecords recs) :
    ∃ e ∈ allTimedEdges recs, e.src = r.src ∧ e.typ = r.typ ∧ e.weight = r.weight := by
  obtain ⟨h1, h2⟩ := List.mem_filter.1 h
  obtain ⟨c, h3, h4⟩ := List.mem_flatten.1 h1
  obtain ⟨e, h5, h6⟩ := mem_timed (by simpa using h2) h4 (nc := 0) (nr := none)
  exact ⟨e, List.mem_flatMap.2 ⟨c, h3, h5⟩, h6⟩

theorem neighbors_timed (recs : List (List (List Rec))) (n : Int) (types : List Int) :
    neighbors recs n types = ((allTimedEdges recs).filter fun e => e.src = n ∧ e.typ ∈ types).map fun e => ⟨e.dst, e.typ, e.weight⟩ := by
  rw [neighbors, edgeRecords, allRecords, allTimedEdges]
  induction recs.flatten with
  | nil => rfl
  | cons c cs ih =>
    rw [List.flatten_cons, List.filter_append, List.filter_append, List.map_append, List.flatMap_cons, List.filter_append, List.map_append, ih,
      filter_timed]

end DeepGNN.Json
