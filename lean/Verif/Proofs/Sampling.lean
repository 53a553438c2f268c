import Verif.Model.Sampling
import Verif.Spec.Sampling
import Verif.Proofs.Reservoir
import Verif.Proofs.CountAt
import Verif.Proofs.LastN

namespace DeepGNN

theorem sampleGroups_walk (ms : List Group) (es : List Int) :
    sampleGroups ms es = (walk Group.typ ms es).map fun g => (g, g.typ) := by
  induction hn : ms.length using Nat.strongRecOn generalizing ms es with
  | ind n ih =>
    cases ms with
    | nil => simp [sampleGroups, walk]
    | cons m ms =>
      rw [sampleGroups]
      have nilAll : ∀ l : List Group, l.length < n → sampleGroups l [] = [] := by
        intro l hl
        rw [ih l.length hl l [] rfl]
        cases l with
        | nil => simp [walk]
        | cons a l => rw [walk]; simp
      cases he : es.dropWhile (fun e => decide (e < m.typ)) with
      | nil =>
        have h1 : advanceEdgeTypes es (m :: ms) = (false, [], m :: ms) := by
          simp only [advanceEdgeTypes, he]
        split
        · rename_i h2; rw [h1] at h2; simp at h2
        · rename_i h2
          rw [h1] at h2
          obtain ⟨-, rfl, rfl⟩ := h2
          rw [walk_of_nil he]
          simp only [List.tail_cons, List.map_nil]
          exact nilAll ms (by simp at hn; omega)
      | cons e es' =>
        cases hg : (m :: ms).dropWhile (fun g => decide (e > g.typ)) with
        | nil =>
          have h1 : advanceEdgeTypes es (m :: ms) = (false, e :: es', []) := by
            simp only [advanceEdgeTypes, he, hg]
          split
          · rename_i h2; rw [h1] at h2; simp at h2
          · rename_i h2
            rw [h1] at h2
            obtain ⟨-, rfl, rfl⟩ := h2
            rw [walk_of_nil2 he hg]
            simp [sampleGroups]
        | cons g gs =>
          have hlen : gs.length < n := by
            have := (List.dropWhile_sublist (fun g : Group => decide (e > g.typ)) (l := m :: ms)).length_le
            rw [hg] at this; simp at this hn; omega
          have h1 : advanceEdgeTypes es (m :: ms) = (decide (g.typ = e), e :: es', g :: gs) := by
            simp only [advanceEdgeTypes, he, hg]
          have hw := walk_of_cons (key := Group.typ) he hg
          split
          · rename_i h2
            rw [h1] at h2
            simp only [Prod.mk.injEq, decide_eq_true_eq, List.cons.injEq] at h2
            obtain ⟨h3, ⟨rfl, rfl⟩, rfl, rfl⟩ := h2
            rw [hw, if_pos h3, ih _ hlen gs _ rfl]
            simp [h3]
          · rename_i h4 h2
            rw [h1] at h2
            obtain ⟨rfl, rfl, rfl⟩ := h2
            rw [hw]
            by_cases h3 : g.typ = e
            · exact (h4 e es' g gs (by simp [h3]) rfl rfl).elim
            · rw [if_neg h3, List.tail_cons, ih _ hlen gs _ rfl]

/-! Reservoirs -/

theorem AlgLInv.selection {α} {k : Nat} {all out0 out : List α} {a : AlgL} (h : AlgLInv k all out0 out a) :
    out.length = k ∧ Spec.Selection all out0 out := by
  obtain ⟨ps, h1, -, h3⟩ := h.picked
  refine ⟨by rw [h3.len, h.size], out.take ps.length, ps, ?_, ?_, h3.nodup, h3.vals⟩
  · have := h3.length_le
    rw [List.length_take, Nat.min_eq_left this, ← h3.rest, List.take_append_drop]
  · have := h3.length_le
    rw [List.length_take, h.size]; omega

theorem AlgL.run_selection {α} (R : Draws) (blocks : List (List α)) (out0 : List α) (hk : 0 < out0.length)
    (s : Nat) : ∃ out a s', AlgL.run R blocks (out0, { k := out0.length }, s) = some (out, a, s') ∧
      out.length = out0.length ∧ Spec.Selection blocks.flatten out0 out := by
  obtain ⟨out, a, s', h1, h2⟩ := AlgL.run_inv R out0.length hk blocks (AlgLInv.init out0) s
  rw [List.nil_append] at h2
  exact ⟨out, a, s', h1, h2.selection⟩

/-- Entries of a reservoir with replacement. -/
structure WithInv {α} (k : Nat) (all out0 out : List α) (seen : Nat) : Prop where
  seen_eq : seen = all.length
  len : out.length = k
  empty : all = [] → out = out0
  mem : all ≠ [] → ∀ x ∈ out, x ∈ all

theorem withReplacement_inv {α} (R : Draws) (k : Nat) {all out0 out : List α} {seen : Nat}
    (h : WithInv k all out0 out seen) (xs : List α) (s : Nat) :
    ∃ out' seen' s', withReplacementAdd R (store xs) k xs.length (out, seen, s) = some (out', seen', s') ∧
      WithInv k (all ++ xs) out0 out' seen' := by
  simp only [withReplacementAdd, h.seen_eq]
  generalize hF : (fun (x : List α × Nat) i =>
      if 0 < xs.length ∧ (xs.length = all.length + xs.length ∨ R x.2 % 2 = 0) then
        (store xs x.1 i (R (x.2 + 1) % xs.length)).map fun o => (o, x.2 + 2)
      else some (x.1, x.2 + 1)) = F
  by_cases hx : xs = []
  · -- an empty block changes nothing
    subst hx
    have : ∀ (l : List Nat) (o : List α) (s : Nat), ∃ s', l.foldlM F (o, s) = some (o, s') := by
      intro l
      induction l with
      | nil => intro o s; exact ⟨s, rfl⟩
      | cons i l ih =>
        intro o s
        obtain ⟨s', hs⟩ := ih o (s + 1)
        refine ⟨s', ?_⟩
        rw [List.foldlM_cons]
        subst hF
        simpa using hs
    obtain ⟨s', hs⟩ := this (List.range k) out s
    rw [hs]
    refine ⟨out, _, s', rfl, ?_⟩
    simp only [List.append_nil]
    exact ⟨by simp, h.len, h.empty, h.mem⟩
  · have hpos : 0 < xs.length := List.length_pos_iff.2 hx
    have step : ∀ (n : Nat), n ≤ k → ∃ o s', (List.range n).foldlM F (out, s) = some (o, s') ∧ o.length = k ∧
        (∀ i (hi : i < o.length), (i < n ∨ all ≠ []) → o[i] ∈ all ++ xs) := by
      intro n
      induction n with
      | zero =>
        intro _
        refine ⟨out, s, rfl, h.len, ?_⟩
        intro i hi hor
        rcases hor with hor | hor
        · omega
        · exact List.mem_append_left _ (h.mem hor _ (List.getElem_mem _))
      | succ n ih =>
        intro hn
        obtain ⟨o, s1, h1, h2, h3⟩ := ih (by omega)
        rw [List.range_succ, List.foldlM_append, h1]
        simp only [Option.bind_eq_bind, Option.bind_some, List.foldlM_cons, List.foldlM_nil, Option.pure_def]
        have hlt : R (s1 + 1) % xs.length < xs.length := Nat.mod_lt _ hpos
        by_cases hc : 0 < xs.length ∧ (xs.length = all.length + xs.length ∨ R s1 % 2 = 0)
        · refine ⟨o.set n xs[R (s1 + 1) % xs.length], s1 + 2, ?_, by simpa using h2, ?_⟩
          · subst hF
            simp only [hc, and_self, if_true]
            rw [store_some (by omega) hlt]; rfl
          · intro i hi hor
            rw [List.length_set] at hi
            rw [List.getElem_set]
            split
            · exact List.mem_append_right _ (List.getElem_mem _)
            · refine h3 i hi ?_
              rcases hor with hor | hor
              · exact Or.inl (by omega)
              · exact Or.inr hor
        · refine ⟨o, s1 + 1, ?_, h2, ?_⟩
          · subst hF
            simp only [hc, if_false, Option.bind_some]
          · intro i hi hor
            refine h3 i hi ?_
            rcases hor with hor | hor
            · right
              intro hnil
              subst hnil
              exact hc ⟨hpos, by simp⟩
            · exact Or.inr hor
    obtain ⟨o, s', h1, h2, h3⟩ := step k (Nat.le_refl _)
    rw [h1]
    refine ⟨o, _, s', rfl, by simp, h2, by simp [hx], ?_⟩
    intro _ x hxo
    obtain ⟨i, hi, rfl⟩ := List.getElem_of_mem hxo
    exact h3 i hi (Or.inl (by omega))

theorem withReplacement_run {α} (R : Draws) (k : Nat) (blocks : List (List α)) {all out0 out : List α}
    {seen : Nat} (h : WithInv k all out0 out seen) (s : Nat) :
    ∃ out' seen' s', blocks.foldlM (fun st xs => withReplacementAdd R (store xs) k xs.length st)
        (out, seen, s) = some (out', seen', s') ∧
      WithInv k (all ++ blocks.flatten) out0 out' seen' := by
  induction blocks generalizing all out seen s with
  | nil => exact ⟨out, seen, s, rfl, by simpa using h⟩
  | cons xs blocks ih =>
    obtain ⟨out1, a1, s1, h1, h2⟩ := withReplacement_inv R k h xs s
    obtain ⟨out2, a2, s2, h3, h4⟩ := ih h2 s1
    refine ⟨out2, a2, s2, ?_, by simpa using h4⟩
    simp only [List.foldlM_cons, h1, Option.bind_eq_bind, Option.bind_some] at h3 ⊢
    exact h3


/-! Live runs -/

/-- Where `find_start` stops. -/
theorem findStart_spec (ts : Int) (hts : -(2 ^ 31) ≤ ts ∧ ts < 2 ^ 31) (r : List (Int × Int))
    (hs : TimesSorted r) : (∀ x ∈ r, x.1 > ts) ∨
      ((∀ x ∈ r.take (findStart r ts), aliveT ts x = false) ∧
        ∀ e, r[findStart r ts]? = some e → e.1 > ts ∨ aliveT ts e = true) := by
  cases r with
  | nil => left; simp
  | cons f r' =>
    by_cases hf1 : f.1 > ts
    · left
      intro x hx
      rcases List.mem_cons.1 hx with rfl | hx
      · exact hf1
      · have := (List.pairwise_cons.1 hs).1 x hx; omega
    · right
      simp only [findStart]
      split
      · rename_i hal
        refine ⟨by simp, ?_⟩
        intro e he
        simp only [List.getElem?_cons_zero, Option.some.injEq] at he
        subst he
        right
        simp only [aliveT, decide_eq_true_eq]; exact hal
      · rename_i hal
        have hf2 : f.2 ≤ ts ∧ f.2 ≠ -1 := by omega
        have hmax : max ts f.2 = ts := by omega
        have h32 : toInt32 ts = ts := by simp only [toInt32]; omega
        simp only [hmax, h32]
        obtain ⟨-, hle, h3, h4⟩ := bsearch_spec (fun a : Int × Int => decide (a.2 ≠ -1 ∧ a.2 ≤ ts))
          (f :: r') 0 (f :: r').length (by simp)
        generalize bsearch (fun a : Int × Int => decide (a.2 ≠ -1 ∧ a.2 ≤ ts)) (f :: r') 0
          (f :: r').length = p at hle h3 h4
        constructor
        · intro x hx
          obtain ⟨i, hi, rfl⟩ := List.getElem_of_mem hx
          rw [List.length_take] at hi
          rw [List.getElem_take]
          rcases h3 with h3 | ⟨a, ha, hl⟩
          · omega
          obtain ⟨hlt, ha⟩ := List.getElem?_eq_some_iff.1 ha
          simp only [decide_eq_true_eq] at hl
          have hpw := List.pairwise_iff_getElem.1 hs
          have : (f :: r')[i].2 ≠ -1 ∧ (f :: r')[i].2 ≤ ts := by
            by_cases hip : i = p - 1
            · subst hip; rw [ha]; exact hl
            · have := (hpw i (p - 1) (by omega) hlt (by omega)).2
              rw [ha] at this; simp only [remLe] at this; omega
          simp only [aliveT, decide_eq_false_iff_not]; omega
        · intro e he
          by_cases he1 : e.1 > ts
          · exact Or.inl he1
          right
          rcases h4 with h4 | ⟨a, ha, hl⟩
          · rw [h4, Nat.zero_add, List.getElem?_eq_none (Nat.le_refl _)] at he; simp at he
          · rw [he] at ha
            obtain rfl := Option.some.inj ha
            simp only [decide_eq_false_iff_not] at hl
            simp only [aliveT, decide_eq_true_eq]; omega

theorem findLast_le (ts : Int) (r : List (Int × Int)) : findLast r ts ≤ r.length := by
  cases r with
  | nil => simp [findLast]
  | cons e rest =>
    simp only [findLast]
    split
    · omega
    · have := bsearch_le (fun a : Int × Int => decide (¬ (a.2 > e.2 ∨ a.1 > ts))) (e :: rest) 0
        (e :: rest).length
      omega

theorem filter_dead {α} (p : α → Bool) (l : List α) (h : ∀ x ∈ l, p x = false) : l.filter p = [] := by
  rw [List.filter_eq_nil_iff]; intro x hx; rw [h x hx]; simp

/-- The runs found for ordered lifetimes are the live elements. -/
theorem aliveRuns_spec {α} (f : α → Int × Int) (ts : Int) (hts : -(2 ^ 31) ≤ ts ∧ ts < 2 ^ 31)
    (xs pre : List α) (hs : TimesSorted (xs.map f)) :
    (∀ x ∈ aliveRuns ts pre.length (xs.map f), x.1 + x.2.2 ≤ pre.length + xs.length) ∧
    (aliveRuns ts pre.length (xs.map f)).flatMap (fun x => ((pre ++ xs).drop x.1).take x.2.2) =
      xs.filter fun a => aliveT ts (f a) := by
  induction hn : xs.length using Nat.strongRecOn generalizing xs pre with
  | ind n ih =>
    have hfs := findStart_spec ts hts _ hs
    rw [aliveRuns]
    have hdrop : (xs.map f).drop (findStart (xs.map f) ts) = (xs.drop (findStart (xs.map f) ts)).map f := by
      rw [List.map_drop]
    generalize hq : findStart (xs.map f) ts = q at *
    -- split off the dead part
    have hsplit : xs = xs.take q ++ xs.drop q := (List.take_append_drop q xs).symm
    split
    · rename_i h0
      rw [hdrop, List.map_eq_nil_iff] at h0
      refine ⟨by simp, ?_⟩
      simp only [List.flatMap_nil]
      symm
      apply filter_dead
      intro x hx
      rcases hfs with hfs | hfs
      · have := hfs (f x) (List.mem_map_of_mem hx)
        simp only [aliveT, decide_eq_false_iff_not]; omega
      · apply hfs.1
        rw [List.take_of_length_le]
        · exact List.mem_map_of_mem hx
        · simpa using h0
    · rename_i e rest h0
      have h0' := h0
      rw [hdrop] at h0
      cases hxq : xs.drop q with
      | nil => rw [hxq] at h0; simp at h0
      | cons y ys =>
        have hfil : xs.filter (fun a => aliveT ts (f a)) = (y :: ys).filter fun a => aliveT ts (f a) := by
          rcases hfs with hfs | hfs
          · rw [filter_dead _ xs, filter_dead]
            · intro x hx
              have hx' : x ∈ xs := List.mem_of_mem_drop (by rw [hxq]; exact hx)
              have := hfs (f x) (List.mem_map_of_mem hx')
              simp only [aliveT, decide_eq_false_iff_not]; omega
            · intro x hx
              have := hfs (f x) (List.mem_map_of_mem hx)
              simp only [aliveT, decide_eq_false_iff_not]; omega
          · conv => lhs; rw [hsplit, List.filter_append, hxq]
            rw [filter_dead _ (xs.take q), List.nil_append]
            intro x hx
            apply hfs.1
            rw [← List.map_take]; exact List.mem_map_of_mem hx
        rw [hxq] at h0
        simp only [List.map_cons, List.cons.injEq] at h0
        obtain ⟨he, hrest⟩ := h0
        have hqn : q + (y :: ys).length = n := by
          have := congrArg List.length hxq
          have h2 : q < xs.length := by
            rcases Nat.lt_or_ge q xs.length with h | h
            · exact h
            · rw [List.drop_eq_nil_of_le h] at hxq; simp at hxq
          rw [List.length_drop] at this; omega
        have hsd : TimesSorted ((y :: ys).map f) := by
          rw [← hxq, List.map_drop]; exact hs.drop
        have hget : (xs.map f)[q]? = some e := by
          have h5 := List.getElem?_drop (xs := xs.map f) (i := q) (j := 0)
          rw [h0'] at h5
          exact h5.symm
        have fdead : e.1 > ts → (y :: ys).filter (fun a => aliveT ts (f a)) = [] := by
          intro h1
          apply filter_dead
          intro x hx
          have : (f x).1 > ts := by
            rcases List.mem_cons.1 hx with rfl | hx
            · rw [he]; exact h1
            · have := (List.pairwise_cons.1 hsd).1 (f x) (List.mem_map_of_mem hx)
              rw [he] at this; omega
          simp only [aliveT, decide_eq_false_iff_not]; omega
        rw [hfil]
        split
        · rename_i hc
          refine ⟨by simp, ?_⟩
          rw [fdead hc.2]; rfl
        · rename_i hc
          have hcons : e :: rest = (y :: ys).map f := by rw [List.map_cons, he, hrest]
          have hdle : findLast (e :: rest) ts ≤ (y :: ys).length := by
            have h6 := findLast_le ts (e :: rest)
            have h7 := congrArg List.length hcons
            rw [List.length_map] at h7; omega
          -- the live part
          have hlive : e.1 > ts ∨ (0 < findLast (e :: rest) ts ∧
              ∀ x ∈ (y :: ys).take (findLast (e :: rest) ts), aliveT ts (f x) = true) := by
            by_cases h1 : e.1 > ts
            · exact Or.inl h1
            right
            have hal : aliveT ts e = true := by
              rcases hfs with hfs | hfs
              · have := hfs e (List.mem_of_getElem? hget); omega
              · rcases hfs.2 e hget with h | h
                · omega
                · exact h
            have := findLast_alive ts e rest (by rw [hcons]; exact hsd) hal
            refine ⟨this.1, ?_⟩
            intro x hx
            apply this.2
            have hmt : (e :: rest).take (findLast (e :: rest) ts) =
                ((y :: ys).take (findLast (e :: rest) ts)).map f := by
              rw [List.map_take, ← hcons]
            rw [hmt]; exact List.mem_map_of_mem hx
          dsimp only
          generalize hd : findLast (e :: rest) ts = d at *
          generalize hst : (if d = 0 then 1 else d) = st
          have hst1 : 1 ≤ st ∧ d ≤ st ∧ st ≤ (y :: ys).length := by
            simp only [List.length_cons] at hdle ⊢
            split at hst <;> omega
          have hrec := ih (((y :: ys).drop st).length) (by rw [List.length_drop]; omega) ((y :: ys).drop st)
            (pre ++ xs.take q ++ (y :: ys).take st) (by rw [List.map_drop]; exact hsd.drop) rfl
          have hpl : (pre ++ xs.take q ++ (y :: ys).take st).length = pre.length + (st + q) := by
            simp only [List.length_append, List.length_take]
            have : q ≤ xs.length := by omega
            omega
          have hall : pre ++ xs.take q ++ (y :: ys).take st ++ (y :: ys).drop st = pre ++ xs := by
            rw [List.append_assoc, List.take_append_drop, ← hxq, List.append_assoc, List.take_append_drop]
          rw [hpl, hall] at hrec
          have hdr : (e :: rest).drop st = ((y :: ys).drop st).map f := by rw [hcons, List.map_drop]
          rw [hdr]
          constructor
          · intro x hx
            rcases List.mem_cons.1 hx with rfl | hx
            · dsimp only; omega
            · have h3 := hrec.1 x hx
              rw [List.length_drop] at h3; omega
          · rw [List.flatMap_cons, hrec.2]
            have hslice : ((pre ++ xs).drop (pre.length + q)).take d = (y :: ys).take d := by
              rw [← hxq]
              have : (pre ++ xs).drop (pre.length + q) = xs.drop q := by
                rw [← List.drop_drop, List.drop_left]
              rw [this]
            dsimp only
            rw [hslice]
            rcases hlive with h1 | ⟨h1, h2⟩
            · have hd0 : d = 0 := by rw [← hd]; simp [findLast, h1]
              rw [fdead h1, hd0, List.take_zero, List.nil_append]
              have := fdead h1
              have h4 := congrArg (List.filter fun a => aliveT ts (f a)) (List.take_append_drop st (y :: ys))
              rw [List.filter_append, this, List.append_eq_nil_iff] at h4
              exact h4.2
            · have hst2 : st = d := by rw [if_neg (by omega)] at hst; exact hst.symm
              rw [hst2]
              conv => rhs; rw [← List.take_append_drop d (y :: ys), List.filter_append, List.filter_eq_self.2 h2]

/-- Without removals there is at most one run, from the start of the group. -/
theorem aliveRuns_unremoved (ts : Int) (goff : Nat) (r : List (Int × Int)) (hs : TimesSorted r)
    (hr : ∀ x ∈ r, x.2 = -1) : ∀ x ∈ aliveRuns ts goff r, x.1 = goff + x.2.1 := by
  have hstart : ∀ l : List (Int × Int), (∀ x ∈ l, x.2 = -1) → findStart l ts = 0 := by
    intro l hl
    cases l with
    | nil => rfl
    | cons f l =>
      simp only [findStart]
      split
      · rfl
      · obtain ⟨-, -, h3, -⟩ := bsearch_spec (fun a : Int × Int => decide (a.2 ≠ -1 ∧ a.2 ≤ toInt32 (max ts f.2)))
          (f :: l) 0 (f :: l).length (by simp)
        rcases h3 with h3 | ⟨a, ha, hb⟩
        · exact h3
        · have := hl a (List.mem_of_getElem? ha)
          simp [this] at hb
  rw [aliveRuns]
  have hs0 := hstart r hr
  split
  · simp
  · rename_i e rest h0
    rw [hs0, List.drop_zero] at h0
    subst h0
    have he := hr e (by simp)
    split
    · simp
    · rename_i hc
      intro x hx
      rcases List.mem_cons.1 hx with rfl | hx
      · rfl
      -- no second run
      exfalso
      have hal : aliveT ts e = true := by simp only [aliveT, decide_eq_true_eq]; omega
      have hpos := (findLast_alive ts e rest hs hal).1
      rw [if_neg (by omega)] at hx
      rw [aliveRuns] at hx
      have hr' : ∀ x ∈ (e :: rest).drop (findLast (e :: rest) ts), x.2 = -1 :=
        fun x hx => hr x (List.mem_of_mem_drop hx)
      have hs1 := hstart _ hr'
      split at hx
      · simp at hx
      · rename_i e' rest' h1
        rw [hs1, List.drop_zero] at h1
        have hge : (e :: rest)[findLast (e :: rest) ts]? = some e' := by
          have h5 := List.getElem?_drop (xs := e :: rest) (i := findLast (e :: rest) ts) (j := 0)
          rw [h1] at h5; exact h5.symm
        have hfut : e'.1 > ts := by
          have hng : ¬ e.1 > ts := by omega
          simp only [findLast, hng, if_false] at hge
          obtain ⟨-, -, -, h4⟩ := bsearch_spec (fun a : Int × Int => decide (¬ (a.2 > e.2 ∨ a.1 > ts)))
            (e :: rest) 0 (e :: rest).length (by simp)
          rcases h4 with h4 | ⟨a, ha, hb⟩
          · rw [h4, Nat.zero_add, List.getElem?_eq_none (Nat.le_refl _)] at hge; simp at hge
          · rw [hge] at ha
            obtain rfl := Option.some.inj ha
            have := hr e' (List.mem_of_getElem? hge)
            simp only [decide_eq_false_iff_not] at hb
            omega
        have he' := hr e' (List.mem_of_getElem? hge)
        rw [if_pos ⟨he', hfut⟩] at hx
        simp at hx


/-! The blocks offered to the reservoir -/

def edgePair (e : GEdge) : Int × Int := (e.dst, e.typ)

theorem mapM_flat {α β γ} (q : α → Option β) (F : β → List γ) (G : α → List γ) (l : List α)
    (h : ∀ a ∈ l, ∃ b, q a = some b ∧ F b = G a) :
    ∃ bs, l.mapM q = some bs ∧ bs.flatMap F = l.flatMap G := by
  induction l with
  | nil => exact ⟨[], rfl, rfl⟩
  | cons a l ih =>
    obtain ⟨b, h1, h2⟩ := h a (by simp)
    obtain ⟨bs, h3, h4⟩ := ih (fun a ha => h a (by simp [ha]))
    refine ⟨b :: bs, ?_, ?_⟩
    · simp [List.mapM_cons, h1, h3]
    · simp [h2, h4]

variable {C : WeightCodec} {m : Meta} {p : Partition} {k : Nat} {edges : List GEdge}
  {xs : List ((Int × List PEdge) × Nat)} {g : Graph} {items : List Item} {parts : List (List (List Rec))}

theorem GraphOk.mapEntries_flat (h : GraphOk C m g items parts) (n : Int) {β γ}
    (q : Partition × Nat → Option β) (F : β → List γ) (G : Blk → List γ)
    (hq : ∀ it ∈ items, ∀ x ∈ it.blks.zipIdx, x.1.id = n → ∃ r, q (it.part, x.2) = some r ∧ F r = G x.1) :
    ∃ es rs, g.entries n = some es ∧ es.mapM q = some rs ∧ rs.flatMap F =
      items.flatMap fun it => (it.blks.filter (fun b => b.id = n)).flatMap G := by
  have hen := (entries_items h.parts_eq h.inv n).1
  clear h
  suffices hk : ∃ rs, (items.flatMap fun it => (it.blks.zipIdx.filter (fun x => decide (x.1.id = n))).map
      fun x => (it.part, x.2)).mapM q = some rs ∧ rs.flatMap F =
      items.flatMap fun it => (it.blks.filter (fun b => b.id = n)).flatMap G by
    obtain ⟨rs, h1, h2⟩ := hk
    exact ⟨_, rs, hen, h1, h2⟩
  clear hen
  induction items with
  | nil => exact ⟨[], rfl, rfl⟩
  | cons it items ih =>
    obtain ⟨rs, h1, h2⟩ := ih (fun it hit => hq it (by simp [hit]))
    obtain ⟨bs, h3, h4⟩ := mapM_flat (fun x : Blk × Nat => q (it.part, x.2)) F (fun x => G x.1)
      (it.blks.zipIdx.filter (fun x => decide (x.1.id = n))) (by
        intro x hx
        obtain ⟨h1, h2⟩ := List.mem_filter.1 hx
        exact hq it (by simp) x h1 (by simpa using h2))
    refine ⟨bs ++ rs, ?_, ?_⟩
    · rw [List.flatMap_cons, List.mapM_append, List.mapM_map, h1]
      have h3' : List.mapM (q ∘ fun x : Blk × Nat => (it.part, x.2))
        (it.blks.zipIdx.filter (fun x => decide (x.1.id = n))) = some bs := h3
      rw [h3']; rfl
    · rw [List.flatMap_append, h2, h4, List.flatMap_cons]
      congr 1
      rw [← filter_zipIdx_map_fst _ it.blks 0, List.flatMap_map]

theorem NodeTables.dstSpan (h : NodeTables m p k edges xs) {x : (Int × List PEdge) × Nat} (hx : x ∈ xs)
    (a n : Nat) (hle : a + n ≤ x.1.2.length) :
    p.dstSpan (x.2 + a) n = some (((x.1.2.drop a).take n).map fun e => e.1.dst) := by
  have hl : ((x.1.2.drop a).take n).length = n := by rw [List.length_take, List.length_drop]; omega
  simp only [Partition.dstSpan]
  conv => lhs; rw [← hl]
  apply mapM_range'
  intro i hi
  rw [hl] at hi
  have := h.dst x hx (a + i) (by omega)
  rw [List.getElem_take, List.getElem_drop, Nat.add_assoc]
  exact this

/-- The pieces of a visited group hold the edges `keep`. -/
theorem NodeTables.sampleBlocks_of (h : NodeTables m p k edges xs) (w : Bool) (ts : Option Int)
    (types : List Int) (keep : GEdge → Bool)
    (hp : ∀ x ∈ xs, ∃ ps : List (Nat × Nat), p.pieces w ts (toGroup x) = some (ps.map fun y => (x.2 + y.1, y.2)) ∧
      (∀ y ∈ ps, y.1 + y.2 ≤ x.1.2.length) ∧
      ps.flatMap (fun y => (x.1.2.drop y.1).take y.2) = x.1.2.filter fun e => keep e.1) :
    ∃ bs, p.sampleBlocks w k ts types = some bs ∧
      bs.flatten = ((walkEdges edges types).filter keep).map edgePair := by
  simp only [Partition.sampleBlocks, h.groups, Option.bind_eq_bind, Option.bind_some, sampleGroups_walk,
    walk_toGroup, List.map_map]
  obtain ⟨bs, h1, h2⟩ := mapM_flat
    (fun x : (Int × List PEdge) × Nat => (p.pieces w ts (toGroup x)).bind fun ps =>
      ps.mapM fun y => (p.dstSpan y.1 y.2).map fun l => l.map fun d => (d, x.1.1))
    (fun bs => bs.flatten) (fun x => (x.1.2.filter fun e => keep e.1).map fun e => edgePair e.1)
    (visited xs types) (by
      intro x hx
      have hxm := mem_visited hx
      obtain ⟨ps, h1, h2, h3⟩ := hp x hxm
      rw [h1, Option.bind_some, List.mapM_map]
      obtain ⟨bs, h4, h5⟩ := mapM_flat
        (fun y : Nat × Nat => (p.dstSpan (x.2 + y.1) y.2).map fun l => l.map fun d => (d, x.1.1))
        (fun b => b) (fun y => ((x.1.2.drop y.1).take y.2).map fun e => edgePair e.1) ps (by
          intro y hy
          refine ⟨_, by rw [h.dstSpan hxm y.1 y.2 (h2 y hy)]; rfl, ?_⟩
          refine (List.map_map).trans ?_
          apply List.map_congr_left
          intro e he
          have := (h.typ_of_mem hxm).2 e (List.mem_of_mem_drop (List.mem_of_mem_take he))
          simp [edgePair, this])
      refine ⟨bs, ?_, ?_⟩
      · exact h4
      · rw [← h3, List.map_flatMap, ← h5]; simp)
  refine ⟨bs.flatten, ?_, ?_⟩
  · rw [List.mapM_map]
    have : ∀ x : (Int × List PEdge) × Nat, ((fun x : Group × Int => match x with
        | (g, e) => (p.pieces w ts g).bind fun ps => ps.mapM fun x => (p.dstSpan x.1 x.2).map fun l =>
            l.map fun d => (d, if w = true then e else g.typ)) ∘ (fun g : Group => (g, g.typ)) ∘ toGroup) x =
        (p.pieces w ts (toGroup x)).bind fun ps =>
      ps.mapM fun y => (p.dstSpan y.1 y.2).map fun l => l.map fun d => (d, x.1.1) := by
      intro x
      simp [Function.comp, toGroup]
    rw [show (_ : (Int × List PEdge) × Nat → Option (List (List (Int × Int)))) = _ from funext this, h1]
    rfl
  · have h4 : bs.flatten.flatten = bs.flatMap fun bs => bs.flatten := by
      rw [List.flatMap_def, ← List.flatten_flatten]
    rw [h4, h2, ← h.visited_edges types, List.filter_map, List.map_map, List.filter_flatMap, List.map_flatMap]
    rfl

theorem NodeTables.sampleBlocks (h : NodeTables m p k edges xs) (w : Bool) (types : List Int) :
    ∃ bs, p.sampleBlocks w k none types = some bs ∧ bs.flatten = (walkEdges edges types).map edgePair := by
  have := h.sampleBlocks_of w none types (fun _ => true) (by
    intro x hx
    refine ⟨[(0, x.1.2.length)], ?_, by simp, by
      simp only [List.flatMap_cons, List.drop_zero, List.take_length, List.flatMap_nil, List.append_nil]
      exact (List.filter_eq_self.2 (by simp)).symm⟩
    simp [Partition.pieces, toGroup])
  rwa [show (walkEdges edges types).filter (fun _ => true) = _ from List.filter_eq_self.2 (by simp)] at this

/-- The pieces at a timestamp hold the live edges: with replacement for ordered lifetimes, without replacement if in addition no
edge is ever removed. -/
theorem NodeTables.piecesAt (h : NodeTables m p k edges xs) (hwm : 0 ≤ m.watermark)
    (hs : EdgesTimesSorted edges) (w : Bool) (hw : w = true → ∀ e ∈ edges, e.removed = -1)
    (ts : Int) (hts : -(2 ^ 31) ≤ ts ∧ ts < 2 ^ 31) :
    ∀ x ∈ xs, ∃ ps : List (Nat × Nat), p.pieces w (some ts) (toGroup x) = some (ps.map fun y => (x.2 + y.1, y.2)) ∧
      (∀ y ∈ ps, y.1 + y.2 ≤ x.1.2.length) ∧
      ps.flatMap (fun y => (x.1.2.drop y.1).take y.2) = x.1.2.filter fun e => liveB ts e.1 := by
  intro x hx
  obtain ⟨hne, htyp⟩ := h.typ_of_mem hx
  have hnt : p.edgeTimestamps ≠ [] := by
    intro h0
    have hpos : 0 < x.1.2.length := List.length_pos_iff.2 hne
    have := h.ts hwm x hx 0 hpos
    rw [h0] at this; simp at this
  have hsub : x.1.2.map (·.1) <:+: edges := by
    obtain ⟨o, ho⟩ := h.xruns
    have h1 : x.1 ∈ runs ptyp (withOffs nfeats o edges) := by
      rw [← ho]; exact List.mem_map_of_mem hx
    have := infix_flatMap (fun g : Int × List PEdge => g.2) h1
    rw [runs_flatMap] at this
    have := this.map (·.1)
    rwa [map_fst_withOffs] at this
  have hsorted : TimesSorted (x.1.2.map fun e => times e.1) := by
    have h3 : (x.1.2.map (·.1)).Pairwise fun x y => x.typ = y.typ →
        x.created ≤ y.created ∧ remLe x.removed y.removed := hs.sublist hsub.sublist
    rw [List.pairwise_map] at h3
    simp only [TimesSorted, List.pairwise_map]
    refine h3.imp_of_mem ?_
    intro a b ha hb hab
    exact hab (by rw [htyp a ha, htyp b hb])
  obtain ⟨h1, h2⟩ := aliveRuns_spec (fun e : PEdge => times e.1) ts hts x.1.2 [] hsorted
  simp only [List.length_nil, Nat.zero_add, List.nil_append] at h1 h2
  refine ⟨(aliveRuns ts 0 (x.1.2.map fun e => times e.1)).map fun y => (y.1, y.2.2), ?_, ?_, ?_⟩
  · simp only [Partition.pieces, hnt, if_false, h.groupTimes hwm hx, Option.map_some, Option.some.injEq,
      List.map_map]
    apply List.map_congr_left
    intro y hy
    simp only [toGroup, Function.comp, Prod.mk.injEq, and_true]
    cases w with
    | false => simp
    | true =>
      have hun := aliveRuns_unremoved ts 0 _ hsorted (by
        intro z hz
        obtain ⟨e, he, rfl⟩ := List.mem_map.1 hz
        exact hw rfl e.1 (hsub.subset (List.mem_map_of_mem he))) y hy
      simp only [if_true]; omega
  · intro y hy
    obtain ⟨z, hz, rfl⟩ := List.mem_map.1 hy
    exact h1 z hz
  · rw [List.flatMap_map]
    exact h2

theorem NodeTables.sampleBlocksAt (h : NodeTables m p k edges xs) (hwm : 0 ≤ m.watermark)
    (hs : EdgesTimesSorted edges) (w : Bool) (hw : w = true → ∀ e ∈ edges, e.removed = -1)
    (ts : Int) (hts : -(2 ^ 31) ≤ ts ∧ ts < 2 ^ 31) (types : List Int) :
    ∃ bs, p.sampleBlocks w k (some ts) types = some bs ∧
      bs.flatten = ((walkEdges edges types).filter (liveB ts)).map edgePair :=
  h.sampleBlocks_of w (some ts) types (liveB ts) (h.piecesAt hwm hs w hw ts hts)

/-- What the sampling of node `n` is offered. -/
theorem GraphOk.sampleBlocks (h : GraphOk C m g items parts) (n : Int) (w : Bool) (types : List Int) :
    ∃ es bs, g.entries n = some es ∧
      es.mapM (fun x : Partition × Nat => x.1.sampleBlocks w x.2 none types) = some bs ∧
      bs.flatten.flatten = (foundEdges items n types).map edgePair := by
  obtain ⟨es, bs, h1, h2, h3⟩ := h.mapEntries_flat n (fun x => x.1.sampleBlocks w x.2 none types)
    (fun b => b.flatten) (fun b => (walkEdges b.edges types).map edgePair) (by
      intro it hit x hx _
      obtain ⟨xs, ht⟩ := (h.ok it hit).tables hx
      exact ht.sampleBlocks w types)
  refine ⟨es, bs, h1, h2, ?_⟩
  rw [List.flatMap_def, ← List.flatten_flatten] at h3
  rw [h3, foundEdges, List.map_flatMap]
  simp only [List.map_flatMap]

theorem GraphOk.sampleBlocksAt (h : GraphOk C m g items parts) (hwm : 0 ≤ m.watermark) (n : Int) (w : Bool)
    (ts : Int) (hts : -(2 ^ 31) ≤ ts ∧ ts < 2 ^ 31) (types : List Int)
    (hs : ∀ it ∈ items, ∀ b ∈ it.blks, b.id = n → EdgesTimesSorted b.edges)
    (hw : w = true → ∀ it ∈ items, ∀ b ∈ it.blks, b.id = n → ∀ e ∈ b.edges, e.removed = -1) :
    ∃ es bs, g.entries n = some es ∧
      es.mapM (fun x : Partition × Nat => x.1.sampleBlocks w x.2 (some ts) types) = some bs ∧
      bs.flatten.flatten = ((foundEdges items n types).filter (liveB ts)).map edgePair := by
  obtain ⟨es, bs, h1, h2, h3⟩ := h.mapEntries_flat n (fun x => x.1.sampleBlocks w x.2 (some ts) types)
    (fun b => b.flatten) (fun b => ((walkEdges b.edges types).filter (liveB ts)).map edgePair) (by
      intro it hit x hx hxn
      obtain ⟨xs, ht⟩ := (h.ok it hit).tables hx
      have hmem : x.1 ∈ it.blks := (List.mem_zipIdx_iff_getElem?.1 hx) |> List.mem_of_getElem?
      exact ht.sampleBlocksAt hwm (hs it hit x.1 hmem hxn) w (fun hw' => hw hw' it hit x.1 hmem hxn) ts hts types)
  refine ⟨es, bs, h1, h2, ?_⟩
  rw [List.flatMap_def, ← List.flatten_flatten] at h3
  rw [h3, foundEdges, List.filter_flatMap, List.map_flatMap]
  simp only [List.filter_flatMap, List.map_flatMap]

theorem length_flatten2 {α} (l : List (List α)) : (l.map List.length).sum = l.flatten.length := by
  rw [List.length_flatten]

/-- Sampling one node without replacement from the offered blocks. -/
theorem sampleWithout_of_blocks (R : Draws) (ts : Option Int) (types : List Int) (default : Int × Int) (n : Int)
    (out : List (Int × Int)) (hout : 0 < out.length) (s : Nat) {es : List (Partition × Nat)}
    {bs : List (List (List (Int × Int)))} (h1 : g.entries n = some es)
    (h2 : es.mapM (fun x : Partition × Nat => x.1.sampleBlocks true x.2 ts (sortUnique types)) = some bs) :
    ∃ out' s', g.sampleWithout1 R ts types out.length default n out s = some (out', s') ∧
      Spec.Selection bs.flatten.flatten (List.replicate out.length default) out' := by
  obtain ⟨o, a, s', h3, h4, h5⟩ := AlgL.run_selection R bs.flatten out hout s
  simp only [Graph.sampleWithout1, h1, Option.bind_eq_bind, Option.bind_some]
  have h2' : es.mapM (fun (x : Partition × Nat) =>
      match x with | (p, id) => p.sampleBlocks true id ts (sortUnique types)) = _ := h2
  rw [h2', Option.bind_some]
  simp only [AlgL.run] at h3
  rw [h3]
  refine ⟨_, s', rfl, ?_⟩
  rw [length_flatten2]
  obtain ⟨chosen, ps, e1, e2, e3, e4⟩ := h5
  refine ⟨chosen, ps, ?_, by simpa using e2, e3, e4⟩
  split
  · rename_i hlt
    have hcl : chosen.length = bs.flatten.flatten.length := by omega
    rw [e1, ← hcl, List.take_left, List.drop_replicate, ← e1, h4]
  · rename_i hge
    have hcl : chosen.length = out.length := by omega
    rw [e1, hcl]; simp

theorem sampleWith_of_blocks (R : Draws) (ts : Option Int) (types : List Int) (default : Int × Int) (n : Int)
    (out : List (Int × Int)) (s : Nat) {es : List (Partition × Nat)}
    {bs : List (List (List (Int × Int)))} (h1 : g.entries n = some es)
    (h2 : es.mapM (fun x : Partition × Nat => x.1.sampleBlocks false x.2 ts (sortUnique types)) = some bs) :
    ∃ out' s', g.sampleWith1 R ts types out.length default n out s = some (out', s') ∧
      out'.length = out.length ∧
      (bs.flatten.flatten = [] → out' = List.replicate out.length default) ∧
      (bs.flatten.flatten ≠ [] → ∀ x ∈ out', x ∈ bs.flatten.flatten) := by
  obtain ⟨o, a, s', h3, h4⟩ := withReplacement_run R out.length bs.flatten (all := []) (out0 := out)
    ⟨rfl, rfl, fun _ => rfl, by simp⟩ s
  rw [List.nil_append] at h4
  simp only [Graph.sampleWith1, h1, Option.bind_eq_bind, Option.bind_some]
  have h2' : es.mapM (fun (x : Partition × Nat) =>
      match x with | (p, id) => p.sampleBlocks false id ts (sortUnique types)) = _ := h2
  rw [h2', Option.bind_some]
  rw [show List.foldlM (fun st (xs : List (Int × Int)) => withReplacementAdd R (store xs) out.length xs.length st)
    (out, 0, s) bs.flatten = _ from h3]
  simp only [Option.bind_some, length_flatten2]
  by_cases hne : bs.flatten.flatten = []
  · refine ⟨List.replicate out.length default, s', ?_, by simp, fun _ => rfl, fun h => absurd hne h⟩
    rw [hne]
    simp only [List.length_nil, gt_iff_lt, Nat.lt_irrefl, if_false, Option.pure_def, List.take_zero,
      List.nil_append, Nat.sub_zero, h4.len]
    split
    · rfl
    · have : out.length = 0 := by omega
      have h6 : o = [] := List.length_eq_zero_iff.1 (by rw [h4.len, this])
      rw [h6, this]; rfl
  · refine ⟨o, s', ?_, h4.len, fun h => absurd h hne, h4.mem⟩
    rw [if_pos (List.length_pos_iff.2 hne)]; rfl

/-- The loop over the requests. -/
theorem sampleNodes_spec {α β} (q : α → List β → Nat → Option (List β × Nat)) (P : α → List β → List β → Prop)
    (l : List (α × List β)) (s : Nat)
    (h : ∀ x ∈ l, ∀ s, ∃ o s', q x.1 x.2 s = some (o, s') ∧ P x.1 x.2 o) :
    ∃ os s', sampleNodes q l s = some (os, s') ∧ os.length = l.length ∧ ∀ y ∈ l.zip os, P y.1.1 y.1.2 y.2 := by
  induction l generalizing s with
  | nil => exact ⟨[], s, rfl, rfl, by simp⟩
  | cons x l ih =>
    obtain ⟨o, s1, h1, h2⟩ := h x (by simp) s
    obtain ⟨os, s2, h3, h4, h5⟩ := ih s1 (fun x hx => h x (by simp [hx]))
    refine ⟨o :: os, s2, ?_, by simp [h4], ?_⟩
    · simp [sampleNodes, h1, h3]
    · intro y hy
      rw [List.zip_cons_cons] at hy
      rcases List.mem_cons.1 hy with rfl | hy
      · exact h2
      · exact h5 y hy

theorem uniformSample_spec (g : Graph) (R : Draws) (w : Bool) (types : List Int) (count : Nat)
    (default : Int × Int) (P : Int × Option Int → List (Int × Int) → Prop)
    (reqs : List ((Int × Option Int) × List (Int × Int))) (s : Nat)
    (h : ∀ q ∈ reqs, ∀ s, ∃ o s', (if w then g.sampleWithout1 R q.1.2 types count default q.1.1 q.2 s
      else g.sampleWith1 R q.1.2 types count default q.1.1 q.2 s) = some (o, s') ∧ P q.1 o) :
    ∃ outs s', g.uniformSample R w types count default reqs s = some (outs, s') ∧
      outs.length = reqs.length ∧ ∀ y ∈ reqs.zip outs, P y.1.1 y.2 :=
  sampleNodes_spec _ (fun a _ o => P a o) reqs s h

end DeepGNN
